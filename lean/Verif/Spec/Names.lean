import Verif.Model.Basic

/-! # Registries the name tables are compared with (written from the registries) -/

namespace Verif.Spec

/-- Assigned Internet protocol numbers (IANA registry) of the protocols in practical use, under the
names the crate gives them. -/
def ianaProtocols : List (String × Nat) := [
  ("Hopopt", 0), ("Icmp", 1), ("Igmp", 2), ("Ipv4", 4), ("Tcp", 6), ("Egp", 8), ("Igp", 9),
  ("Udp", 17), ("Rdp", 27), ("Dccp", 33), ("Ipv6", 41), ("Ipv6Route", 43), ("Ipv6Frag", 44),
  ("Rsvp", 46), ("Gre", 47), ("Esp", 50), ("Ah", 51), ("Icmpv6", 58), ("Ipv6NoNxt", 59),
  ("Ipv6Opts", 60), ("Eigrp", 88), ("OspfigP", 89), ("IpIp", 94), ("Etherip", 97), ("Pim", 103),
  ("IpComp", 108), ("Vrrp", 112), ("L2tp", 115), ("Stp", 118), ("IsisOverIpv4", 124), ("Sctp", 132),
  ("Fc", 133), ("MobilityHeader", 135), ("UdpLite", 136), ("MplsInIp", 137), ("Manet", 138),
  ("Hip", 139), ("Shim6", 140), ("Wesp", 141), ("Rohc", 142), ("Reserved", 255)]

/-- EtherTypes (IEEE 802 numbers), under the names the crate gives them. -/
def ieeeEtherTypes : List (String × Nat) := [
  ("Ipv4", 0x0800), ("Arp", 0x0806), ("WakeOnLan", 0x0842), ("Trill", 0x22F3), ("DECnet", 0x6003),
  ("Rarp", 0x8035), ("AppleTalk", 0x809B), ("Aarp", 0x80F3), ("Vlan", 0x8100), ("Ipx", 0x8137),
  ("Qnx", 0x8204), ("Ipv6", 0x86DD), ("FlowControl", 0x8808), ("CobraNet", 0x8819),
  ("Mpls", 0x8847), ("MplsMcast", 0x8848), ("PppoeDiscovery", 0x8863), ("PppoeSession", 0x8864),
  ("PBridge", 0x88A8), ("Lldp", 0x88CC), ("Ptp", 0x88F7), ("Cfm", 0x8902), ("QinQ", 0x9100)]

/-- QUIC frame types (RFC 9000, table 3): first and last type of each frame. -/
def quicFrames : List (String × Nat × Nat) := [
  ("padding", 0x00, 0x00), ("ping", 0x01, 0x01), ("ack", 0x02, 0x03), ("reset-stream", 0x04, 0x04),
  ("stop-sending", 0x05, 0x05), ("crypto", 0x06, 0x06), ("new-token", 0x07, 0x07),
  ("stream", 0x08, 0x0f), ("max-data", 0x10, 0x10), ("max-stream-data", 0x11, 0x11),
  ("max-streams", 0x12, 0x13), ("data-blocked", 0x14, 0x14), ("stream-data-blocked", 0x15, 0x15),
  ("streams-blocked", 0x16, 0x17), ("new-connection-id", 0x18, 0x18),
  ("retire-connection-id", 0x19, 0x19), ("path-challenge", 0x1a, 0x1a), ("path-response", 0x1b, 0x1b),
  ("connection-close", 0x1c, 0x1d), ("handshake-done", 0x1e, 0x1e)]

end Verif.Spec
