import Verif.Model.Basic

/-!
# Name tables (`src/ip.rs`, `src/ethernet.rs`, `src/quic.rs`)

The constants and the match arms are transcribed one by one. A newtype around an integer is
modelled by the integer. A Rust `match` on constants takes the first arm whose constant equals the
scrutinee.
-/

namespace Verif

/-- `match self { &C1 => n1, &C2 => n2, ..., _ => "unknown" }`: first matching arm. -/
def matchName : (arms : List (Nat × String)) → Nat → String
  | [], _ => "unknown"
  | (c, name) :: arms, v => if v = c then name else matchName arms v

/-! ## `IpNextHeaderProtocols`, `src/ip.rs:24-467` -/

namespace IpNextHeaderProtocols

abbrev Hopopt : Nat := 0
abbrev Icmp : Nat := 1
abbrev Igmp : Nat := 2
abbrev Ggp : Nat := 3
abbrev Ipv4 : Nat := 4
abbrev St : Nat := 5
abbrev Tcp : Nat := 6
abbrev Cbt : Nat := 7
abbrev Egp : Nat := 8
abbrev Igp : Nat := 9
abbrev BbnRccMon : Nat := 10
abbrev NvpII : Nat := 11
abbrev Pup : Nat := 12
abbrev Argus : Nat := 13
abbrev Emcon : Nat := 14
abbrev Xnet : Nat := 15
abbrev Chaos : Nat := 16
abbrev Udp : Nat := 17
abbrev Mux : Nat := 18
abbrev DcnMeas : Nat := 19
abbrev Hmp : Nat := 20
abbrev Prm : Nat := 21
abbrev XnsIdp : Nat := 22
abbrev Trunk1 : Nat := 23
abbrev Trunk2 : Nat := 24
abbrev Leaf1 : Nat := 25
abbrev Leaf2 : Nat := 26
abbrev Rdp : Nat := 27
abbrev Irtp : Nat := 28
abbrev IsoTp4 : Nat := 29
abbrev Netblt : Nat := 30
abbrev MfeNsp : Nat := 31
abbrev MeritInp : Nat := 32
abbrev Dccp : Nat := 33
abbrev ThreePc : Nat := 34
abbrev Idpr : Nat := 35
abbrev Xtp : Nat := 36
abbrev Ddp : Nat := 37
abbrev IdprCmtp : Nat := 38
abbrev TpPlusPlus : Nat := 39
abbrev Il : Nat := 40
abbrev Ipv6 : Nat := 41
abbrev Sdrp : Nat := 42
abbrev Ipv6Route : Nat := 43
abbrev Ipv6Frag : Nat := 44
abbrev Idrp : Nat := 45
abbrev Rsvp : Nat := 46
abbrev Gre : Nat := 47
abbrev Dsr : Nat := 48
abbrev Bna : Nat := 49
abbrev Esp : Nat := 50
abbrev Ah : Nat := 51
abbrev INlsp : Nat := 52
abbrev Swipe : Nat := 53
abbrev Narp : Nat := 54
abbrev Mobile : Nat := 55
abbrev Tlsp : Nat := 56
abbrev Skip : Nat := 57
abbrev Ipv6Icmp : Nat := 58
abbrev Icmpv6 : Nat := 58
abbrev Ipv6NoNxt : Nat := 59
abbrev Ipv6Opts : Nat := 60
abbrev HostInternal : Nat := 61
abbrev Cftp : Nat := 62
abbrev LocalNetwork : Nat := 63
abbrev SatExpak : Nat := 64
abbrev Kryptolan : Nat := 65
abbrev Rvd : Nat := 66
abbrev Ippc : Nat := 67
abbrev DistributedFs : Nat := 68
abbrev SatMon : Nat := 69
abbrev Visa : Nat := 70
abbrev Ipcv : Nat := 71
abbrev Cpnx : Nat := 72
abbrev Cphb : Nat := 73
abbrev Wsn : Nat := 74
abbrev Pvp : Nat := 75
abbrev BrSatMon : Nat := 76
abbrev SunNd : Nat := 77
abbrev WbMon : Nat := 78
abbrev WbExpak : Nat := 79
abbrev IsoIp : Nat := 80
abbrev Vmtp : Nat := 81
abbrev SecureVmtp : Nat := 82
abbrev Vines : Nat := 83
abbrev TtpOrIptm : Nat := 84
abbrev NsfnetIgp : Nat := 85
abbrev Dgp : Nat := 86
abbrev Tcf : Nat := 87
abbrev Eigrp : Nat := 88
abbrev OspfigP : Nat := 89
abbrev SpriteRpc : Nat := 90
abbrev Larp : Nat := 91
abbrev Mtp : Nat := 92
abbrev Ax25 : Nat := 93
abbrev IpIp : Nat := 94
abbrev Micp : Nat := 95
abbrev SccSp : Nat := 96
abbrev Etherip : Nat := 97
abbrev Encap : Nat := 98
abbrev PrivEncryption : Nat := 99
abbrev Gmtp : Nat := 100
abbrev Ifmp : Nat := 101
abbrev Pnni : Nat := 102
abbrev Pim : Nat := 103
abbrev Aris : Nat := 104
abbrev Scps : Nat := 105
abbrev Qnx : Nat := 106
abbrev AN : Nat := 107
abbrev IpComp : Nat := 108
abbrev Snp : Nat := 109
abbrev CompaqPeer : Nat := 110
abbrev IpxInIp : Nat := 111
abbrev Vrrp : Nat := 112
abbrev Pgm : Nat := 113
abbrev ZeroHop : Nat := 114
abbrev L2tp : Nat := 115
abbrev Ddx : Nat := 116
abbrev Iatp : Nat := 117
abbrev Stp : Nat := 118
abbrev Srp : Nat := 119
abbrev Uti : Nat := 120
abbrev Smp : Nat := 121
abbrev Sm : Nat := 122
abbrev Ptp : Nat := 123
abbrev IsisOverIpv4 : Nat := 124
abbrev Fire : Nat := 125
abbrev Crtp : Nat := 126
abbrev Crudp : Nat := 127
abbrev Sscopmce : Nat := 128
abbrev Iplt : Nat := 129
abbrev Sps : Nat := 130
abbrev Pipe : Nat := 131
abbrev Sctp : Nat := 132
abbrev Fc : Nat := 133
abbrev RsvpE2eIgnore : Nat := 134
abbrev MobilityHeader : Nat := 135
abbrev UdpLite : Nat := 136
abbrev MplsInIp : Nat := 137
abbrev Manet : Nat := 138
abbrev Hip : Nat := 139
abbrev Shim6 : Nat := 140
abbrev Wesp : Nat := 141
abbrev Rohc : Nat := 142
abbrev Test1 : Nat := 253
abbrev Test2 : Nat := 254
abbrev Reserved : Nat := 255

end IpNextHeaderProtocols

/-- The constants of `IpNextHeaderProtocols` with their names, `src/ip.rs:24-467`. -/
def ipConsts : List (String × Nat) := [
  ("Hopopt", IpNextHeaderProtocols.Hopopt),
  ("Icmp", IpNextHeaderProtocols.Icmp),
  ("Igmp", IpNextHeaderProtocols.Igmp),
  ("Ggp", IpNextHeaderProtocols.Ggp),
  ("Ipv4", IpNextHeaderProtocols.Ipv4),
  ("St", IpNextHeaderProtocols.St),
  ("Tcp", IpNextHeaderProtocols.Tcp),
  ("Cbt", IpNextHeaderProtocols.Cbt),
  ("Egp", IpNextHeaderProtocols.Egp),
  ("Igp", IpNextHeaderProtocols.Igp),
  ("BbnRccMon", IpNextHeaderProtocols.BbnRccMon),
  ("NvpII", IpNextHeaderProtocols.NvpII),
  ("Pup", IpNextHeaderProtocols.Pup),
  ("Argus", IpNextHeaderProtocols.Argus),
  ("Emcon", IpNextHeaderProtocols.Emcon),
  ("Xnet", IpNextHeaderProtocols.Xnet),
  ("Chaos", IpNextHeaderProtocols.Chaos),
  ("Udp", IpNextHeaderProtocols.Udp),
  ("Mux", IpNextHeaderProtocols.Mux),
  ("DcnMeas", IpNextHeaderProtocols.DcnMeas),
  ("Hmp", IpNextHeaderProtocols.Hmp),
  ("Prm", IpNextHeaderProtocols.Prm),
  ("XnsIdp", IpNextHeaderProtocols.XnsIdp),
  ("Trunk1", IpNextHeaderProtocols.Trunk1),
  ("Trunk2", IpNextHeaderProtocols.Trunk2),
  ("Leaf1", IpNextHeaderProtocols.Leaf1),
  ("Leaf2", IpNextHeaderProtocols.Leaf2),
  ("Rdp", IpNextHeaderProtocols.Rdp),
  ("Irtp", IpNextHeaderProtocols.Irtp),
  ("IsoTp4", IpNextHeaderProtocols.IsoTp4),
  ("Netblt", IpNextHeaderProtocols.Netblt),
  ("MfeNsp", IpNextHeaderProtocols.MfeNsp),
  ("MeritInp", IpNextHeaderProtocols.MeritInp),
  ("Dccp", IpNextHeaderProtocols.Dccp),
  ("ThreePc", IpNextHeaderProtocols.ThreePc),
  ("Idpr", IpNextHeaderProtocols.Idpr),
  ("Xtp", IpNextHeaderProtocols.Xtp),
  ("Ddp", IpNextHeaderProtocols.Ddp),
  ("IdprCmtp", IpNextHeaderProtocols.IdprCmtp),
  ("TpPlusPlus", IpNextHeaderProtocols.TpPlusPlus),
  ("Il", IpNextHeaderProtocols.Il),
  ("Ipv6", IpNextHeaderProtocols.Ipv6),
  ("Sdrp", IpNextHeaderProtocols.Sdrp),
  ("Ipv6Route", IpNextHeaderProtocols.Ipv6Route),
  ("Ipv6Frag", IpNextHeaderProtocols.Ipv6Frag),
  ("Idrp", IpNextHeaderProtocols.Idrp),
  ("Rsvp", IpNextHeaderProtocols.Rsvp),
  ("Gre", IpNextHeaderProtocols.Gre),
  ("Dsr", IpNextHeaderProtocols.Dsr),
  ("Bna", IpNextHeaderProtocols.Bna),
  ("Esp", IpNextHeaderProtocols.Esp),
  ("Ah", IpNextHeaderProtocols.Ah),
  ("INlsp", IpNextHeaderProtocols.INlsp),
  ("Swipe", IpNextHeaderProtocols.Swipe),
  ("Narp", IpNextHeaderProtocols.Narp),
  ("Mobile", IpNextHeaderProtocols.Mobile),
  ("Tlsp", IpNextHeaderProtocols.Tlsp),
  ("Skip", IpNextHeaderProtocols.Skip),
  ("Ipv6Icmp", IpNextHeaderProtocols.Ipv6Icmp),
  ("Icmpv6", IpNextHeaderProtocols.Icmpv6),
  ("Ipv6NoNxt", IpNextHeaderProtocols.Ipv6NoNxt),
  ("Ipv6Opts", IpNextHeaderProtocols.Ipv6Opts),
  ("HostInternal", IpNextHeaderProtocols.HostInternal),
  ("Cftp", IpNextHeaderProtocols.Cftp),
  ("LocalNetwork", IpNextHeaderProtocols.LocalNetwork),
  ("SatExpak", IpNextHeaderProtocols.SatExpak),
  ("Kryptolan", IpNextHeaderProtocols.Kryptolan),
  ("Rvd", IpNextHeaderProtocols.Rvd),
  ("Ippc", IpNextHeaderProtocols.Ippc),
  ("DistributedFs", IpNextHeaderProtocols.DistributedFs),
  ("SatMon", IpNextHeaderProtocols.SatMon),
  ("Visa", IpNextHeaderProtocols.Visa),
  ("Ipcv", IpNextHeaderProtocols.Ipcv),
  ("Cpnx", IpNextHeaderProtocols.Cpnx),
  ("Cphb", IpNextHeaderProtocols.Cphb),
  ("Wsn", IpNextHeaderProtocols.Wsn),
  ("Pvp", IpNextHeaderProtocols.Pvp),
  ("BrSatMon", IpNextHeaderProtocols.BrSatMon),
  ("SunNd", IpNextHeaderProtocols.SunNd),
  ("WbMon", IpNextHeaderProtocols.WbMon),
  ("WbExpak", IpNextHeaderProtocols.WbExpak),
  ("IsoIp", IpNextHeaderProtocols.IsoIp),
  ("Vmtp", IpNextHeaderProtocols.Vmtp),
  ("SecureVmtp", IpNextHeaderProtocols.SecureVmtp),
  ("Vines", IpNextHeaderProtocols.Vines),
  ("TtpOrIptm", IpNextHeaderProtocols.TtpOrIptm),
  ("NsfnetIgp", IpNextHeaderProtocols.NsfnetIgp),
  ("Dgp", IpNextHeaderProtocols.Dgp),
  ("Tcf", IpNextHeaderProtocols.Tcf),
  ("Eigrp", IpNextHeaderProtocols.Eigrp),
  ("OspfigP", IpNextHeaderProtocols.OspfigP),
  ("SpriteRpc", IpNextHeaderProtocols.SpriteRpc),
  ("Larp", IpNextHeaderProtocols.Larp),
  ("Mtp", IpNextHeaderProtocols.Mtp),
  ("Ax25", IpNextHeaderProtocols.Ax25),
  ("IpIp", IpNextHeaderProtocols.IpIp),
  ("Micp", IpNextHeaderProtocols.Micp),
  ("SccSp", IpNextHeaderProtocols.SccSp),
  ("Etherip", IpNextHeaderProtocols.Etherip),
  ("Encap", IpNextHeaderProtocols.Encap),
  ("PrivEncryption", IpNextHeaderProtocols.PrivEncryption),
  ("Gmtp", IpNextHeaderProtocols.Gmtp),
  ("Ifmp", IpNextHeaderProtocols.Ifmp),
  ("Pnni", IpNextHeaderProtocols.Pnni),
  ("Pim", IpNextHeaderProtocols.Pim),
  ("Aris", IpNextHeaderProtocols.Aris),
  ("Scps", IpNextHeaderProtocols.Scps),
  ("Qnx", IpNextHeaderProtocols.Qnx),
  ("AN", IpNextHeaderProtocols.AN),
  ("IpComp", IpNextHeaderProtocols.IpComp),
  ("Snp", IpNextHeaderProtocols.Snp),
  ("CompaqPeer", IpNextHeaderProtocols.CompaqPeer),
  ("IpxInIp", IpNextHeaderProtocols.IpxInIp),
  ("Vrrp", IpNextHeaderProtocols.Vrrp),
  ("Pgm", IpNextHeaderProtocols.Pgm),
  ("ZeroHop", IpNextHeaderProtocols.ZeroHop),
  ("L2tp", IpNextHeaderProtocols.L2tp),
  ("Ddx", IpNextHeaderProtocols.Ddx),
  ("Iatp", IpNextHeaderProtocols.Iatp),
  ("Stp", IpNextHeaderProtocols.Stp),
  ("Srp", IpNextHeaderProtocols.Srp),
  ("Uti", IpNextHeaderProtocols.Uti),
  ("Smp", IpNextHeaderProtocols.Smp),
  ("Sm", IpNextHeaderProtocols.Sm),
  ("Ptp", IpNextHeaderProtocols.Ptp),
  ("IsisOverIpv4", IpNextHeaderProtocols.IsisOverIpv4),
  ("Fire", IpNextHeaderProtocols.Fire),
  ("Crtp", IpNextHeaderProtocols.Crtp),
  ("Crudp", IpNextHeaderProtocols.Crudp),
  ("Sscopmce", IpNextHeaderProtocols.Sscopmce),
  ("Iplt", IpNextHeaderProtocols.Iplt),
  ("Sps", IpNextHeaderProtocols.Sps),
  ("Pipe", IpNextHeaderProtocols.Pipe),
  ("Sctp", IpNextHeaderProtocols.Sctp),
  ("Fc", IpNextHeaderProtocols.Fc),
  ("RsvpE2eIgnore", IpNextHeaderProtocols.RsvpE2eIgnore),
  ("MobilityHeader", IpNextHeaderProtocols.MobilityHeader),
  ("UdpLite", IpNextHeaderProtocols.UdpLite),
  ("MplsInIp", IpNextHeaderProtocols.MplsInIp),
  ("Manet", IpNextHeaderProtocols.Manet),
  ("Hip", IpNextHeaderProtocols.Hip),
  ("Shim6", IpNextHeaderProtocols.Shim6),
  ("Wesp", IpNextHeaderProtocols.Wesp),
  ("Rohc", IpNextHeaderProtocols.Rohc),
  ("Test1", IpNextHeaderProtocols.Test1),
  ("Test2", IpNextHeaderProtocols.Test2),
  ("Reserved", IpNextHeaderProtocols.Reserved)]

/-- The arms of `Display for IpNextHeaderProtocol`, `src/ip.rs:494-640`. -/
def ipArms : List (Nat × String) := [
  (IpNextHeaderProtocols.Hopopt, "Hopopt"),
  (IpNextHeaderProtocols.Icmp, "Icmp"),
  (IpNextHeaderProtocols.Igmp, "Igmp"),
  (IpNextHeaderProtocols.Ggp, "Ggp"),
  (IpNextHeaderProtocols.Ipv4, "Ipv4"),
  (IpNextHeaderProtocols.St, "St"),
  (IpNextHeaderProtocols.Tcp, "Tcp"),
  (IpNextHeaderProtocols.Cbt, "Cbt"),
  (IpNextHeaderProtocols.Egp, "Egp"),
  (IpNextHeaderProtocols.Igp, "Igp"),
  (IpNextHeaderProtocols.BbnRccMon, "BbnRccMon"),
  (IpNextHeaderProtocols.NvpII, "NvpII"),
  (IpNextHeaderProtocols.Pup, "Pup"),
  (IpNextHeaderProtocols.Argus, "Argus"),
  (IpNextHeaderProtocols.Emcon, "Emcon"),
  (IpNextHeaderProtocols.Xnet, "Xnet"),
  (IpNextHeaderProtocols.Chaos, "Chaos"),
  (IpNextHeaderProtocols.Udp, "Udp"),
  (IpNextHeaderProtocols.Mux, "Mux"),
  (IpNextHeaderProtocols.DcnMeas, "DcnMeas"),
  (IpNextHeaderProtocols.Hmp, "Hmp"),
  (IpNextHeaderProtocols.Prm, "Prm"),
  (IpNextHeaderProtocols.XnsIdp, "XnsIdp"),
  (IpNextHeaderProtocols.Trunk1, "Trunk1"),
  (IpNextHeaderProtocols.Trunk2, "Trunk2"),
  (IpNextHeaderProtocols.Leaf1, "Leaf1"),
  (IpNextHeaderProtocols.Leaf2, "Leaf2"),
  (IpNextHeaderProtocols.Rdp, "Rdp"),
  (IpNextHeaderProtocols.Irtp, "Irtp"),
  (IpNextHeaderProtocols.IsoTp4, "IsoTp4"),
  (IpNextHeaderProtocols.Netblt, "Netblt"),
  (IpNextHeaderProtocols.MfeNsp, "MfeNsp"),
  (IpNextHeaderProtocols.MeritInp, "MeritInp"),
  (IpNextHeaderProtocols.Dccp, "Dccp"),
  (IpNextHeaderProtocols.ThreePc, "ThreePc"),
  (IpNextHeaderProtocols.Idpr, "Idpr"),
  (IpNextHeaderProtocols.Xtp, "Xtp"),
  (IpNextHeaderProtocols.Ddp, "Ddp"),
  (IpNextHeaderProtocols.IdprCmtp, "IdprCmtp"),
  (IpNextHeaderProtocols.TpPlusPlus, "TpPlusPlus"),
  (IpNextHeaderProtocols.Il, "Il"),
  (IpNextHeaderProtocols.Ipv6, "Ipv6"),
  (IpNextHeaderProtocols.Sdrp, "Sdrp"),
  (IpNextHeaderProtocols.Ipv6Route, "Ipv6Route"),
  (IpNextHeaderProtocols.Ipv6Frag, "Ipv6Frag"),
  (IpNextHeaderProtocols.Idrp, "Idrp"),
  (IpNextHeaderProtocols.Rsvp, "Rsvp"),
  (IpNextHeaderProtocols.Gre, "Gre"),
  (IpNextHeaderProtocols.Dsr, "Dsr"),
  (IpNextHeaderProtocols.Bna, "Bna"),
  (IpNextHeaderProtocols.Esp, "Esp"),
  (IpNextHeaderProtocols.Ah, "Ah"),
  (IpNextHeaderProtocols.INlsp, "INlsp"),
  (IpNextHeaderProtocols.Swipe, "Swipe"),
  (IpNextHeaderProtocols.Narp, "Narp"),
  (IpNextHeaderProtocols.Mobile, "Mobile"),
  (IpNextHeaderProtocols.Tlsp, "Tlsp"),
  (IpNextHeaderProtocols.Skip, "Skip"),
  (IpNextHeaderProtocols.Icmpv6, "Icmpv6"),
  (IpNextHeaderProtocols.Ipv6NoNxt, "Ipv6NoNxt"),
  (IpNextHeaderProtocols.Ipv6Opts, "Ipv6Opts"),
  (IpNextHeaderProtocols.HostInternal, "HostInternal"),
  (IpNextHeaderProtocols.Cftp, "Cftp"),
  (IpNextHeaderProtocols.LocalNetwork, "LocalNetwork"),
  (IpNextHeaderProtocols.SatExpak, "SatExpak"),
  (IpNextHeaderProtocols.Kryptolan, "Kryptolan"),
  (IpNextHeaderProtocols.Rvd, "Rvd"),
  (IpNextHeaderProtocols.Ippc, "Ippc"),
  (IpNextHeaderProtocols.DistributedFs, "DistributedFs"),
  (IpNextHeaderProtocols.SatMon, "SatMon"),
  (IpNextHeaderProtocols.Visa, "Visa"),
  (IpNextHeaderProtocols.Ipcv, "Ipcv"),
  (IpNextHeaderProtocols.Cpnx, "Cpnx"),
  (IpNextHeaderProtocols.Cphb, "Cphb"),
  (IpNextHeaderProtocols.Wsn, "Wsn"),
  (IpNextHeaderProtocols.Pvp, "Pvp"),
  (IpNextHeaderProtocols.BrSatMon, "BrSatMon"),
  (IpNextHeaderProtocols.SunNd, "SunNd"),
  (IpNextHeaderProtocols.WbMon, "WbMon"),
  (IpNextHeaderProtocols.WbExpak, "WbExpak"),
  (IpNextHeaderProtocols.IsoIp, "IsoIp"),
  (IpNextHeaderProtocols.Vmtp, "Vmtp"),
  (IpNextHeaderProtocols.SecureVmtp, "SecureVmtp"),
  (IpNextHeaderProtocols.Vines, "Vines"),
  (IpNextHeaderProtocols.TtpOrIptm, "TtpOrIptm"),
  (IpNextHeaderProtocols.NsfnetIgp, "NsfnetIgp"),
  (IpNextHeaderProtocols.Dgp, "Dgp"),
  (IpNextHeaderProtocols.Tcf, "Tcf"),
  (IpNextHeaderProtocols.Eigrp, "Eigrp"),
  (IpNextHeaderProtocols.OspfigP, "OspfigP"),
  (IpNextHeaderProtocols.SpriteRpc, "SpriteRpc"),
  (IpNextHeaderProtocols.Larp, "Larp"),
  (IpNextHeaderProtocols.Mtp, "Mtp"),
  (IpNextHeaderProtocols.Ax25, "Ax25"),
  (IpNextHeaderProtocols.IpIp, "IpIp"),
  (IpNextHeaderProtocols.Micp, "Micp"),
  (IpNextHeaderProtocols.SccSp, "SccSp"),
  (IpNextHeaderProtocols.Etherip, "Etherip"),
  (IpNextHeaderProtocols.Encap, "Encap"),
  (IpNextHeaderProtocols.PrivEncryption, "PrivEncryption"),
  (IpNextHeaderProtocols.Gmtp, "Gmtp"),
  (IpNextHeaderProtocols.Ifmp, "Ifmp"),
  (IpNextHeaderProtocols.Pnni, "Pnni"),
  (IpNextHeaderProtocols.Pim, "Pim"),
  (IpNextHeaderProtocols.Aris, "Aris"),
  (IpNextHeaderProtocols.Scps, "Scps"),
  (IpNextHeaderProtocols.Qnx, "Qnx"),
  (IpNextHeaderProtocols.AN, "AN"),
  (IpNextHeaderProtocols.IpComp, "IpComp"),
  (IpNextHeaderProtocols.Snp, "Snp"),
  (IpNextHeaderProtocols.CompaqPeer, "CompaqPeer"),
  (IpNextHeaderProtocols.IpxInIp, "IpxInIp"),
  (IpNextHeaderProtocols.Vrrp, "Vrrp"),
  (IpNextHeaderProtocols.Pgm, "Pgm"),
  (IpNextHeaderProtocols.ZeroHop, "ZeroHop"),
  (IpNextHeaderProtocols.L2tp, "L2tp"),
  (IpNextHeaderProtocols.Ddx, "Ddx"),
  (IpNextHeaderProtocols.Iatp, "Iatp"),
  (IpNextHeaderProtocols.Stp, "Stp"),
  (IpNextHeaderProtocols.Srp, "Srp"),
  (IpNextHeaderProtocols.Uti, "Uti"),
  (IpNextHeaderProtocols.Smp, "Smp"),
  (IpNextHeaderProtocols.Sm, "Sm"),
  (IpNextHeaderProtocols.Ptp, "Ptp"),
  (IpNextHeaderProtocols.IsisOverIpv4, "IsisOverIpv4"),
  (IpNextHeaderProtocols.Fire, "Fire"),
  (IpNextHeaderProtocols.Crtp, "Crtp"),
  (IpNextHeaderProtocols.Crudp, "Crudp"),
  (IpNextHeaderProtocols.Sscopmce, "Sscopmce"),
  (IpNextHeaderProtocols.Iplt, "Iplt"),
  (IpNextHeaderProtocols.Sps, "Sps"),
  (IpNextHeaderProtocols.Pipe, "Pipe"),
  (IpNextHeaderProtocols.Sctp, "Sctp"),
  (IpNextHeaderProtocols.Fc, "Fc"),
  (IpNextHeaderProtocols.RsvpE2eIgnore, "RsvpE2eIgnore"),
  (IpNextHeaderProtocols.MobilityHeader, "MobilityHeader"),
  (IpNextHeaderProtocols.UdpLite, "UdpLite"),
  (IpNextHeaderProtocols.MplsInIp, "MplsInIp"),
  (IpNextHeaderProtocols.Manet, "Manet"),
  (IpNextHeaderProtocols.Hip, "Hip"),
  (IpNextHeaderProtocols.Shim6, "Shim6"),
  (IpNextHeaderProtocols.Wesp, "Wesp"),
  (IpNextHeaderProtocols.Rohc, "Rohc"),
  (IpNextHeaderProtocols.Test1, "Test1"),
  (IpNextHeaderProtocols.Test2, "Test2"),
  (IpNextHeaderProtocols.Reserved, "Reserved")]

/-- `Display for IpNextHeaderProtocol`, `src/ip.rs:488-644`. -/
def ipDisplay (v : Nat) : String := matchName ipArms v

/-! ## `EtherTypes`, `src/ethernet.rs:61-110` -/

namespace EtherTypes

abbrev Ipv4 : Nat := 2048
abbrev Arp : Nat := 2054
abbrev WakeOnLan : Nat := 2114
abbrev Trill : Nat := 8947
abbrev DECnet : Nat := 24579
abbrev Rarp : Nat := 32821
abbrev AppleTalk : Nat := 32923
abbrev Aarp : Nat := 33011
abbrev Ipx : Nat := 33079
abbrev Qnx : Nat := 33284
abbrev Ipv6 : Nat := 34525
abbrev FlowControl : Nat := 34824
abbrev CobraNet : Nat := 34841
abbrev Mpls : Nat := 34887
abbrev MplsMcast : Nat := 34888
abbrev PppoeDiscovery : Nat := 34915
abbrev PppoeSession : Nat := 34916
abbrev Vlan : Nat := 33024
abbrev PBridge : Nat := 34984
abbrev Lldp : Nat := 35020
abbrev Ptp : Nat := 35063
abbrev Cfm : Nat := 35074
abbrev QinQ : Nat := 37120

end EtherTypes

/-- The constants of `EtherTypes` with their names, `src/ethernet.rs:61-110`. -/
def etherConsts : List (String × Nat) := [
  ("Ipv4", EtherTypes.Ipv4),
  ("Arp", EtherTypes.Arp),
  ("WakeOnLan", EtherTypes.WakeOnLan),
  ("Trill", EtherTypes.Trill),
  ("DECnet", EtherTypes.DECnet),
  ("Rarp", EtherTypes.Rarp),
  ("AppleTalk", EtherTypes.AppleTalk),
  ("Aarp", EtherTypes.Aarp),
  ("Ipx", EtherTypes.Ipx),
  ("Qnx", EtherTypes.Qnx),
  ("Ipv6", EtherTypes.Ipv6),
  ("FlowControl", EtherTypes.FlowControl),
  ("CobraNet", EtherTypes.CobraNet),
  ("Mpls", EtherTypes.Mpls),
  ("MplsMcast", EtherTypes.MplsMcast),
  ("PppoeDiscovery", EtherTypes.PppoeDiscovery),
  ("PppoeSession", EtherTypes.PppoeSession),
  ("Vlan", EtherTypes.Vlan),
  ("PBridge", EtherTypes.PBridge),
  ("Lldp", EtherTypes.Lldp),
  ("Ptp", EtherTypes.Ptp),
  ("Cfm", EtherTypes.Cfm),
  ("QinQ", EtherTypes.QinQ)]

/-- The arms of `Display for EtherType`, `src/ethernet.rs:135-159`. -/
def etherArms : List (Nat × String) := [
  (EtherTypes.Ipv4, "Ipv4"),
  (EtherTypes.Arp, "Arp"),
  (EtherTypes.WakeOnLan, "WakeOnLan"),
  (EtherTypes.Trill, "Trill"),
  (EtherTypes.DECnet, "DECnet"),
  (EtherTypes.Rarp, "Rarp"),
  (EtherTypes.AppleTalk, "AppleTalk"),
  (EtherTypes.Aarp, "Aarp"),
  (EtherTypes.Ipx, "Ipx"),
  (EtherTypes.Qnx, "Qnx"),
  (EtherTypes.Ipv6, "Ipv6"),
  (EtherTypes.FlowControl, "FlowControl"),
  (EtherTypes.CobraNet, "CobraNet"),
  (EtherTypes.Mpls, "Mpls"),
  (EtherTypes.MplsMcast, "MplsMcast"),
  (EtherTypes.PppoeDiscovery, "PppoeDiscovery"),
  (EtherTypes.PppoeSession, "PppoeSession"),
  (EtherTypes.Vlan, "Vlan"),
  (EtherTypes.PBridge, "PBridge"),
  (EtherTypes.Lldp, "Lldp"),
  (EtherTypes.Ptp, "Ptp"),
  (EtherTypes.Cfm, "Cfm"),
  (EtherTypes.QinQ, "QinQ")]

/-- `Display for EtherType`, `src/ethernet.rs:130-163`. -/
def etherDisplay (v : Nat) : String := matchName etherArms v

/-! ## QUIC frame types, header forms and packet types -/

/-- `Display for FrameType`, `src/quic.rs:895-922`; the constants of `FrameTypes`
(`src/quic.rs:842-876`) are inlined. -/
def frameTypeDisplay (ty : Nat) : String :=
  if ty = 0x00 then "padding"
  else if ty = 0x01 then "ping"
  else if ty = 0x02 ∨ ty = 0x03 then "ack"
  else if ty = 0x04 then "reset-stream"
  else if ty = 0x05 then "stop-sending"
  else if ty = 0x06 then "crypto"
  else if ty = 0x07 then "new-token"
  else if 0x8 ≤ ty ∧ ty ≤ 0xf then "stream"
  else if ty = 0x10 then "max-data"
  else if ty = 0x11 then "max-stream-data"
  else if ty = 0x12 ∨ ty = 0x13 then "max-streams"
  else if ty = 0x14 then "data-blocked"
  else if ty = 0x15 then "stream-data-blocked"
  else if ty = 0x16 ∨ ty = 0x17 then "streams-blocked"
  else if ty = 0x18 then "new-connection-id"
  else if ty = 0x19 then "retire-connection-id"
  else if ty = 0x1a then "path-challenge"
  else if ty = 0x1b then "path-response"
  else if ty = 0x1c ∨ ty = 0x1d then "connection-close"
  else if ty = 0x1e then "handshake-done"
  else "unknown"

end Verif
