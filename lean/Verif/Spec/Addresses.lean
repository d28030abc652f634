import Verif.Model.Primitive
import Verif.Model.Protocols

/-! # Specification: where the address fields are -/

namespace Verif.Spec

/-- A header field: declaration, number and name of the field, first byte. -/
structure AddrField where
  decl : Decl
  no : Nat
  name : String
  start : Nat

/-- The hardware addresses of Ethernet (IEEE 802.3) and ARP (RFC 826). -/
def macFields : List AddrField :=
  [⟨ethernet, 0, "destination", 0⟩, ⟨ethernet, 1, "source", 6⟩,
   ⟨arp, 5, "sender_hw_addr", 8⟩, ⟨arp, 7, "target_hw_addr", 18⟩]

/-- The IPv4 addresses of ARP (RFC 826) and IPv4 (RFC 791). -/
def v4Fields : List AddrField :=
  [⟨arp, 6, "sender_proto_addr", 14⟩, ⟨arp, 8, "target_proto_addr", 24⟩,
   ⟨ipv4, 11, "source", 12⟩, ⟨ipv4, 12, "destination", 16⟩]

/-- The IPv6 addresses of IPv6 (RFC 8200) and neighbour discovery (RFC 4861). -/
def v6Fields : List AddrField :=
  [⟨ipv6, 6, "source", 8⟩, ⟨ipv6, 7, "destination", 24⟩,
   ⟨neighborSolicit, 4, "target_addr", 8⟩, ⟨neighborAdvert, 5, "target_addr", 8⟩,
   ⟨redirect, 4, "target_addr", 8⟩, ⟨redirect, 5, "dest_addr", 24⟩]

/-- The bytes of a hardware address in transmission order. -/
def macBytes (a : MacAddr) : Buf := [a.b0, a.b1, a.b2, a.b3, a.b4, a.b5]

end Verif.Spec
