import Verif.Model.Protocols

/-! # Specification: cutting off the end of a packet -/

namespace Verif.Spec
open Verif

/-- The length expression uses only fields of fixed size. -/
def HeaderOnly (d : Decl) (e : LenExpr) : Prop := ∀ (m : Mode) (g g' : Nat → Res Val) (r r' : Res Buf),
  (∀ k f, d.fields[k]? = some f → f.ty.isVec = false → g k = g' k) → e m g r = e m g' r'

/-- The packet types whose lengths are computed from fields of fixed size: all but the TCP and IPv4
options, whose length byte is a vector field. -/
def headerSized : List Decl := [ethernet, vlan, arp, ipv4, ipv6, extension, routing, fragment, udp, tcp,
  icmp, echoReply, echoRequest, destinationUnreachable, timeExceeded, icmpv6, ndpOption, routerSolicit,
  routerAdvert, neighborSolicit, neighborAdvert, redirect, u16BE, u32BE, gre]

end Verif.Spec
