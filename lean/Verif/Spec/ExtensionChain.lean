import Verif.Model.Basic

/-! # Specification: chains of IPv6 extension headers -/

namespace Verif.Spec
open Verif

/-- The extension headers: hop-by-hop options, routing, fragment, destination options (RFC 8200, §4)
and authentication (RFC 4302). -/
def extTypes : List Nat := [0, 43, 44, 51, 60]

/-- The size of an extension header of type `ty` with `l` in its second byte: 8 bytes for a fragment
header (RFC 8200, §4.5), `4 * (l + 2)` for an authentication header (RFC 4302, §2.2) and `8 * (l + 1)`
for the others. -/
def extSize (ty l : Nat) : Nat := if ty = 44 then 8 else if ty = 51 then 4 * (l + 2) else 8 * (l + 1)

/-- The bytes of an extension header of type `ty` with `next` in its Next Header field. -/
def ExtHeader (ty : Nat) (next : UInt8) (bs : Buf) : Prop :=
  ∃ (l : UInt8) (rest : Buf), bs = next :: l :: rest ∧ bs.length = extSize ty l.toNat

/-- A chain of extension headers of which the first has type `ty`; after the last one stands something
of type `up` that is not an extension header. -/
inductive ExtChain : Nat → List Buf → Nat → Prop
  | upper {ty : Nat} : ty ∉ extTypes → ExtChain ty [] ty
  | header {ty : Nat} {next : UInt8} {bs : Buf} {hs : List Buf} {up : Nat} : ty ∈ extTypes →
      ExtHeader ty next bs → ExtChain next.toNat hs up → ExtChain ty (bs :: hs) up

/-- The bytes from each header on. -/
def starts : List Buf → Buf → List Buf
  | [], _ => []
  | h :: hs, data => (h ++ (hs.flatten ++ data)) :: starts hs data

/-- The size of the header at the front if it is neither a fragment nor an authentication header. -/
def plainSize (bs : Buf) : Nat := 8 * ((bs.getD 1 0).toNat + 1)

end Verif.Spec
