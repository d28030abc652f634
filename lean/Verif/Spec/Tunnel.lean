import Verif.Model.Protocols
import Verif.Spec.Stack
import Verif.Spec.Fragments

/-!
# A tunnel

Not code of the crate: programs that use it, for C143.
-/

namespace Verif.Spec

/-- What a GRE header holds: the checksum and the word behind it, the key, the sequence number, the type of what follows. -/
structure GreHead where
  sum : Option (Nat × Nat)
  key : Option Nat
  seq : Option Nat
  proto : Nat
deriving DecidableEq

/-- The values fit the fields. -/
def GreHead.Fits (h : GreHead) : Prop :=
  (∀ p, h.sum = some p → p.1 < 65536 ∧ p.2 < 65536) ∧ (∀ k, h.key = some k → k < 2 ^ 32) ∧
  (∀ s, h.seq = some s → s < 2 ^ 32) ∧ h.proto < 65536

/-- Bytes of the header. -/
def GreHead.size (h : GreHead) : Nat := 4 + 4 * h.sum.isSome.toNat + 4 * h.key.isSome.toNat + 4 * h.seq.isSome.toNat

/-- A `Vec<U16BE>` or `Vec<U32BE>` with at most one element. Simplified: the fields of the two structs are private
(`src/gre.rs:64-68`, `src/gre.rs:73-77`), so a client gets such a value with `from_packet` from its bytes. -/
def unitVal (o : Option Nat) : Val := .list (o.toList.map fun n => .list [.num n, .nums []])

/-- The element of such a vector. Simplified: a client gets it with `populate` and `get_number`. -/
def unitOf : Val → Option Nat
  | .list (.list (.num n :: _) :: _) => some n
  | _ => none

/-- Writes the header and what follows with `populate`. -/
def enterGre (m : Mode) (h : GreHead) (inner : Buf) : Res Buf :=
  gre.populate m (List.replicate (h.size + inner.length) 0) (.list [.num h.sum.isSome.toNat, .num 0, .num h.key.isSome.toNat,
    .num h.seq.isSome.toNat, .num 0, .num 0, .num 0, .num 0, .num h.proto, unitVal (h.sum.map (·.1)),
    unitVal (h.sum.map (·.2)), unitVal h.key, unitVal h.seq, .nums [], bytesVal inner])

/-- Reads the header and what follows; `none` if there is routing or the bytes are too few, for which it asks
`packet_size`. -/
def leaveGre (m : Mode) (buf : Buf) : Res (Option (GreHead × Buf)) :=
  match gre.newPacket buf with
  | none => .ok none
  | some _ => do
    let r ← (← gre.get m buf 1).asNum
    if r ≠ 0 then return none
    let n ← gre.packetSize m buf
    if buf.length < n then return none
    let proto ← (← gre.get m buf 8).asNum
    let c ← gre.get m buf 9
    let o ← gre.get m buf 10
    let k ← gre.get m buf 11
    let s ← gre.get m buf 12
    let inner ← gre.payload m buf
    let sum := match unitOf c, unitOf o with
      | some c, some o => some (c, o)
      | _, _ => none
    return some (⟨sum, unitOf k, unitOf s, proto⟩, inner)

/-- Tunnels in tunnels, the first header outermost. -/
def enterAll (m : Mode) : List GreHead → Buf → Res Buf
  | [], inner => .ok inner
  | h :: hs, inner => do
    let b ← enterAll m hs inner
    enterGre m h b

/-- Leaves `n` tunnels. -/
def leaveAll (m : Mode) : Nat → Buf → Res (Option (List GreHead × Buf))
  | 0, b => .ok (some ([], b))
  | n + 1, b => do
    match ← leaveGre m b with
    | none => return none
    | some (h, b) =>
      match ← leaveAll m n b with
      | none => return none
      | some (hs, b) => return some (h :: hs, b)

/-- A tunnel over IPv4, with the given bytes as outer header: total length, flags, offset and checksum are set. -/
def sendGre (m : Mode) (head : Buf) (h : GreHead) (inner : Buf) : Res Buf := do
  let b ← enterGre m h inner
  oneFragment m head false 0 b

/-- The end of a tunnel over IPv4: `none` if the outer header has a wrong checksum, belongs to a fragment or says another
protocol than 47. -/
def receiveGre (m : Mode) (ip : Buf) : Res (Option (GreHead × Buf)) := do
  match ← readPiece m ip with
  | none => return none
  | some p =>
    if p.pos ≠ 0 ∨ p.more = true then return none
    if (← ipv4.get m ip 9) ≠ .nums [47] then return none
    leaveGre m p.data

end Verif.Spec
