import Verif.Model.Unwind
import Verif.Spec.Sizes
import Verif.Spec.Registers

/-! # Specification: the bytes left by a call that may have panicked -/

namespace Verif.Spec

/-- The call as one that returns the new bytes or fails. -/
def outcome (l : Left) : Res Buf := l.2.map fun _ => l.1

/-- `pop` tells what `populate` of a packet type does, and what it leaves when it panics: it is that
`populate`, and keeps the length of the buffer. -/
structure Leaves (c : Codec) (pop : PopulateLeft) : Prop where
  same : ∀ m buf v, outcome (pop m buf v) = c.populate m buf v
  length : ∀ m buf v, (pop m buf v).1.length = buf.length

/-- The same for all vectors of packets of a declaration. -/
def LeavesAll (d : Decl) (pop : Nat → PopulateLeft) : Prop :=
  ∀ k f c, d.fields[k]? = some f → f.ty = .vecPkt c → Leaves c (pop k)

/-- The call ended by a panic, or did not end. -/
def Failed (l : Left) : Prop := ∃ e, l.2 = .error e

/-- A call on a mutable packet, with what it leaves. `payload_mut` and `copy_from_slice` check the bounds
and the lengths before the first byte is copied. -/
def Write.left (d : Decl) (pop : Nat → PopulateLeft) (m : Mode) (buf : Buf) : Write → Left
  | .set k v => d.setLeft pop m buf k v
  | .payload bytes => atOnce buf (d.payloadMutCopy m buf bytes)

/-- The bytes after calls one after the other, each panic being caught. -/
def runCaught (d : Decl) (pop : Nat → PopulateLeft) (m : Mode) : List Write → Buf → Buf
  | [], buf => buf
  | w :: ws, buf => runCaught d pop m ws (w.left d pop m buf).1

/-- The number of bytes of an option of TCP or IPv4 that is given as `val`: kind, length and data, which are
the last field of its struct. -/
def optionBytes : Val → Nat
  | .list vs => 2 + match vs.getLast? with
    | some (.nums data) => data.length
    | _ => 0
  | _ => 2

end Verif.Spec
