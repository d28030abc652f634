import Verif.Model.Derive

/-! # Specification: sequences of writes to a packet -/

namespace Verif.Spec

/-- A call that changes a mutable packet. -/
inductive Write
  /-- `set_<field k>(v)` -/
  | set (k : Nat) (v : Val)
  /-- `payload_mut().copy_from_slice(bytes)` -/
  | payload (bytes : Buf)

/-- The call on a packet of the given type. -/
def Write.run (d : Decl) (m : Mode) (buf : Buf) : Write → Res Buf
  | .set k v => d.set m buf k v
  | .payload bytes => d.payloadMutCopy m buf bytes

/-- The calls, one after the other. -/
def runWrites (d : Decl) (m : Mode) : List Write → Buf → Res Buf
  | [], buf => .ok buf
  | w :: ws, buf => w.run d m buf >>= runWrites d m ws

/-- The value that the last of the setter calls for field `k` got. -/
def lastWrite (k : Nat) : List Write → Option Val
  | [] => none
  | w :: ws => (lastWrite k ws).or (match w with | .set j v => if j = k then some v else none | _ => none)

end Verif.Spec
