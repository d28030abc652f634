import Verif.Model.Derive

/-!
# Packets behind each other
-/

namespace Verif.Spec

/-- The bytes `p` are one packet of the type: enough for the fixed part, and as many as its `packet_size()`. -/
def Complete (d : Decl) (m : Mode) (p : Buf) : Prop :=
  p ≠ [] ∧ d.minSize ≤ p.length ∧ d.packetSize m p = .ok p.length

/-- The packets `ps` behind each other and before `b`: each with all bytes from its start on. -/
def packetStarts : List Buf → Buf → List Buf
  | [], _ => []
  | p :: ps, b => (p ++ (ps.flatten ++ b)) :: packetStarts ps b

/-- The values of some packets, one after the other, and those of the rest. -/
def valuesThen (value : Buf → Res Val) : List Buf → Res (List Val) → Res (List Val)
  | [], rest => rest
  | p :: ps, rest => do
    let v ← value p
    let vs ← valuesThen value ps rest
    .ok (v :: vs)

end Verif.Spec
