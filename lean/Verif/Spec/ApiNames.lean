import Verif.Model.ApiNames

/-! # When two generated names are the same -/

namespace Verif.Spec

/-- A field that holds a list: `Vec` of integers or of packets. -/
def Listed (s : Shape) : Prop := (∃ p, s.kind = .vecPrim p) ∨ s.kind = .vecPkt

/-- Another field of the struct is called like the field `v` with a suffix that the macro uses for
one of the additional methods of `v`. -/
def Clash (mutable : Bool) (ss : List Shape) : Prop :=
  ∃ v ∈ ss, ∃ f ∈ ss,
    (Listed v ∧ v.payload = false ∧ f.name = v.name ++ "_raw") ∨
    (v.kind = .vecPkt ∧ f.name = v.name ++ "_iter") ∨
    (mutable = true ∧ Listed v ∧ v.payload = false ∧ f.name = v.name ++ "_raw_mut")

/-- A struct is called like one of the types that the macro makes for another, or two of those are
called the same. -/
def TypeClash (bases : List (List Char)) : Prop :=
  ∃ a ∈ bases, ∃ b ∈ bases,
    b = a ++ "Packet".toList ∨ b = a ++ "Iterable".toList ∨
    b = "Mutable".toList ++ a ++ "Packet".toList ∨ b = "Mutable".toList ++ a

end Verif.Spec
