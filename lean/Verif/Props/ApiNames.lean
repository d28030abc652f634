import Verif.Proofs.ApiNames
import Verif.Props.Macro

/-!
# C102: the names the macro introduces
-/

namespace Verif
open Spec

/-- Full statement of C102: the methods generated for a struct with distinct fields have distinct
names, and so have the types generated for distinct structs. -/
def C102_statement : Prop :=
  (∀ (lenOk : String → Bool) (fields : List RawField) (ss : List Shape) (mutable : Bool),
    deriveMacro lenOk fields = .ok ss → (ss.map (·.name)).Nodup → (methodNames mutable ss).Nodup) ∧
  (∀ bases : List (List Char), bases.Nodup → (bases.flatMap apiTypeNames).Nodup)

/-- C102 is false: `pub a_raw: u8, pub a: Vec<u8>` is accepted and makes two methods `get_a_raw`. -/
theorem C102_false : ¬ C102_statement := by
  intro h
  have := h.1 (fun _ => true) [Source.field "a_raw" [] "u8", Source.field "a" [] "Vec < u8 >"]
    [⟨"a_raw", .prim ⟨8, .big⟩, false, false⟩, ⟨"a", .vecPrim ⟨8, .big⟩, false, false⟩] false
    (by decide +kernel) (by decide +kernel)
  revert this
  decide +kernel

/-- **C102**, exact condition for the methods: their names differ unless some field is called like
another one with `_raw`, `_iter` or (in the mutable packet) `_raw_mut` behind it, and the macro makes
the method of that name for the other one. Missing: those declarations, which make the compiler
complain about the generated code. -/
theorem C102_methods_partial (mutable : Bool) (ss : List Shape) (hn : (ss.map (·.name)).Nodup) :
    (methodNames mutable ss).Nodup ↔ ¬ Clash mutable ss :=
  methods_iff mutable ss hn

/-- A clash in the mutable packet only. -/
example : ([⟨"a", .vecPkt, false, true⟩, ⟨"a_raw_mut", .prim ⟨8, .big⟩, false, false⟩] :
      List Shape).map (·.name) = ["a", "a_raw_mut"] ∧
    (methodNames false [⟨"a", .vecPkt, false, true⟩, ⟨"a_raw_mut", .prim ⟨8, .big⟩, false, false⟩]).Nodup ∧
    ¬ (methodNames true [⟨"a", .vecPkt, false, true⟩,
      ⟨"a_raw_mut", .prim ⟨8, .big⟩, false, false⟩]).Nodup := by decide +kernel

example : Clash false [⟨"a_raw", .prim ⟨8, .big⟩, false, false⟩, ⟨"a", .vecPrim ⟨8, .big⟩, false, false⟩] :=
  ⟨⟨"a", .vecPrim ⟨8, .big⟩, false, false⟩, by simp, ⟨"a_raw", .prim ⟨8, .big⟩, false, false⟩, by simp,
    .inl ⟨.inl ⟨_, rfl⟩, rfl, by decide⟩⟩

/-- **C102**, exact condition for the types of structs in one module. Missing: structs with such
names. -/
theorem C102_types_partial (bases : List (List Char)) (hn : bases.Nodup) :
    (bases.flatMap apiTypeNames).Nodup ↔ ¬ TypeClash bases :=
  types_iff bases hn

example : ["Udp".toList, "Tcp".toList].Nodup ∧
    (["Udp".toList, "Tcp".toList].flatMap apiTypeNames).Nodup ∧
    ¬ (["Udp".toList, "MutableUdp".toList].flatMap apiTypeNames).Nodup ∧
    TypeClash ["Udp".toList, "MutableUdp".toList] :=
  ⟨by decide +kernel, by decide +kernel, by decide +kernel,
    ⟨"Udp".toList, by simp, "MutableUdp".toList, by simp, .inr (.inr (.inr (by decide)))⟩⟩

/-- The name of a struct without its module. -/
def structName (path : String) : List Char := (path.toList.dropWhile (· ≠ ':')).drop 2

/-- **C102** for the crate: all methods of a packet type have different names, and all packet types,
mutable packet types, iterators and structs of the crate have. -/
theorem C102_crate :
    (∀ e ∈ crateSources, ∀ mutable, ∃ ss, deriveMacro (lengthTextOk Source.tokens) e.2.1 = .ok ss ∧
      (methodNames mutable ss).Nodup) ∧
    ((crateSources.map fun e => structName e.1).flatMap apiTypeNames).Nodup := by
  refine ⟨fun e he mutable => ⟨shapes e.2.2, C65_crate e he, ?_⟩, ?_⟩
  · have key : ∀ e ∈ crateSources, ∀ mutable ∈ [true, false], (methodNames mutable (shapes e.2.2)).Nodup := by
      decide +kernel
    exact key e he mutable (by cases mutable <;> simp)
  · decide +kernel

example : structName "tcp::TcpOption" = "TcpOption".toList := by decide +kernel

end Verif
