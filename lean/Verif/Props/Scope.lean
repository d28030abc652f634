import Verif.Proofs.Scope
import Verif.Props.LengthExpr
import Verif.Props.WholeText

/-!
# What is in scope in the helper functions of `construct_with` fields (C119)

The arguments of such a field are read and written by functions `get_arg0(_self: &..)`, `set_arg0(_self: &mut ..,
val: ..)`, ... inside its getter and setter (`gen.rs:300-345`). Rust does not know `self` in them (error E0424), but
their position is the expression that other accessors use.
-/

namespace Verif
open Spec LengthText

/-- **C119**: the position in the helper functions of field `k` uses `self` if and only if the length of an
earlier field names another field, `...` or `self`; this is so for all its arguments. -/
theorem C119_self_iff (tok : String → Option (List TT)) (fields : List RawField) (width : RawField → Nat)
    (k bits : Nat) :
    "self" ∈ TT.identsList (argOffset tok fields width k bits) ↔
      ∃ f ∈ fields.take k, ∃ s ts, LastLength f s ∧ tok s = some ts ∧ (∀ text, .literal text false ∉ flatten ts) ∧
        ∃ n ∈ TT.identsList ts, n = "self" ∨ n = dots ∨ OtherField fields f n := by
  rw [argOffset_self]
  constructor
  · rintro ⟨f, hf, out, hl, hs⟩
    refine ⟨f, hf, ?_⟩
    rcases lastLength_or f with ⟨s, hlast⟩ | hno
    · rw [lengthTokens_last hlast] at hl
      cases ht : tok s with
      | none => rw [ht] at hl; cases hl
      | some ts =>
        rw [ht] at hl
        simp only at hl
        cases hp : parseLengthExpr (fieldNames fields f.name) ts with
        | error e => rw [hp] at hl; cases hl
        | ok o =>
          rw [hp] at hl
          cases hl
          obtain ⟨n, h1, h2⟩ := (parseLengthExpr_self _ _ _ hp).mp hs
          exact ⟨s, ts, hlast, ht, (C67_accepted_iff _ _).mp ⟨_, hp⟩, n, h1,
            h2.imp_right fun h => h.imp_right mem_fieldNames.mp⟩
    · rw [(C67_no_length tok fields f).1 hno] at hl
      cases hl
  · rintro ⟨f, hf, s, ts, hlast, ht, hint, n, h1, h2⟩
    obtain ⟨out, hp⟩ := (C67_accepted_iff (fieldNames fields f.name) ts).mpr hint
    refine ⟨f, hf, out, by rw [lengthTokens_last hlast, ht]; simp only [hp, Except.toOption], ?_⟩
    exact (parseLengthExpr_self _ _ _ hp).mpr ⟨n, h1, h2.imp_right fun h => h.imp_right mem_fieldNames.mpr⟩

/-- Full statement of **C119**: in a struct that the macro accepts, the helper functions of a field refer to
nothing but what they are given. -/
def C119_statement : Prop :=
  ∀ (tok : String → Option (List TT)) (fields : List RawField) (pfs : List PField) (width : RawField → Nat)
    (k bits : Nat) (pf : PField) (ty : List Char),
    parsePacket (lengthTextOk tok) fields = .ok pfs → pfs[k]? = some pf → pf.ty = .misc ty →
    "self" ∉ TT.identsList (argOffset tok fields width k bits)

/-- An address after as many bytes as another field says. -/
def scopeFields : List RawField := [
  Source.field "count" [] "u8",
  Source.field "data" [Source.length "count"] "Vec < u8 >",
  Source.field "address" [Source.constructWith ["u8", "u8"]] "Address",
  Source.field "payload" [Source.payload] "Vec < u8 >"]

/-- C119 is false: the struct is accepted, but `fn get_arg0(_self: &..) -> u8 { let co = 1usize +
(self.get_count()) as usize; .. }` does not compile. -/
theorem C119_false : ¬ C119_statement := by
  intro h
  have hp : parsePacket (lengthTextOk tokenise) scopeFields = .ok
      [⟨"count", .primitive "u8".toList 8 .big, none, false, false, []⟩,
       ⟨"data", .vector (.primitive "u8".toList 8 .big), some "count", true, false, []⟩,
       ⟨"address", .misc "Address".toList, none, false, false,
        [.primitive "u8".toList 8 .big, .primitive "u8".toList 8 .big]⟩,
       ⟨"payload", .vector (.primitive "u8".toList 8 .big), none, true, true, []⟩] := by decide +kernel
  exact h tokenise scopeFields _ sourceWidth 2 0 _ _ hp rfl rfl (by decide +kernel)

/-- Whether a field of this type has helper functions. -/
def Ty.hasHelpers : Ty → Bool
  | .misc _ => true
  | _ => false

theorem crate_scope : (crateSources.all fun e => (List.range e.2.2.fields.length).all fun k =>
    match e.2.2.fields[k]? with
    | some f => !f.ty.hasHelpers || (e.2.1.take k).all fun rf => (lengthTokens tokenise e.2.1 rf).isNone
    | none => true) = true := by decide +kernel

/-- **C119** for the structs of the crate. Missing: other structs, see `C119_false`; which ones, says
`C119_self_iff`. -/
theorem C119_crate_partial (e : String × List RawField × Decl) (he : e ∈ crateSources) (k : Nat) (f : Field)
    (hf : e.2.2.fields[k]? = some f) (args : List Prim) (hp : f.ty = .misc args) (bits : Nat) :
    "self" ∉ TT.identsList (argOffset tokenise e.2.1 sourceWidth k bits) := by
  rw [argOffset_self]
  rintro ⟨rf, hrf, out, hl, -⟩
  have h := List.all_eq_true.mp (List.all_eq_true.mp crate_scope e he) k
    (List.mem_range.mpr (List.getElem?_eq_some_iff.mp hf).1)
  simp only [hf, hp, Ty.hasHelpers, Bool.not_true, Bool.false_or] at h
  have := List.all_eq_true.mp h rf hrf
  rw [hl] at this
  cases this

/-- The source address of IPv4, as in C118. -/
example := C119_crate_partial ("ipv4::Ipv4", Source.srcIpv4, ipv4) (by simp [crateSources]) 11 _ rfl _ rfl 8

/-- Before the vector the same field would be fine. -/
example : "self" ∉ TT.identsList (argOffset tokenise (scopeFields.take 1) sourceWidth 1 0) ∧
    "self" ∈ TT.identsList (argOffset tokenise scopeFields sourceWidth 2 8) := by decide +kernel

end Verif
