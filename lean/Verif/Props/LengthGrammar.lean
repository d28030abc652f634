import Verif.Proofs.LengthGrammar
import Verif.Props.LengthExpr

/-!
# Length expressions keep their structure (C109)

`Reads`, `RExpr`, `Meaning` and `NoClash` are in `Spec/LengthGrammar`.
-/

namespace Verif
open Spec

/-- **C109**: the grammar is unambiguous, so "the" value of an expression is well defined. -/
theorem C109_unambiguous (ts : List TT) (e e' : RExpr) (h : Reads 1 ts e) (h' : Reads 1 ts e') : e = e' :=
  rexpr_unique h h'

/-- The tokens of `a - b - 1`. -/
def minusMinus : List TT := [.ident "a", .punct '-', .ident "b", .punct '-', .literal "1" true]

/-- `a - b - 1` is `(a - b) - 1`. -/
theorem minusMinus_reads : Reads 1 minusMinus (.bin '-' (.bin '-' (.name "a") (.name "b")) (.int "1")) := by
  exact reads_lower (.bin (l := 6) (ts := [.ident "a", .punct '-', .ident "b"]) rfl
    (.bin (l := 6) (ts := [.ident "a"]) rfl (reads_lower (.name "a" (by decide)) (by decide))
      (reads_lower (.name "b" (by decide)) (by decide))) (reads_lower (.int "1") (by decide))) (by decide)

example (e : RExpr) (h : Reads 1 minusMinus e) :
    e = .bin '-' (.bin '-' (.name "a") (.name "b")) (.int "1") :=
  C109_unambiguous _ _ _ h minusMinus_reads

/-- Full statement of **C109**: whatever a length expression is, the macro turns it into an expression
that has the same value, the values of the fields being those of their getters. (No field is called
`as`, `if` or `else`, which are keywords.) -/
def C109_statement : Prop :=
  ∀ (names : List String) (ts : List TT) (e : RExpr), (∀ k ∈ keywords, k ∉ names) → Reads 1 ts e →
    ∃ out e', parseLengthExpr names ts = .ok out ∧ Reads 1 out e' ∧
      ∀ (α : Type) (I : Meaning α), e'.value I = e.value (I.withFields names)

/-- C109 is false: beside a field `len`, `data.len()` becomes `self.get_data().self.get_len()()`, which
is no expression. -/
theorem C109_false : ¬ C109_statement := by
  intro h
  obtain ⟨out, e', h1, h2, -⟩ := h ["data", "len"]
    ([.ident "data"] ++ [.punct '.', .ident "len", .group .paren []]) (.method (.name "data") "len") (by decide)
    (reads_lower (.method (.name "data" (by decide))) (by decide))
  have ho : out = [.ident "self", .punct '.', .ident "get_data", .group .paren [], .punct '.',
      .ident "self", .punct '.'] ++ [.ident "get_len", .group .paren [], .group .paren []] := by
    simp [parseLengthExpr, lengthToken, getterCall] at h1
    rw [← h1]
    rfl
  subst ho
  have h6 := reads_plain h2
    (by intro op hk; have : op ≠ '.' := by rintro rfl; simp [opLevel] at hk
        simp [this])
    (by simp) (by simp)
  generalize ht : [TT.ident "self", .punct '.', .ident "get_data", .group .paren [], .punct '.',
      .ident "self", .punct '.'] ++ [.ident "get_len", .group .paren [], .group .paren []] = ts at h6
  cases h6 with
  | method h => have := (List.append_inj' ht rfl).2; simp at this
  | methodArg h => have := (List.append_inj' ht rfl).2; simp at this
  | field h => have := congrArg List.getLast? ht; simp at this
  | bin ho => have := opLevel_lt ho; omega
  | up => omega
  | _ => simp at ht

/-- **C109** for expressions in which no function, method or type has the name of a field: accepted, and
every reading of the result has the value of the original, the values of the fields being those of
their getters. Missing: see `C109_false`. -/
theorem C109_value_partial (names : List String) (ts : List TT) (e : RExpr) (has : ∀ k ∈ keywords, k ∉ names)
    (h : Reads 1 ts e) (hc : e.NoClash names) :
    ∃ out e', parseLengthExpr names ts = .ok out ∧ Reads 1 out e' ∧ (∀ e'', Reads 1 out e'' → e'' = e') ∧
      ∀ (α : Type) (I : Meaning α), e'.value I = e.value (I.withFields names) := by
  obtain ⟨out, h1, h2⟩ := reads_subst has h hc
  exact ⟨out, _, h1, h2, fun _ h' => rexpr_unique h' h2, fun _ I => value_subst I names e⟩

/-- `data.len()` beside fields `data` and `n`. -/
example := C109_value_partial ["data", "n"] ([.ident "data"] ++ [.punct '.', .ident "len", .group .paren []])
  (.method (.name "data") "len") (by decide)
  (reads_lower (.method (.name "data" (by decide))) (by decide))
  ⟨by decide, trivial⟩

/-- **C109** for the documented expressions (names, integers, `+ - * / %`, parentheses): no exception. -/
theorem C109_documented (names : List String) (ts : List TT) (e : RExpr) (has : ∀ k ∈ keywords, k ∉ names)
    (h : Reads 1 ts e) (hd : e.Documented) :
    ∃ out e', parseLengthExpr names ts = .ok out ∧ Reads 1 out e' ∧ (∀ e'', Reads 1 out e'' → e'' = e') ∧
      ∀ (α : Type) (I : Meaning α), e'.value I = e.value (I.withFields names) :=
  C109_value_partial names ts e has h (documented_noClash names hd)

/-- `a - b - 1` with fields `a` and `b`. -/
example := C109_documented ["a", "b"] minusMinus _ (by decide) minusMinus_reads
  ⟨by decide, ⟨by decide, trivial, trivial⟩, trivial⟩

end Verif
