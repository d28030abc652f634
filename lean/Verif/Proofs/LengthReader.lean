import Verif.Proofs.Offsets

/-!
# A reader for the grammar of `Spec/LengthGrammar`

A program that finds readings, proved sound; used to show that the length expressions of the crate are in
the grammar.
-/

namespace Verif
open Spec

/-- The last token with property `p`, with what stands before and after it. -/
def lastBy (p : TT → Bool) : List TT → Option (List TT × TT × List TT)
  | [] => none
  | t :: ts =>
    match lastBy p ts with
    | some (a, u, b) => some (t :: a, u, b)
    | none => if p t then some ([], t, ts) else none

theorem lastBy_some {p : TT → Bool} {ts a b : List TT} {t : TT} (h : lastBy p ts = some (a, t, b)) :
    ts = a ++ t :: b ∧ p t = true := by
  induction ts generalizing a with
  | nil => cases h
  | cons x xs ih =>
    rw [lastBy] at h
    split at h
    · rename_i h'
      cases h
      have := ih h'
      exact ⟨by rw [this.1]; rfl, this.2⟩
    · split at h
      · rename_i h'
        cases h
        exact ⟨rfl, h'⟩
      · cases h

/-- Whether a token is a binary operator of level `l`. -/
def isOp (l : Nat) : TT → Bool
  | .punct c => opLevel c == some l
  | _ => false

/-- Whether a token belongs to a comparison. -/
def isCmp : TT → Bool
  | .punct c => c == '<' || c == '>' || c == '='
  | _ => false

/-- A level of binary operators. -/
def readBin (rd : Nat → List TT → Option RExpr) (l : Nat) (ts : List TT) : Option RExpr :=
  match lastBy (isOp l) ts with
  | some (a, .punct op, b) => do some (.bin op (← rd l a) (← rd (l + 1) b))
  | _ => rd (l + 1) ts

/-- Whole expressions. -/
def readWhole (rd : Nat → List TT → Option RExpr) (ts : List TT) : Option RExpr :=
  match ts with
  | .punct '&' :: us => do some (.ref (← rd 9 us))
  | .ident "if" :: us =>
    match us.reverse with
    | .group .brace b :: .ident "else" :: .group .brace a :: c =>
      do some (.ite (← rd 2 c.reverse) (← rd 1 a) (← rd 1 b))
    | _ => none
  | _ => rd 2 ts

/-- Comparisons. -/
def readCmp (rd : Nat → List TT → Option RExpr) (ts : List TT) : Option RExpr :=
  match lastBy isCmp ts with
  | some (a, .punct '=', b) =>
    match a.reverse with
    | .punct '=' :: a => do some (.bin '=' (← rd 3 a.reverse) (← rd 3 b))
    | _ => none
  | some (a, .punct op, b) => do some (.bin op (← rd 3 a) (← rd 3 b))
  | _ => rd 3 ts

/-- Casts. -/
def readCast (rd : Nat → List TT → Option RExpr) (ts : List TT) : Option RExpr :=
  match ts.reverse with
  | .ident ty :: .ident "as" :: us => do some (.cast (← rd 8 us.reverse) ty)
  | _ => rd 9 ts

/-- Calls that start with their operand. -/
def readAttached (rd : Nat → List TT → Option RExpr) (ts : List TT) : Option RExpr :=
  match ts.reverse with
  | .group .paren [] :: .ident f :: .punct '.' :: us => do some (.method (← rd 9 us.reverse) f)
  | .group .paren inner :: .ident f :: .punct '.' :: us =>
    do some (.methodArg (← rd 9 us.reverse) f (← rd 0 inner))
  | .literal text true :: .punct '.' :: us => do some (.field (← rd 9 us.reverse) text)
  | _ => none

/-- Calls and what they are made of. -/
def readCall (rd : Nat → List TT → Option RExpr) (ts : List TT) : Option RExpr :=
  match ts with
  | [.ident n] => if n ∈ keywords then none else some (.name n)
  | [.literal text true] => some (.int text)
  | [.group .paren inner] => rd 1 inner
  | [.ident f, .group .paren []] => if f ∈ keywords then none else some (.call0 f)
  | [.ident f, .group .paren inner] => if f ∈ keywords then none else do some (.call f (← rd 0 inner))
  | [.ident f, .punct '!', .group .paren []] => if f ∈ keywords then none else some (.mac f)
  | _ => readAttached rd ts

/-- The reader; `fuel` bounds the depth. -/
def readAt : (fuel : Nat) → Nat → List TT → Option RExpr
  | 0, _, _ => none
  | fuel + 1, l, ts =>
    if l = 1 then readWhole (readAt fuel) ts
    else if l = 2 then readCmp (readAt fuel) ts
    else if l = 8 then readCast (readAt fuel) ts
    else if l = 9 then readCall (readAt fuel) ts
    else if l < 8 then readBin (readAt fuel) l ts
    else none

section
variable {rd : Nat → List TT → Option RExpr} (hrd : ∀ {l ts e}, rd l ts = some e → Reads l ts e)
include hrd

theorem readBin_sound {l : Nat} (hl : l < 9) {ts : List TT} {e : RExpr} (h : readBin rd l ts = some e) :
    Reads l ts e := by
  unfold readBin at h
  split at h
  · rename_i a op b hs
    obtain ⟨rfl, ho⟩ := lastBy_some hs
    simp only [Option.bind_eq_bind, Option.bind_eq_some_iff, Option.some.injEq] at h
    obtain ⟨x, hx, y, hy, rfl⟩ := h
    exact .bin (by simpa [isOp] using ho) (hrd hx) (hrd hy)
  · exact .up hl (hrd h)

theorem readWhole_sound {ts : List TT} {e : RExpr} (h : readWhole rd ts = some e) : Reads 1 ts e := by
  unfold readWhole at h
  split at h
  · simp only [Option.bind_eq_bind, Option.bind_eq_some_iff, Option.some.injEq] at h
    obtain ⟨x, hx, rfl⟩ := h
    exact .ref (hrd hx)
  · rename_i us
    split at h
    · rename_i b a c hr
      simp only [Option.bind_eq_bind, Option.bind_eq_some_iff, Option.some.injEq] at h
      obtain ⟨x, hx, y, hy, z, hz, rfl⟩ := h
      have : us = c.reverse ++ [.group .brace a, .ident "else", .group .brace b] := by
        rw [← List.reverse_reverse us, hr]; simp
      rw [this]
      exact .ite (hrd hx) (hrd hy) (hrd hz)
    · cases h
  · exact .up (by decide) (hrd h)

theorem readCmp_sound {ts : List TT} {e : RExpr} (h : readCmp rd ts = some e) : Reads 2 ts e := by
  unfold readCmp at h
  split at h
  · rename_i a b hs
    obtain ⟨rfl, -⟩ := lastBy_some hs
    split at h
    · rename_i a' hr
      simp only [Option.bind_eq_bind, Option.bind_eq_some_iff, Option.some.injEq] at h
      obtain ⟨x, hx, y, hy, rfl⟩ := h
      have : a = a'.reverse ++ [.punct '='] := by rw [← List.reverse_reverse a, hr]; simp
      rw [this, List.append_assoc]
      exact .equal (hrd hx) (hrd hy)
    · cases h
  · rename_i a op b hne hs
    obtain ⟨rfl, ho⟩ := lastBy_some hs
    simp only [Option.bind_eq_bind, Option.bind_eq_some_iff, Option.some.injEq] at h
    obtain ⟨x, hx, y, hy, rfl⟩ := h
    refine .less ?_ (hrd hx) (hrd hy)
    simp only [isCmp, Bool.or_eq_true, beq_iff_eq] at ho
    rcases ho with (ho | ho) | ho
    · exact .inl ho
    · exact .inr ho
    · exact absurd ho hne
  · exact .up (by decide) (hrd h)

theorem readCast_sound {ts : List TT} {e : RExpr} (h : readCast rd ts = some e) : Reads 8 ts e := by
  unfold readCast at h
  split at h
  · rename_i ty us hr
    simp only [Option.bind_eq_bind, Option.bind_eq_some_iff, Option.some.injEq] at h
    obtain ⟨x, hx, rfl⟩ := h
    have : ts = us.reverse ++ [.ident "as", .ident ty] := by rw [← List.reverse_reverse ts, hr]; simp
    rw [this]
    exact .cast (hrd hx)
  · exact .up (by decide) (hrd h)

theorem readAttached_sound {ts : List TT} {e : RExpr} (h : readAttached rd ts = some e) : Reads 9 ts e := by
  unfold readAttached at h
  split at h
  · rename_i f us hr
    simp only [Option.bind_eq_bind, Option.bind_eq_some_iff, Option.some.injEq] at h
    obtain ⟨x, hx, rfl⟩ := h
    have : ts = us.reverse ++ [.punct '.', .ident f, .group .paren []] := by
      rw [← List.reverse_reverse ts, hr]; simp
    rw [this]
    exact .method (hrd hx)
  · rename_i inner f us _ hr
    simp only [Option.bind_eq_bind, Option.bind_eq_some_iff, Option.some.injEq] at h
    obtain ⟨x, hx, y, hy, rfl⟩ := h
    have : ts = us.reverse ++ [.punct '.', .ident f, .group .paren inner] := by
      rw [← List.reverse_reverse ts, hr]; simp
    rw [this]
    exact .methodArg (hrd hx) (hrd hy)
  · rename_i text us hr
    simp only [Option.bind_eq_bind, Option.bind_eq_some_iff, Option.some.injEq] at h
    obtain ⟨x, hx, rfl⟩ := h
    have : ts = us.reverse ++ [.punct '.', .literal text true] := by
      rw [← List.reverse_reverse ts, hr]; simp
    rw [this]
    exact .field (hrd hx)
  · cases h

theorem readCall_sound {ts : List TT} {e : RExpr} (h : readCall rd ts = some e) : Reads 9 ts e := by
  unfold readCall at h
  split at h
  · split at h
    · cases h
    · rename_i hk; cases h; exact .name _ hk
  · cases h; exact .int _
  · exact .paren (hrd h)
  · split at h
    · cases h
    · rename_i hk; cases h; exact .call0 hk
  · split at h
    · cases h
    · rename_i hk
      simp only [Option.bind_eq_bind, Option.bind_eq_some_iff, Option.some.injEq] at h
      obtain ⟨x, hx, rfl⟩ := h
      exact .call hk (hrd hx)
  · split at h
    · cases h
    · rename_i hk; cases h; exact .mac hk
  · exact readAttached_sound hrd h

end

theorem readAt_sound (fuel : Nat) : ∀ {l : Nat} {ts : List TT} {e : RExpr}, readAt fuel l ts = some e → Reads l ts e := by
  induction fuel with
  | zero => intro l ts e h; cases h
  | succ fuel ih =>
    intro l ts e h
    rw [readAt] at h
    split at h
    · subst_vars; exact readWhole_sound ih h
    split at h
    · subst_vars; exact readCmp_sound ih h
    split at h
    · subst_vars; exact readCast_sound ih h
    split at h
    · subst_vars; exact readCall_sound ih h
    split at h
    · exact readBin_sound ih (by omega) h
    · cases h

instance noClashDecidable (names : List String) : (e : RExpr) → Decidable (e.NoClash names)
  | .name _ => inferInstanceAs (Decidable True)
  | .int _ => inferInstanceAs (Decidable True)
  | .call f x => have := noClashDecidable names x; inferInstanceAs (Decidable (f ∉ names ∧ x.NoClash names))
  | .call0 f => inferInstanceAs (Decidable (f ∉ names))
  | .mac f => inferInstanceAs (Decidable (f ∉ names))
  | .method x f => have := noClashDecidable names x; inferInstanceAs (Decidable (f ∉ names ∧ x.NoClash names))
  | .methodArg x f y =>
    have := noClashDecidable names x
    have := noClashDecidable names y
    inferInstanceAs (Decidable (f ∉ names ∧ x.NoClash names ∧ y.NoClash names))
  | .field x _ => noClashDecidable names x
  | .cast x ty => have := noClashDecidable names x; inferInstanceAs (Decidable (ty ∉ names ∧ x.NoClash names))
  | .bin _ a b =>
    have := noClashDecidable names a
    have := noClashDecidable names b
    inferInstanceAs (Decidable (a.NoClash names ∧ b.NoClash names))
  | .rest x =>
    have := noClashDecidable names x
    inferInstanceAs (Decidable ("self" ∉ names ∧ "packet" ∉ names ∧ x.NoClash names))
  | .ref x => noClashDecidable names x
  | .ite c a b =>
    have := noClashDecidable names c
    have := noClashDecidable names a
    have := noClashDecidable names b
    inferInstanceAs (Decidable (c.NoClash names ∧ a.NoClash names ∧ b.NoClash names))

end Verif
