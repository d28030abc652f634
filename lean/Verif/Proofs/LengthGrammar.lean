import Verif.Spec.LengthGrammar

/-! # Lemmas on reading length expressions -/

namespace Verif
open Spec

theorem reads_ne_nil {l : Nat} {ts : List TT} {e : RExpr} (h : Reads l ts e) : ts ≠ [] := by
  induction h <;> simp_all

theorem reads_le {l : Nat} {ts : List TT} {e : RExpr} (h : Reads l ts e) : l ≤ 9 := by
  induction h <;> omega

/-- What binds stronger may stand where something weaker may. -/
theorem reads_lower {k l : Nat} {ts : List TT} {e : RExpr} (h : Reads k ts e) (hl : l ≤ k) : Reads l ts e := by
  have hk := reads_le h
  obtain ⟨d, rfl⟩ : ∃ d, l = k - d := ⟨k - l, by omega⟩
  clear hl
  induction d with
  | zero => exact h
  | succ d ih =>
    by_cases hd : d < k
    · refine .up (by omega) ?_
      rw [show k - (d + 1) + 1 = k - d by omega]
      exact ih
    · rw [show k - (d + 1) = k - d by omega]
      exact ih

theorem opLevel_lt {op : Char} {l : Nat} (h : opLevel op = some l) : l = 0 ∨ 3 ≤ l ∧ l < 8 := by
  unfold opLevel at h
  split at h <;> simp at h <;> omega

theorem opLevel_comma {op : Char} (h : opLevel op = some 0) : op = ',' := by
  unfold opLevel at h
  split at h <;> simp_all

/-- What starts an expression other than a reference and a conditional. -/
theorem reads_head {l : Nat} {ts : List TT} {e : RExpr} (h : Reads l ts e) (hl : 2 ≤ l) (us : List TT) :
    (∀ c, ts ≠ .punct c :: us) ∧ ts ≠ .ident "if" :: us := by
  induction h generalizing us with
  | name n hn => simp only [List.cons.injEq, reduceCtorEq, false_and, not_false_eq_true, ne_eq, TT.ident.injEq,
      implies_true, true_and, not_and]; rintro rfl; simp [keywords] at hn
  | call hf => simp only [List.cons.injEq, reduceCtorEq, false_and, not_false_eq_true, ne_eq, TT.ident.injEq,
      implies_true, true_and, not_and]; rintro rfl; simp [keywords] at hf
  | call0 hf => simp only [List.cons.injEq, reduceCtorEq, false_and, not_false_eq_true, ne_eq, TT.ident.injEq,
      implies_true, true_and, not_and]; rintro rfl; simp [keywords] at hf
  | mac hf => simp only [List.cons.injEq, reduceCtorEq, false_and, not_false_eq_true, ne_eq, TT.ident.injEq,
      implies_true, true_and, not_and]; rintro rfl; simp [keywords] at hf
  | @method _ ts _ h ih | @methodArg _ ts _ _ _ h _ ih _ | @field _ ts _ h ih | @cast _ ts _ h ih =>
    cases ts with
    | nil => exact absurd rfl (reads_ne_nil h)
    | cons t ts =>
      have := ih (by omega) ts
      refine ⟨fun c ht => ?_, fun ht => ?_⟩
      · cases ht; exact this.1 _ rfl
      · cases ht; exact this.2 rfl
  | @bin _ _ ts _ _ _ _ h _ ih _ =>
    cases ts with
    | nil => exact absurd rfl (reads_ne_nil h)
    | cons t ts =>
      have := ih (by omega) ts
      refine ⟨fun c ht => ?_, fun ht => ?_⟩
      · cases ht; exact this.1 _ rfl
      · cases ht; exact this.2 rfl
  | @less _ ts _ _ _ _ h _ ih _ | @equal ts _ _ _ h _ ih _ =>
    cases ts with
    | nil => exact absurd rfl (reads_ne_nil h)
    | cons t ts =>
      have := ih (by omega) ts
      refine ⟨fun c ht => ?_, fun ht => ?_⟩
      · cases ht; exact this.1 _ rfl
      · cases ht; exact this.2 rfl
  | up _ _ ih => exact ih (by omega) us
  | ref => omega
  | ite => omega
  | _ => simp

/-- Weaker operators do not stand outside parentheses. -/
theorem reads_no_op {l : Nat} {ts : List TT} {e : RExpr} (h : Reads l ts e) {op : Char} {k : Nat}
    (hop : opLevel op = some k) (hk : k < l) : TT.punct op ∉ ts := by
  have hd : op ≠ '.' := by rintro rfl; simp [opLevel] at hop
  have he : op ≠ '!' := by rintro rfl; simp [opLevel] at hop
  have hq : op ≠ '=' := by rintro rfl; simp [opLevel] at hop
  induction h with
  | name n => simp
  | int t => simp
  | paren => simp
  | call => simp
  | call0 => simp
  | mac => simp [he]
  | rest => simp [hd]
  | method h ih => simp [ih hk, hd]
  | methodArg h _ ih _ => simp [ih hk, hd]
  | field h ih => simp [ih hk, hd]
  | cast h ih => simp [ih hk]
  | @bin _ op' _ _ _ _ ho ha hb iha ihb =>
    have : op ≠ op' := by rintro rfl; rw [ho] at hop; simp at hop; omega
    simp [iha hk, ihb (by omega), this]
  | @less op' _ _ _ _ ho ha hb iha ihb =>
    have : op ≠ op' := by rintro rfl; rcases ho with rfl | rfl <;> simp [opLevel] at hop
    simp [iha (by omega), ihb (by omega), this]
  | equal ha hb iha ihb => simp [iha (by omega), ihb (by omega), hq]
  | ref h ih =>
    have : op ≠ '&' := by rintro rfl; simp [opLevel] at hop; omega
    simp [ih (by omega), this]
  | ite hc _ _ ih _ _ => simp [ih (by omega)]
  | up hl h ih => exact ih (by omega)

/-- Comparisons do not stand outside parentheses above their level. -/
theorem reads_no_cmp {l : Nat} {ts : List TT} {e : RExpr} (h : Reads l ts e) (hl : 3 ≤ l) {op : Char}
    (hop : op = '<' ∨ op = '>' ∨ op = '=') : TT.punct op ∉ ts := by
  have hd : op ≠ '.' := by rintro rfl; simp at hop
  have he : op ≠ '!' := by rintro rfl; simp at hop
  induction h with
  | name n => simp
  | int t => simp
  | paren => simp
  | call => simp
  | call0 => simp
  | mac => simp [he]
  | rest => simp [hd]
  | method h ih => simp [ih hl, hd]
  | methodArg h _ ih _ => simp [ih hl, hd]
  | field h ih => simp [ih hl, hd]
  | cast h ih => simp [ih hl]
  | @bin _ op' _ _ _ _ ho ha hb iha ihb =>
    have : op ≠ op' := by rintro rfl; rcases hop with rfl | rfl | rfl <;> simp [opLevel] at ho
    simp [iha hl, ihb (by omega), this]
  | less => omega
  | equal => omega
  | ref => omega
  | ite => omega
  | up _ h ih => exact ih (by omega)

/-- Only a single name ends in a name above the level of casts. -/
theorem reads9_last {ts : List TT} {e : RExpr} {n : String} (h : Reads 9 ts e)
    (hl : ts.getLast? = some (.ident n)) : ts.length = 1 := by
  generalize hm : 9 = l at h
  induction h with
  | name n => rfl
  | int t => rfl
  | paren => rfl
  | cast => omega
  | bin ho => have := opLevel_lt ho; omega
  | less => omega
  | equal => omega
  | ref => omega
  | ite => omega
  | up hl' h => omega
  | _ => simp at hl

theorem split_last {α : Type} {P : α → Prop} {A A' B B' : List α} {p p' : α}
    (h : A ++ p :: B = A' ++ p' :: B') (hp : P p) (hp' : P p')
    (hB : ∀ x ∈ B, ¬ P x) (hB' : ∀ x ∈ B', ¬ P x) : A = A' ∧ p = p' ∧ B = B' := by
  rw [List.append_eq_append_iff] at h
  rcases h with ⟨C, h1, h2⟩ | ⟨C, h1, h2⟩
  · cases C with
    | nil => simp only [List.nil_append, List.cons.injEq] at h2; exact ⟨by simp [h1], h2.1, h2.2⟩
    | cons c C =>
      simp only [List.cons_append, List.cons.injEq] at h2
      exact absurd hp' (hB p' (by rw [h2.2]; simp))
  · cases C with
    | nil => simp only [List.nil_append, List.cons.injEq] at h2; exact ⟨by simp [h1], h2.1.symm, h2.2.symm⟩
    | cons c C =>
      simp only [List.cons_append, List.cons.injEq] at h2
      exact absurd hp (hB' p (by rw [h2.2]; simp))

/-- The tokens have one reading only. -/
theorem rexpr_unique {l : Nat} {ts : List TT} {e e' : RExpr} (h : Reads l ts e) (h' : Reads l ts e') :
    e = e' := by
  induction h generalizing e' with
  | name n =>
    generalize ht : [TT.ident n] = ts at h'
    cases h' with
    | name => simp at ht; rw [ht]
    | bin ho => have := opLevel_lt ho; omega
    | up hl => omega
    | _ => have := congrArg List.length ht; simp at this ht
  | int t =>
    generalize ht : [TT.literal t true] = ts at h'
    cases h' with
    | int => simp at ht; rw [ht]
    | bin ho => have := opLevel_lt ho; omega
    | up hl => omega
    | _ => have := congrArg List.length ht; simp at this ht
  | paren h ih =>
    rename_i inner e
    generalize ht : [TT.group .paren inner] = ts at h'
    cases h' with
    | paren h' => simp at ht; subst ht; exact ih h'
    | bin ho => have := opLevel_lt ho; omega
    | up hl => omega
    | _ => have := congrArg List.length ht; simp at this ht
  | call hf h ih =>
    rename_i f inner e
    generalize ht : [TT.ident f, TT.group .paren inner] = ts at h'
    cases h' with
    | call _ h' => simp at ht; rw [ht.1]; rw [ht.2] at ih; rw [ih h']
    | call0 => simp at ht; exact absurd ht.2 (reads_ne_nil h)
    | bin ho => have := opLevel_lt ho; omega
    | up hl => omega
    | @field _ ts0 _ h0 => have := congrArg List.getLast? ht; simp at this
    | _ => have := congrArg List.length ht; simp at this ht
  | call0 hf =>
    rename_i f
    generalize ht : [TT.ident f, TT.group .paren []] = ts at h'
    cases h' with
    | call0 => simp at ht; rw [ht]
    | call _ h' => simp at ht; exact absurd ht.2 (reads_ne_nil h')
    | bin ho => have := opLevel_lt ho; omega
    | up hl => omega
    | @field _ ts0 _ h0 => have := congrArg List.getLast? ht; simp at this
    | _ => have := congrArg List.length ht; simp at this ht
  | mac hf =>
    rename_i f
    generalize ht : [TT.ident f, TT.punct '!', TT.group .paren []] = ts at h'
    cases h' with
    | mac => simp at ht; rw [ht]
    | bin ho => have := opLevel_lt ho; omega
    | up hl => omega
    | @field _ ts0 _ h0 => have := congrArg List.getLast? ht; simp at this
    | @method _ ts0 _ h0 =>
      have := congrArg List.length ht
      simp at this; exact absurd this (reads_ne_nil h0)
    | @methodArg _ ts0 _ _ _ h0 =>
      have := congrArg List.length ht
      simp at this; exact absurd this (reads_ne_nil h0)
    | _ => have := congrArg List.length ht; simp at this ht
  | method h ih =>
    rename_i f ts0 e
    generalize ht : ts0 ++ [TT.punct '.', .ident f, .group .paren []] = ts at h'
    cases h' with
    | method h' =>
      have := List.append_inj' ht rfl
      simp at this
      rw [← this.1] at h'
      rw [ih h', this.2]
    | methodArg _ hx =>
      have := List.append_inj' ht rfl
      simp at this
      exact absurd this.2.2 (reads_ne_nil hx)
    | bin ho => have := opLevel_lt ho; omega
    | up hl => omega
    | rest => have := congrArg List.getLast? ht; simp at this
    | field => have := congrArg List.getLast? ht; simp at this
    | mac =>
      have := congrArg List.length ht
      simp at this; exact absurd this (reads_ne_nil h)
    | _ => have := congrArg List.length ht; simp at this
  | methodArg h hx ih ihx =>
    rename_i f ts0 inner e x
    generalize ht : ts0 ++ [TT.punct '.', .ident f, .group .paren inner] = ts at h'
    cases h' with
    | methodArg h' hx' =>
      have := List.append_inj' ht rfl
      simp at this
      rw [← this.1] at h'
      rw [← this.2.2] at hx'
      rw [ih h', ihx hx', this.2.1]
    | method =>
      have := List.append_inj' ht rfl
      simp at this
      exact absurd this.2.2 (reads_ne_nil hx)
    | bin ho => have := opLevel_lt ho; omega
    | up hl => omega
    | rest => have := congrArg List.getLast? ht; simp at this
    | field => have := congrArg List.getLast? ht; simp at this
    | mac =>
      have := congrArg List.length ht
      simp at this; exact absurd this (reads_ne_nil h)
    | _ => have := congrArg List.length ht; simp at this
  | field h ih =>
    rename_i text ts0 e
    generalize ht : ts0 ++ [TT.punct '.', .literal text true] = ts at h'
    cases h' with
    | field h' =>
      have := List.append_inj' ht rfl
      simp at this
      rw [← this.1] at h'
      rw [ih h', this.2]
    | bin ho => have := opLevel_lt ho; omega
    | up hl => omega
    | int => have := congrArg List.length ht; simp at this
    | _ => have := congrArg List.getLast? ht; simp at this
  | rest h ih =>
    rename_i inner e
    generalize ht : [TT.ident "self", .punct '.', .ident "packet",
      .group .bracket [.group .paren inner, .punct '.', .punct '.']] = ts at h'
    cases h' with
    | rest h' => simp at ht; rw [← ht] at h'; rw [ih h']
    | bin ho => have := opLevel_lt ho; omega
    | up hl => omega
    | _ => have := congrArg List.getLast? ht; simp at this
  | ref h ih =>
    rename_i ts0 e
    generalize ht : TT.punct '&' :: ts0 = ts at h'
    cases h' with
    | ref h' => simp at ht; rw [← ht] at h'; rw [ih h']
    | ite => simp at ht
    | bin ho => have := opLevel_lt ho; omega
    | up hl h' => exact absurd ht.symm ((reads_head h' (by omega) _).1 _)
  | ite hc ha hb ihc iha ihb =>
    rename_i cs ts0 us0 c a b
    generalize ht : TT.ident "if" :: (cs ++ [TT.group .brace ts0, .ident "else", .group .brace us0]) = ts at h'
    cases h' with
    | ite hc' ha' hb' =>
      simp only [List.cons.injEq, true_and] at ht
      have := List.append_inj' ht rfl
      simp at this
      rw [← this.1] at hc'
      rw [← this.2.1] at ha'
      rw [← this.2.2] at hb'
      rw [ihc hc', iha ha', ihb hb']
    | ref => simp at ht
    | bin ho => have := opLevel_lt ho; omega
    | up hl h' => exact absurd ht.symm (reads_head h' (by omega) _).2
  | cast h ih =>
    rename_i ty ts0 e
    generalize ht : ts0 ++ [TT.ident "as", .ident ty] = ts at h'
    cases h' with
    | cast h' =>
      have := List.append_inj' ht rfl
      simp at this
      rw [← this.1] at h'
      rw [ih h', this.2]
    | bin ho => have := opLevel_lt ho; omega
    | up hl h' =>
      have h1 := reads9_last (n := ty) h' (by rw [← ht]; simp)
      rw [← ht] at h1; simp at h1
  | bin ho ha hb iha ihb =>
    rename_i l op ts0 us0 a b
    have hl := opLevel_lt ho
    generalize ht : ts0 ++ TT.punct op :: us0 = ts at h'
    have hus : ∀ {us : List TT} {b : RExpr}, Reads (l + 1) us b →
        ∀ x ∈ us, ¬ ∃ o, x = TT.punct o ∧ opLevel o = some l := by
      rintro us b hb x hx ⟨o, rfl, h⟩
      exact reads_no_op hb h (by omega) hx
    cases h' with
    | bin ho' ha' hb' =>
      obtain ⟨h1, h2, h3⟩ := split_last (P := fun x => ∃ o, x = TT.punct o ∧ opLevel o = some l) ht
        ⟨_, rfl, ho⟩ ⟨_, rfl, ho'⟩ (hus hb) (hus hb')
      simp at h2
      rw [← h1] at ha'
      rw [← h3] at hb'
      rw [iha ha', ihb hb', h2]
    | up hl' h' =>
      exact absurd (by rw [← ht]; simp) (reads_no_op h' ho (by omega))
    | _ => omega
  | less hop ha hb iha ihb =>
    rename_i op ts0 us0 a b
    generalize ht : ts0 ++ TT.punct op :: us0 = ts at h'
    have hus : ∀ {us : List TT} {b : RExpr}, Reads 3 us b →
        ∀ x ∈ us, ¬ ∃ o, x = TT.punct o ∧ (o = '<' ∨ o = '>' ∨ o = '=') := by
      rintro us b hb x hx ⟨o, rfl, h⟩
      exact reads_no_cmp hb (by omega) h hx
    have hP : ∃ o, TT.punct op = TT.punct o ∧ (o = '<' ∨ o = '>' ∨ o = '=') :=
      ⟨op, rfl, hop.elim .inl fun h => .inr (.inl h)⟩
    cases h' with
    | less hop' ha' hb' =>
      obtain ⟨h1, h2, h3⟩ := split_last (P := fun x => ∃ o, x = TT.punct o ∧ (o = '<' ∨ o = '>' ∨ o = '=')) ht
        hP ⟨_, rfl, hop'.elim .inl fun h => .inr (.inl h)⟩ (hus hb) (hus hb')
      simp at h2
      rw [← h1] at ha'
      rw [← h3] at hb'
      rw [iha ha', ihb hb', h2]
    | @equal ts1 _ _ _ ha' hb' =>
      obtain ⟨h1, h2, h3⟩ := split_last (P := fun x => ∃ o, x = TT.punct o ∧ (o = '<' ∨ o = '>' ∨ o = '='))
        (A' := ts1 ++ [.punct '=']) (p' := .punct '=')
        (by rw [ht]; simp) hP ⟨_, rfl, by simp⟩ (hus hb) (hus hb')
      simp at h2
      subst h2
      simp at hop
    | bin ho => have := opLevel_lt ho; omega
    | up hl' h' =>
      exact absurd (by rw [← ht]; simp) (reads_no_cmp h' (by omega) (hop.elim .inl fun h => .inr (.inl h)))
  | equal ha hb iha ihb =>
    rename_i ts0 us0 a b
    generalize ht : ts0 ++ TT.punct '=' :: TT.punct '=' :: us0 = ts at h'
    have hus : ∀ {us : List TT} {b : RExpr}, Reads 3 us b →
        ∀ x ∈ us, ¬ ∃ o, x = TT.punct o ∧ (o = '<' ∨ o = '>' ∨ o = '=') := by
      rintro us b hb x hx ⟨o, rfl, h⟩
      exact reads_no_cmp hb (by omega) h hx
    cases h' with
    | @less op _ _ _ _ hop' ha' hb' =>
      obtain ⟨h1, h2, h3⟩ := split_last (P := fun x => ∃ o, x = TT.punct o ∧ (o = '<' ∨ o = '>' ∨ o = '='))
        (A := ts0 ++ [.punct '=']) (p := .punct '=')
        (by rw [← ht]; simp) ⟨_, rfl, by simp⟩ ⟨_, rfl, hop'.elim .inl fun h => .inr (.inl h)⟩ (hus hb) (hus hb')
      simp at h2
      subst h2
      simp at hop'
    | @equal ts1 _ _ _ ha' hb' =>
      obtain ⟨h1, h2, h3⟩ := split_last (P := fun x => ∃ o, x = TT.punct o ∧ (o = '<' ∨ o = '>' ∨ o = '='))
        (A := ts0 ++ [.punct '=']) (p := .punct '=') (A' := ts1 ++ [.punct '=']) (p' := .punct '=')
        (by rw [List.append_assoc, List.append_assoc]; exact ht) ⟨_, rfl, by simp⟩ ⟨_, rfl, by simp⟩ (hus hb) (hus hb')
      have h1 := (List.append_inj' h1 rfl).1
      rw [← h1] at ha'
      rw [← h3] at hb'
      rw [iha ha', ihb hb']
    | bin ho => have := opLevel_lt ho; omega
    | up hl' h' =>
      exact absurd (by rw [← ht]; simp) (reads_no_cmp h' (by omega) (op := '=') (by simp))
  | up hl h ih =>
    cases h' with
    | up _ h' => exact ih h'
    | bin ho' ha' hb' => exact absurd (by simp) (reads_no_op h ho' (by omega))
    | less hop' => exact absurd (by simp) (reads_no_cmp h (by omega) (hop'.elim .inl fun h => .inr (.inl h)))
    | equal => exact absurd (by simp) (reads_no_cmp h (by omega) (op := '=') (by simp))
    | ref => exact absurd rfl ((reads_head h (by omega) _).1 _)
    | ite => exact absurd rfl (reads_head h (by omega) _).2
    | cast h' =>
      rename_i ty _ _
      have h1 := reads9_last (n := ty) h (by simp)
      simp at h1
    | _ => omega

/-! ## The macro -/

theorem parseLengthExpr_append {names : List String} : ∀ {as bs cs ds : List TT},
    parseLengthExpr names as = .ok cs → parseLengthExpr names bs = .ok ds →
    parseLengthExpr names (as ++ bs) = .ok (cs ++ ds)
  | [], bs, cs, ds, h, h' => by
    simp only [parseLengthExpr] at h; injection h with h; subst h; simpa using h'
  | t :: as, bs, cs, ds, h, h' => by
    rw [parseLengthExpr] at h
    rw [List.cons_append, parseLengthExpr]
    cases ht : lengthToken names t with
    | error e => rw [ht] at h; simp at h
    | ok out =>
      rw [ht] at h
      simp only at h ⊢
      cases hr : parseLengthExpr names as with
      | error e => rw [hr] at h; simp at h
      | ok outs =>
        rw [hr] at h
        simp only [Except.ok.injEq] at h
        rw [parseLengthExpr_append hr h', ← h]
        simp

/-- Field names replaced by calls of getters. -/
def RExpr.subst (names : List String) : RExpr → RExpr
  | .name n => if n ∈ names then .method (.name "self") ("get_" ++ n) else .name n
  | .int t => .int t
  | .call f x => .call f (RExpr.subst names x)
  | .call0 f => .call0 f
  | .mac f => .mac f
  | .method x f => .method (RExpr.subst names x) f
  | .methodArg x f y => .methodArg (RExpr.subst names x) f (RExpr.subst names y)
  | .field x t => .field (RExpr.subst names x) t
  | .cast x t => .cast (RExpr.subst names x) t
  | .bin op a b => .bin op (RExpr.subst names a) (RExpr.subst names b)
  | .rest x => .rest (RExpr.subst names x)
  | .ref x => .ref (RExpr.subst names x)
  | .ite c a b => .ite (RExpr.subst names c) (RExpr.subst names a) (RExpr.subst names b)

theorem value_subst {α : Type} (I : Meaning α) (names : List String) (e : RExpr) :
    (RExpr.subst names e).value I = e.value (I.withFields names) := by
  induction e with
  | name n =>
    simp only [RExpr.subst, RExpr.value, Meaning.withFields]
    split <;> rfl
  | int t => rfl
  | call f x ih => simp only [RExpr.subst, RExpr.value, ih]; rfl
  | method x f ih => simp only [RExpr.subst, RExpr.value, ih]; rfl
  | cast x t ih => simp only [RExpr.subst, RExpr.value, ih]; rfl
  | bin op a b iha ihb => simp only [RExpr.subst, RExpr.value, iha, ihb]; rfl
  | rest x ih => simp only [RExpr.subst, RExpr.value, ih]; rfl
  | ref x ih => simp only [RExpr.subst, RExpr.value, ih]; rfl
  | call0 f => rfl
  | mac f => rfl
  | methodArg x f y ih ih' => simp only [RExpr.subst, RExpr.value, ih, ih']; rfl
  | field x t ih => simp only [RExpr.subst, RExpr.value, ih]; rfl
  | ite c a b ihc iha ihb => simp only [RExpr.subst, RExpr.value, ihc, iha, ihb]; rfl

theorem parse_ident {names : List String} {n : String} (h : n ∉ names) :
    parseLengthExpr names [.ident n] = .ok [.ident n] := by
  simp [parseLengthExpr, lengthToken, h]

theorem reads_subst {names : List String} (has : ∀ k ∈ keywords, k ∉ names) {l : Nat} {ts : List TT} {e : RExpr}
    (h : Reads l ts e) (hc : e.NoClash names) :
    ∃ out, parseLengthExpr names ts = .ok out ∧ Reads l out (RExpr.subst names e) := by
  induction h with
  | name n hn =>
    by_cases hm : n ∈ names
    · refine ⟨getterCall n, by simp [parseLengthExpr, lengthToken, hm], ?_⟩
      rw [RExpr.subst, if_pos hm]
      exact Reads.method (Reads.name "self" (by decide))
    · refine ⟨_, parse_ident hm, ?_⟩
      rw [RExpr.subst, if_neg hm]
      exact .name n hn
  | int t => exact ⟨[.literal t true], by simp [parseLengthExpr, lengthToken], .int t⟩
  | paren h ih =>
    obtain ⟨out, h1, h2⟩ := ih hc
    exact ⟨[.group .paren out], by simp [parseLengthExpr, lengthToken, h1], .paren h2⟩
  | call hf h ih =>
    obtain ⟨out, h1, h2⟩ := ih hc.2
    exact ⟨[.ident _, .group .paren out], by simp [parseLengthExpr, lengthToken, h1, hc.1], .call hf h2⟩
  | method h ih =>
    obtain ⟨out, h1, h2⟩ := ih hc.2
    refine ⟨_, parseLengthExpr_append h1 ?_, .method h2⟩
    simp [parseLengthExpr, lengthToken, hc.1]
  | cast h ih =>
    obtain ⟨out, h1, h2⟩ := ih hc.2
    refine ⟨_, parseLengthExpr_append h1 ?_, .cast h2⟩
    simp [parseLengthExpr, lengthToken, hc.1, has "as" (by decide)]
  | bin ho ha hb iha ihb =>
    obtain ⟨out, h1, h2⟩ := iha hc.1
    obtain ⟨out', h1', h2'⟩ := ihb hc.2
    refine ⟨_, parseLengthExpr_append h1 (?_ : parseLengthExpr names (_ :: _) = .ok (_ :: out')), .bin ho h2 h2'⟩
    simp [parseLengthExpr, lengthToken, h1']
  | rest h ih =>
    rename_i inner e
    obtain ⟨out, h1, h2⟩ := ih hc.2.2
    obtain ⟨out', h3, rfl⟩ : ∃ out', parseLengthExpr names inner = .ok out' ∧ out = [.group .paren out'] := by
      simp only [parseLengthExpr, lengthToken] at h1
      cases hp : parseLengthExpr names inner with
      | error => rw [hp] at h1; simp at h1
      | ok o => rw [hp] at h1; simp at h1; exact ⟨o, rfl, h1.symm⟩
    refine ⟨_, ?_, .rest h2⟩
    simp [parseLengthExpr, lengthToken, h3, hc.1, hc.2.1]
  | ref h ih =>
    obtain ⟨out, h1, h2⟩ := ih hc
    exact ⟨.punct '&' :: out, by simp [parseLengthExpr, lengthToken, h1], .ref h2⟩
  | call0 hf => exact ⟨_, by simp [parseLengthExpr, lengthToken, show _ ∉ names from hc], .call0 hf⟩
  | mac hf => exact ⟨_, by simp [parseLengthExpr, lengthToken, show _ ∉ names from hc], .mac hf⟩
  | methodArg h hx ih ihx =>
    obtain ⟨out, h1, h2⟩ := ih hc.2.1
    obtain ⟨out', h1', h2'⟩ := ihx hc.2.2
    refine ⟨_, parseLengthExpr_append h1 ?_, .methodArg h2 h2'⟩
    simp [parseLengthExpr, lengthToken, hc.1, h1']
  | field h ih =>
    obtain ⟨out, h1, h2⟩ := ih hc
    refine ⟨_, parseLengthExpr_append h1 ?_, .field h2⟩
    simp [parseLengthExpr, lengthToken]
  | less ho ha hb iha ihb =>
    obtain ⟨out, h1, h2⟩ := iha hc.1
    obtain ⟨out', h1', h2'⟩ := ihb hc.2
    refine ⟨_, parseLengthExpr_append h1 (?_ : parseLengthExpr names (_ :: _) = .ok (_ :: out')), .less ho h2 h2'⟩
    simp [parseLengthExpr, lengthToken, h1']
  | equal ha hb iha ihb =>
    obtain ⟨out, h1, h2⟩ := iha hc.1
    obtain ⟨out', h1', h2'⟩ := ihb hc.2
    refine ⟨_, parseLengthExpr_append h1 (?_ : parseLengthExpr names (_ :: _ :: _) = .ok (_ :: _ :: out')),
      .equal h2 h2'⟩
    simp [parseLengthExpr, lengthToken, h1']
  | ite hcc ha hb ihc iha ihb =>
    obtain ⟨outc, c1, c2⟩ := ihc hc.1
    obtain ⟨outa, a1, a2⟩ := iha hc.2.1
    obtain ⟨outb, b1, b2⟩ := ihb hc.2.2
    refine ⟨_, parseLengthExpr_append (as := [.ident "if"]) (cs := [.ident "if"]) ?_
      (parseLengthExpr_append c1 ?_), .ite c2 a2 b2⟩
    · exact parse_ident (has "if" (by decide))
    · simp [parseLengthExpr, lengthToken, a1, b1, has "else" (by decide)]
  | up hl h ih =>
    obtain ⟨out, h1, h2⟩ := ih hc
    exact ⟨out, h1, .up hl h2⟩

theorem documented_noClash (names : List String) {e : RExpr} (h : e.Documented) : e.NoClash names := by
  induction e with
  | bin op a b iha ihb => exact ⟨iha h.2.1, ihb h.2.2⟩
  | name => trivial
  | int => trivial
  | _ => exact h.elim

/-- Without operators and casts there are only calls. -/
theorem reads_plain {l : Nat} {ts : List TT} {e : RExpr} (h : Reads l ts e)
    (hop : ∀ op, (∃ k, opLevel op = some k) ∨ (op = '<' ∨ op = '>' ∨ op = '=') → TT.punct op ∉ ts)
    (hlast : ∀ n, ts.getLast? ≠ some (.ident n)) (hif : TT.ident "if" ∉ ts) : Reads 9 ts e := by
  induction h with
  | name n => exact absurd rfl (hlast n)
  | int t => exact .int t
  | paren h => exact .paren h
  | call hf h => exact .call hf h
  | call0 hf => exact .call0 hf
  | mac hf => exact .mac hf
  | rest h => exact .rest h
  | method h => exact .method h
  | methodArg h hx => exact .methodArg h hx
  | field h => exact .field h
  | cast => rename_i ty _ _ _ _; exact absurd (by simp) (hlast ty)
  | bin ho => exact absurd (by simp) (hop _ (.inl ⟨_, ho⟩))
  | less ho => exact absurd (by simp) (hop _ (.inr (ho.elim .inl fun h => .inr (.inl h))))
  | equal => exact absurd (by simp) (hop '=' (.inr (by simp)))
  | ref => exact absurd (by simp) (hop '&' (.inl ⟨_, rfl⟩))
  | ite => exact absurd (by simp) hif
  | up _ _ ih => exact ih hop hlast hif

end Verif
