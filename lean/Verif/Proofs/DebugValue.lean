import Verif.Model.DebugValue
import Verif.Spec.DebugValue
import Verif.Proofs.Debug
import Verif.Proofs.Bounds

/-! # The text of a value can be read back -/

namespace Verif

/-- What can follow a value in a `Debug` text. -/
def Stop (r : List Char) : Prop := ∀ c, r.head? = some c → c ∈ stops

/-- The value and what follows can be told from the text. -/
def Readable {α : Type} (pr : α → Option (List Char)) : Prop :=
  ∀ v v' t t' r r', pr v = some t → pr v' = some t' → Stop r → Stop r' → t ++ r = t' ++ r' → v = v' ∧ r = r'

/-- Texts of characters with a property end at the first character without it. -/
theorem split_at (P : Char → Prop) {t t' r r' : List Char} (ht : ∀ c ∈ t, P c) (ht' : ∀ c ∈ t', P c)
    (hr : ∀ c, r.head? = some c → ¬ P c) (hr' : ∀ c, r'.head? = some c → ¬ P c) (h : t ++ r = t' ++ r') :
    t = t' ∧ r = r' := by
  induction t generalizing t' with
  | nil =>
    cases t' with
    | nil => exact ⟨rfl, h⟩
    | cons c t' =>
      rw [List.nil_append] at h
      exact absurd (ht' c (by simp)) (hr c (by rw [h]; rfl))
  | cons c t ih =>
    cases t' with
    | nil =>
      rw [List.nil_append] at h
      exact absurd (ht c (by simp)) (hr' c (by rw [← h]; rfl))
    | cons c' t' =>
      rw [List.cons_append, List.cons_append, List.cons.injEq] at h
      obtain ⟨rfl, h⟩ := h
      obtain ⟨h1, h2⟩ := ih (fun c hc => ht c (by simp [hc])) (fun c hc => ht' c (by simp [hc])) h
      exact ⟨by rw [h1], h2⟩

theorem decText_digit (n : Nat) : ∀ c ∈ decText n, c.isDigit = true :=
  fun _ h => Nat.isDigit_of_mem_toDigits (by decide) (by decide) h

theorem decText_inj {n n' : Nat} (h : decText n = decText n') : n = n' := by
  have := congrArg (fun l => Nat.ofDigitChars 10 l 0) h
  simpa [decText, Nat.ofDigitChars_ten_toDigits] using this

theorem stop_not_digit {r : List Char} (h : Stop r) : ∀ c, r.head? = some c → ¬ c.isDigit = true := by
  intro c hc
  have := h c hc
  have key : ∀ c ∈ stops, ¬ c.isDigit = true := by decide
  exact key c this

theorem decText_split {n n' : Nat} {r r' : List Char} (hr : ∀ c, r.head? = some c → ¬ c.isDigit = true)
    (hr' : ∀ c, r'.head? = some c → ¬ c.isDigit = true) (h : decText n ++ r = decText n' ++ r') :
    n = n' ∧ r = r' := by
  obtain ⟨h1, h2⟩ := split_at (fun c => c.isDigit = true) (decText_digit n) (decText_digit n') hr hr' h
  exact ⟨decText_inj h1, h2⟩

theorem head_not_digit {c : Char} {r : List Char} (hc : c.isDigit = false) :
    ∀ x, (c :: r).head? = some x → ¬ x.isDigit = true := by
  intro x hx
  simp only [List.head?_cons, Option.some.injEq] at hx
  subst hx
  simp [hc]

theorem decText_char {n n' : Nat} {c : Char} {r r' : List Char} (hc : c.isDigit = false)
    (h : decText n ++ c :: r = decText n' ++ c :: r') : n = n' ∧ r = r' := by
  obtain ⟨h1, h2⟩ := decText_split (head_not_digit hc) (head_not_digit hc) h
  exact ⟨h1, (List.cons.inj h2).2⟩

theorem hex2_inj {a b : Nat} (ha : a < 256) (hb : b < 256) {r r' : List Char} (h : hex2 a ++ r = hex2 b ++ r') :
    a = b ∧ r = r' := by
  simp only [hex2, List.cons_append, List.nil_append, List.cons.injEq] at h
  have key : ∀ x < 16, ∀ y < 16, lowerHex x = lowerHex y → x = y := by decide +kernel
  have h1 := key _ (by omega) _ (by omega) h.1
  have h2 := key _ (by omega) _ (by omega) h.2.1
  exact ⟨by omega, h.2.2⟩

/-! ## Lists -/

/-- The rest of a list after its first element. -/
def commaTail : List (List Char) → List Char
  | [] => []
  | t :: ts => ", ".toList ++ (t ++ commaTail ts)

theorem commaJoin_cons (t : List Char) (ts : List (List Char)) : commaJoin (t :: ts) = t ++ commaTail ts := by
  induction ts generalizing t with
  | nil => simp [commaJoin, commaTail]
  | cons u us ih => rw [commaJoin, ih, commaTail]; simp

theorem stop_commaTail (ts : List (List Char)) {r : List Char} (hr : Stop r) : Stop (commaTail ts ++ r) := by
  cases ts with
  | nil => exact hr
  | cons t ts =>
    intro c hc
    have hc : some ',' = some c := hc
    cases hc
    decide

theorem commaTail_read {α : Type} {pr : α → Option (List Char)} (h : Readable pr) {close : Char}
    (hclose : close ∈ stops) (hne : close ≠ ',') : ∀ (vs vs' : List α) (ts ts' : List (List Char)) (r r' : List Char),
    vs.mapM pr = some ts → vs'.mapM pr = some ts' →
    commaTail ts ++ close :: r = commaTail ts' ++ close :: r' → vs = vs' ∧ r = r'
  | [], [], ts, ts', r, r', h1, h2, he => by
    cases h1; cases h2
    exact ⟨rfl, (List.cons.inj he).2⟩
  | [], v' :: vs', ts, ts', r, r', h1, h2, he => by
    cases h1
    rw [List.mapM_cons] at h2
    simp only [Option.bind_eq_bind, Option.bind_eq_some_iff] at h2
    obtain ⟨t, -, us, -, h2⟩ := h2
    cases h2
    exact absurd (List.cons.inj he).1 hne
  | v :: vs, [], ts, ts', r, r', h1, h2, he => by
    cases h2
    rw [List.mapM_cons] at h1
    simp only [Option.bind_eq_bind, Option.bind_eq_some_iff] at h1
    obtain ⟨t, -, us, -, h1⟩ := h1
    cases h1
    exact absurd (List.cons.inj he).1.symm hne
  | v :: vs, v' :: vs', ts, ts', r, r', h1, h2, he => by
    rw [List.mapM_cons] at h1 h2
    simp only [Option.bind_eq_bind, Option.bind_eq_some_iff] at h1 h2
    obtain ⟨t, ht, us, hus, h1⟩ := h1
    obtain ⟨t', ht', us', hus', h2⟩ := h2
    cases h1
    cases h2
    simp only [commaTail, List.append_assoc, List.append_cancel_left_eq] at he
    have hs : ∀ l (x : List Char), Stop (commaTail l ++ close :: x) := fun l x =>
      stop_commaTail l (fun c hc => by cases hc; exact hclose)
    obtain ⟨rfl, he⟩ := h _ _ _ _ _ _ ht ht' (hs _ _) (hs _ _) he
    obtain ⟨rfl, he⟩ := commaTail_read h hclose hne vs vs' us us' r r' hus hus' he
    exact ⟨rfl, he⟩

/-- The list of the values can be told from the text of the list, if no value starts with the closing
bracket. -/
theorem commaJoin_read {α : Type} {pr : α → Option (List Char)} (h : Readable pr)
    (hfirst : ∀ v t r, pr v = some t → ∀ x, t ++ r ≠ ']' :: x) {vs vs' : List α} {ts ts' : List (List Char)}
    {r r' : List Char} (h1 : vs.mapM pr = some ts) (h2 : vs'.mapM pr = some ts')
    (he : commaJoin ts ++ ']' :: r = commaJoin ts' ++ ']' :: r') : vs = vs' ∧ r = r' := by
  cases vs with
  | nil =>
    cases h1
    cases vs' with
    | nil => cases h2; exact ⟨rfl, (List.cons.inj he).2⟩
    | cons v' vs' =>
      rw [List.mapM_cons] at h2
      simp only [Option.bind_eq_bind, Option.bind_eq_some_iff] at h2
      obtain ⟨t, ht, us, -, h2⟩ := h2
      cases h2
      rw [commaJoin_cons, List.append_assoc] at he
      exact absurd he.symm (hfirst _ _ _ ht _)
  | cons v vs =>
    rw [List.mapM_cons] at h1
    simp only [Option.bind_eq_bind, Option.bind_eq_some_iff] at h1
    obtain ⟨t, ht, us, hus, h1⟩ := h1
    cases h1
    rw [commaJoin_cons, List.append_assoc] at he
    cases vs' with
    | nil =>
      cases h2
      exact absurd he (hfirst _ _ _ ht _)
    | cons v' vs' =>
      rw [List.mapM_cons] at h2
      simp only [Option.bind_eq_bind, Option.bind_eq_some_iff] at h2
      obtain ⟨t', ht', us', hus', h2⟩ := h2
      cases h2
      rw [commaJoin_cons, List.append_assoc] at he
      have hs : ∀ l (x : List Char), Stop (commaTail l ++ ']' :: x) := fun l x =>
        stop_commaTail l (fun c hc => by cases hc; decide)
      obtain ⟨rfl, he⟩ := h _ _ _ _ _ _ ht ht' (hs _ _) (hs _ _) he
      obtain ⟨rfl, he⟩ := commaTail_read h (by decide) (by decide) vs vs' us us' r r' hus hus' he
      exact ⟨rfl, he⟩

theorem dec_readable : Readable (fun n => some (decText n)) := by
  intro v v' t t' r r' h h' hr hr' he
  cases h; cases h'
  exact decText_split (stop_not_digit hr) (stop_not_digit hr') he

theorem dec_first (v : Nat) (t r : List Char) (h : some (decText v) = some t) (x : List Char) : t ++ r ≠ ']' :: x := by
  cases h
  intro he
  cases hd : decText v with
  | nil => exact Nat.toDigits_ne_nil hd
  | cons c cs =>
    rw [hd] at he
    have := decText_digit v c (by rw [hd]; simp)
    rw [(List.cons.inj he).1] at this
    revert this
    decide

/-! ## Values -/

theorem newtype_inv {six : List Nat → List Char} {name x : List Char} {v : Val}
    (h : flatText six (.newtype name) v = some x) :
    ∃ n, v = .nums [n] ∧ x = name ++ ('(' :: (decText n ++ [')'])) := by
  unfold flatText at h
  split at h <;> simp_all

theorem mac_inv {six : List Nat → List Char} {x : List Char} {v : Val} (h : flatText six .mac v = some x) :
    ∃ a b c d e f, v = .nums [a, b, c, d, e, f] ∧ (a < 256 ∧ b < 256 ∧ c < 256 ∧ d < 256 ∧ e < 256 ∧ f < 256) ∧
      x = hex2 a ++ (':' :: (hex2 b ++ (':' :: (hex2 c ++ (':' :: (hex2 d ++ (':' :: (hex2 e ++ (':' ::
        hex2 f))))))))) := by
  unfold flatText at h
  split at h <;> try (simp_all; done)
  split at h
  · rename_i hall
    cases h
    simp only [List.all_cons, List.all_nil, Bool.and_true, Bool.and_eq_true, decide_eq_true_eq] at hall
    exact ⟨_, _, _, _, _, _, rfl, hall, rfl⟩
  · cases h

theorem ipv4_inv {six : List Nat → List Char} {x : List Char} {v : Val} (h : flatText six .ipv4 v = some x) :
    ∃ a b c d, v = .nums [a, b, c, d] ∧
      x = decText a ++ ('.' :: (decText b ++ ('.' :: (decText c ++ ('.' :: decText d))))) := by
  unfold flatText at h
  split at h <;> try (simp_all; done)
  cases h
  exact ⟨_, _, _, _, rfl, rfl⟩

theorem ipv6_inv {six : List Nat → List Char} {x : List Char} {v : Val} (h : flatText six .ipv6 v = some x) :
    ∃ ns, v = .nums ns ∧ ns.length = 8 ∧ (∀ n ∈ ns, n < 65536) ∧ x = six ns := by
  unfold flatText at h
  split at h <;> simp_all

theorem ints_inv {six : List Nat → List Char} {x : List Char} {v : Val} (h : flatText six .ints v = some x) :
    ∃ ns, v = .nums ns ∧ x = '[' :: (commaJoin (ns.map decText) ++ [']']) := by
  unfold flatText at h
  split at h <;> simp_all

theorem mapM_dec (ns : List Nat) : ns.mapM (fun n => some (decText n)) = some (ns.map decText) := by
  induction ns with
  | nil => rfl
  | cons n ns ih => rw [List.mapM_cons, ih]; rfl

theorem flat_readable {six : List Nat → List Char} (h6 : SixText six) (t : FlatTy) : Readable (flatText six t) := by
  intro v v' x x' r r' h h' hr hr' he
  cases t with
  | int =>
    cases v <;> cases v' <;> simp only [flatText, Option.some.injEq, reduceCtorEq] at h h'
    subst h; subst h'
    obtain ⟨h1, h2⟩ := decText_split (stop_not_digit hr) (stop_not_digit hr') he
    exact ⟨by rw [h1], h2⟩
  | newtype name =>
    obtain ⟨n, rfl, rfl⟩ := newtype_inv h
    obtain ⟨n', rfl, rfl⟩ := newtype_inv h'
    simp only [List.append_assoc, List.cons_append, List.nil_append, List.append_cancel_left_eq,
      List.cons.injEq, true_and] at he
    obtain ⟨h1, h2⟩ := decText_char (by decide) he
    exact ⟨by rw [h1], h2⟩
  | mac =>
    obtain ⟨a, b, c, d, e, f, rfl, ⟨l1, l2, l3, l4, l5, l6⟩, rfl⟩ := mac_inv h
    obtain ⟨a', b', c', d', e', f', rfl, ⟨k1, k2, k3, k4, k5, k6⟩, rfl⟩ := mac_inv h'
    simp only [List.append_assoc, List.cons_append] at he
    obtain ⟨h1, he⟩ := hex2_inj l1 k1 he
    obtain ⟨h2, he⟩ := hex2_inj l2 k2 (List.cons.inj he).2
    obtain ⟨h3, he⟩ := hex2_inj l3 k3 (List.cons.inj he).2
    obtain ⟨h4, he⟩ := hex2_inj l4 k4 (List.cons.inj he).2
    obtain ⟨h5, he⟩ := hex2_inj l5 k5 (List.cons.inj he).2
    obtain ⟨h6, he⟩ := hex2_inj l6 k6 (List.cons.inj he).2
    exact ⟨by rw [h1, h2, h3, h4, h5, h6], he⟩
  | ipv4 =>
    obtain ⟨a, b, c, d, rfl, rfl⟩ := ipv4_inv h
    obtain ⟨a', b', c', d', rfl, rfl⟩ := ipv4_inv h'
    simp only [List.append_assoc, List.cons_append] at he
    obtain ⟨h1, he⟩ := decText_char (by decide) he
    obtain ⟨h2, he⟩ := decText_char (by decide) he
    obtain ⟨h3, he⟩ := decText_char (by decide) he
    obtain ⟨h4, he⟩ := decText_split (stop_not_digit hr) (stop_not_digit hr') he
    exact ⟨by rw [h1, h2, h3, h4], he⟩
  | ipv6 =>
    obtain ⟨ns, rfl, l1, l2, rfl⟩ := ipv6_inv h
    obtain ⟨ns', rfl, k1, k2, rfl⟩ := ipv6_inv h'
    obtain ⟨h1, h2⟩ := split_at (fun c => c ∉ stops) (h6.chars ns l1) (h6.chars ns' k1)
      (fun c hc hn => hn (hr c hc)) (fun c hc hn => hn (hr' c hc)) he
    exact ⟨by rw [h6.inj ns ns' l1 k1 l2 k2 h1], h2⟩
  | ints =>
    obtain ⟨ns, rfl, rfl⟩ := ints_inv h
    obtain ⟨ns', rfl, rfl⟩ := ints_inv h'
    simp only [List.append_assoc, List.cons_append, List.nil_append, List.cons.injEq, true_and] at he
    obtain ⟨h1, h2⟩ := commaJoin_read dec_readable (fun v t r h x => dec_first v t r h x) (mapM_dec ns)
      (mapM_dec ns') he
    exact ⟨by rw [h1], h2⟩

/-! ## Structs -/

theorem named_tail {six : List Nat → List Char} (h6 : SixText six) : ∀ (fs : List (List Char × FlatTy))
    (vs vs' : List Val) (ts ts' : List (List Char)) (r r' : List Char),
    namedTexts six fs vs = some ts → namedTexts six fs vs' = some ts' →
    commaTail ts ++ (' ' :: r) = commaTail ts' ++ (' ' :: r') → vs = vs' ∧ r = r'
  | [], vs, vs', ts, ts', r, r', h, h', he => by
    cases vs with
    | cons _ _ => simp [namedTexts] at h
    | nil =>
      cases vs' with
      | cons _ _ => simp [namedTexts] at h'
      | nil =>
        cases h; cases h'
        exact ⟨rfl, (List.cons.inj he).2⟩
  | (n, t) :: fs, vs, vs', ts, ts', r, r', h, h', he => by
    cases vs with
    | nil => simp [namedTexts] at h
    | cons v vs =>
      cases vs' with
      | nil => simp [namedTexts] at h'
      | cons v' vs' =>
        simp only [namedTexts, Option.bind_eq_bind, Option.bind_eq_some_iff] at h h'
        obtain ⟨x, hx, us, hus, h⟩ := h
        obtain ⟨x', hx', us', hus', h'⟩ := h'
        cases h
        cases h'
        simp only [commaTail, List.append_assoc, List.append_cancel_left_eq] at he
        have hs : ∀ l (y : List Char), Stop (commaTail l ++ ' ' :: y) := fun l y =>
          stop_commaTail l (fun c hc => by cases hc; decide)
        obtain ⟨h1, he⟩ := flat_readable h6 t _ _ _ _ _ _ hx hx' (hs _ _) (hs _ _) he
        obtain ⟨h2, he⟩ := named_tail h6 fs vs vs' us us' r r' hus hus' he
        exact ⟨by rw [h1, h2], he⟩

theorem struct_inv {six : List Nat → List Char} {name x : List Char} {fs : List (List Char × FlatTy)} {v : Val}
    (h : structText six name fs v = some x) : ∃ vs ts, v = .list vs ∧ namedTexts six fs vs = some ts ∧
      x = name ++ (" { ".toList ++ (commaJoin ts ++ " }".toList)) := by
  unfold structText at h
  split at h
  · simp only [Option.bind_eq_bind, Option.bind_eq_some_iff] at h
    obtain ⟨ts, h1, h2⟩ := h
    cases h2
    exact ⟨_, ts, rfl, h1, rfl⟩
  · cases h

theorem struct_readable {six : List Nat → List Char} (h6 : SixText six) (name : List Char)
    (fs : List (List Char × FlatTy)) : Readable (structText six name fs) := by
  intro v v' x x' r r' h h' hr hr' he
  obtain ⟨vs, ts, hv, hq, hx⟩ := struct_inv h
  obtain ⟨vs', ts', hv', hq', hx'⟩ := struct_inv h'
  clear h h'
  subst hv hv' hx hx'
  rename namedTexts six fs vs = some ts => h
  rename namedTexts six fs vs' = some ts' => h'
  simp only [List.append_assoc, List.append_cancel_left_eq] at he
  have hsp : " }".toList = [' ', '}'] := rfl
  rw [hsp] at he
  simp only [List.cons_append, List.nil_append] at he
  have hfin : ∀ {a b : List Char}, '}' :: a = '}' :: b → a = b := fun h => (List.cons.inj h).2
  cases fs with
  | nil =>
    cases vs with
    | cons _ _ => simp [namedTexts] at h
    | nil =>
      cases vs' with
      | cons _ _ => simp [namedTexts] at h'
      | nil =>
        cases h; cases h'
        exact ⟨rfl, hfin (List.cons.inj he).2⟩
  | cons p fs =>
    obtain ⟨n, t⟩ := p
    cases vs with
    | nil => simp [namedTexts] at h
    | cons v vs =>
      cases vs' with
      | nil => simp [namedTexts] at h'
      | cons v' vs' =>
        simp only [namedTexts, Option.bind_eq_bind, Option.bind_eq_some_iff] at h h'
        obtain ⟨x, hx, us, hus, h⟩ := h
        obtain ⟨x', hx', us', hus', h'⟩ := h'
        cases h
        cases h'
        rw [commaJoin_cons, commaJoin_cons] at he
        simp only [List.append_assoc, List.append_cancel_left_eq] at he
        have hs : ∀ l (y : List Char), Stop (commaTail l ++ ' ' :: y) := fun l y =>
          stop_commaTail l (fun c hc => by cases hc; decide)
        obtain ⟨h1, he⟩ := flat_readable h6 t _ _ _ _ _ _ hx hx' (hs _ _) (hs _ _) he
        obtain ⟨h2, he⟩ := named_tail h6 fs vs vs' us us' _ _ hus hus' he
        exact ⟨by rw [h1, h2], hfin he⟩

/-- No name of a type starts with a bracket. -/
def DebugTy.named : DebugTy → Bool
  | .flat _ => true
  | .structs name _ => name.head? != some ']' && name != []

theorem value_readable {six : List Nat → List Char} (h6 : SixText six) (t : DebugTy) (hn : t.named = true) :
    Readable (valueText six t) := by
  intro v v' x x' r r' h h' hr hr' he
  cases t with
  | flat t => exact flat_readable h6 t v v' x x' r r' (by cases v <;> exact h) (by cases v' <;> exact h') hr hr' he
  | structs name fs =>
    cases v <;> cases v' <;> simp only [valueText, reduceCtorEq, Option.bind_eq_bind, Option.bind_eq_some_iff,
      Option.some.injEq] at h h'
    obtain ⟨ts, h, rfl⟩ := h
    obtain ⟨ts', h', rfl⟩ := h'
    simp only [List.append_assoc, List.cons_append, List.nil_append, List.cons.injEq, true_and] at he
    obtain ⟨h1, h2⟩ := commaJoin_read (struct_readable h6 name fs) (fun v t r h x hx => by
      obtain ⟨vs, us, -, -, rfl⟩ := struct_inv h
      cases name with
      | nil => simp [DebugTy.named] at hn
      | cons c cs =>
        rw [List.cons_append, List.cons_append] at hx
        rw [(List.cons.inj hx).1] at hn
        simp [DebugTy.named] at hn) h h' he
    exact ⟨by rw [h1], h2⟩

/-! ## Values of getters are printed -/

/-- The values of this type have this shape. -/
def flatFits : FlatTy → Ty → Bool
  | .int, .prim _ => true
  | .newtype _, .misc [_] => true
  | .mac, .misc ps => ps == List.replicate 6 ⟨8, .big⟩
  | .ipv4, .misc ps => ps.length == 4
  | .ipv6, .misc ps => ps == List.replicate 8 ⟨16, .big⟩
  | .ints, .vecPrim _ => true
  | _, _ => false

theorem getArgs_values {m : Mode} {lens : List (Res Nat)} {buf : Buf} {w : Nat} : ∀ {ps : List Prim} {bit : Nat}
    {vs : List Nat}, getArgs m lens buf bit ps = .ok vs → vs.length = ps.length ∧
      ((∀ p ∈ ps, p = ⟨w, .big⟩) → ∀ v ∈ vs, v < 2 ^ w)
  | [], bit, vs, h => by
    cases h
    exact ⟨rfl, fun _ v hv => by cases hv⟩
  | p :: ps, bit, vs, h => by
    rw [getArgs] at h
    obtain ⟨co, -, h⟩ := bind_eq_ok.mp h
    obtain ⟨v, hv, h⟩ := bind_eq_ok.mp h
    obtain ⟨us, hus, h⟩ := bind_eq_ok.mp h
    cases h
    obtain ⟨h1, h2⟩ := getArgs_values (w := w) hus
    refine ⟨by simp [h1], fun hp x hx => ?_⟩
    rcases List.mem_cons.mp hx with rfl | hx
    · have := hp p (by simp)
      subst this
      exact getPrim_lt hv
    · exact h2 (fun q hq => hp q (by simp [hq])) x hx

theorem flat_typed (six : List Nat → List Char) {t : FlatTy} {ty : Ty} (hfit : flatFits t ty = true) {m : Mode}
    {buf : Buf} {bit : Nat} {lens : List (Res Nat)} {len : Res Nat} {v : Val}
    (h : getField m buf bit lens len ty = .ok v) : ∃ x, flatText six t v = some x := by
  cases ty with
  | prim p =>
    cases t <;> simp only [flatFits, Bool.false_eq_true] at hfit
    simp only [getField] at h
    obtain ⟨co, -, h⟩ := bind_eq_ok.mp h
    cases hg : getPrim p (bit % 8) buf co with
    | error e => rw [hg] at h; cases h
    | ok n => rw [hg] at h; cases h; exact ⟨_, rfl⟩
  | vecPrim p =>
    cases t <;> simp only [flatFits, Bool.false_eq_true] at hfit
    simp only [getField] at h
    obtain ⟨co, -, h⟩ := bind_eq_ok.mp h
    cases hg : getElems p co co.length 0 with
    | error e => rw [hg] at h; cases h
    | ok n => rw [hg] at h; cases h; exact ⟨_, rfl⟩
  | vecPkt c => cases t <;> simp only [flatFits, Bool.false_eq_true] at hfit
  | misc ps =>
    simp only [getField] at h
    cases hg : getArgs m lens buf bit ps with
    | error e => rw [hg] at h; cases h
    | ok ns =>
      rw [hg] at h
      cases h
      cases t with
      | int => simp [flatFits] at hfit
      | ints => simp [flatFits] at hfit
      | newtype name =>
        have hl := (getArgs_values (w := 0) hg).1
        match ps, hfit, hl with
        | [p], _, hl =>
          match ns, hl with
          | [n], _ => exact ⟨_, rfl⟩
      | mac =>
        have hps := beq_iff_eq.mp hfit
        obtain ⟨hl, hb⟩ := getArgs_values (w := 8) hg
        have hb := hb (fun p hp => by rw [hps] at hp; exact List.eq_of_mem_replicate hp)
        rw [hps, List.length_replicate] at hl
        match ns, hl, hb with
        | [a, b, c, d, e, f], _, hb =>
          refine ⟨_, by rw [flatText, if_pos]; rw [List.all_eq_true]; intro x hx; exact decide_eq_true (hb x hx)⟩
      | ipv4 =>
        have hl := (getArgs_values (w := 0) hg).1
        simp only [flatFits, beq_iff_eq] at hfit
        rw [hfit] at hl
        match ns, hl with
        | [a, b, c, d], _ => exact ⟨_, rfl⟩
      | ipv6 =>
        have hps := beq_iff_eq.mp hfit
        obtain ⟨hl, hb⟩ := getArgs_values (w := 16) hg
        have hb := hb (fun p hp => by rw [hps] at hp; exact List.eq_of_mem_replicate hp)
        rw [hps, List.length_replicate] at hl
        exact ⟨_, by rw [flatText, if_pos]; exact ⟨hl, by rw [List.all_eq_true]; intro x hx; exact decide_eq_true (hb x hx)⟩⟩

/-- The fields of an inner struct. -/
def namedFits : List (List Char × FlatTy) → List Field → Bool
  | [], [] => true
  | (_, t) :: ts, f :: fs => flatFits t f.ty && namedFits ts fs
  | _, _ => false

theorem struct_typed (six : List Nat → List Char) (name : List Char) {d : Decl} {fields : List (List Char × FlatTy)}
    (hfit : namedFits fields d.fields = true) {m : Mode} {buf : Buf} {v : Val} (h : d.fromPacket m buf = .ok v) :
    ∃ x, structText six name fields v = some x := by
  rw [Decl.fromPacket, final_vals] at h
  have gen : ∀ (fs : List Field) (ts : List (List Char × FlatTy)) (k : Nat) (vs : List Val),
      namedFits ts fs = true → d.fields.drop k = fs →
      ((List.range' k fs.length).map (d.get m buf)).mapM id = .ok vs → ∃ x, namedTexts six ts vs = some x := by
    intro fs
    induction fs with
    | nil =>
      intro ts k vs hf hk hv
      cases ts with
      | cons _ _ => simp [namedFits] at hf
      | nil => cases hv; exact ⟨_, rfl⟩
    | cons f fs ih =>
      intro ts k vs hf hk hv
      cases ts with
      | nil => simp [namedFits] at hf
      | cons t ts =>
        simp only [namedFits, Bool.and_eq_true] at hf
        simp only [List.length_cons, List.range'_succ, List.map_cons, List.mapM_cons, id] at hv
        obtain ⟨v, h1, hv⟩ := bind_eq_ok.mp hv
        obtain ⟨vs', h2, hv⟩ := bind_eq_ok.mp hv
        cases hv
        have hfk : d.fields[k]? = some f := by
          have := congrArg List.head? hk
          simpa [List.head?_drop] using this
        obtain ⟨x, hx⟩ : ∃ x, flatText six t.2 v = some x := by
          rw [Decl.get, hfk] at h1
          exact flat_typed six hf.1 h1
        obtain ⟨xs, hxs⟩ := ih ts (k + 1) vs' hf.2 (by rw [← List.tail_drop, hk]; rfl) h2
        exact ⟨_, by simp only [namedTexts, hx, hxs, Option.bind_eq_bind, Option.bind_some]; rfl⟩
  cases hv : ((List.range d.fields.length).map (d.get m buf)).mapM id with
  | error e => rw [hv] at h; cases h
  | ok vs =>
    rw [hv] at h
    cases h
    obtain ⟨x, hx⟩ := gen d.fields fields 0 vs hfit rfl (by rw [← List.range_eq_range']; exact hv)
    exact ⟨_, by rw [structText, hx]; rfl⟩

theorem collect_typed {c : Codec} {m : Mode} {P : Val → Prop} (hP : ∀ b v, c.fromPacket m b = .ok v → P v) :
    ∀ (fuel : Nat) (buf : Buf) (vs : List Val), c.collect m fuel buf = .ok vs → ∀ v ∈ vs, P v := by
  intro fuel
  induction fuel with
  | zero => intro buf vs h; cases h; simp
  | succ fuel ih =>
    intro buf vs h
    rw [Codec.collect] at h
    obtain ⟨o, ho, h⟩ := bind_eq_ok.mp h
    cases o with
    | none => cases h; simp
    | some pr =>
      obtain ⟨p, rest⟩ := pr
      dsimp only at h
      obtain ⟨v, hv, h⟩ := bind_eq_ok.mp h
      split at h
      · obtain ⟨us, hus, h⟩ := bind_eq_ok.mp h
        cases h
        intro x hx
        rcases List.mem_cons.mp hx with rfl | hx
        · exact hP _ _ hv
        · exact ih _ _ hus x hx
      · cases h

/-- The values of this type have this shape; an inner struct is read by `from_packet` of its own
declaration. -/
def Fits : DebugTy → Ty → Prop
  | .flat t, ty => flatFits t ty = true
  | .structs _ fields, .vecPkt c => ∃ d : Decl, c.fromPacket = d.fromPacket ∧ namedFits fields d.fields = true
  | _, _ => False

theorem value_typed (six : List Nat → List Char) {t : DebugTy} {ty : Ty} (hfit : Fits t ty) {m : Mode}
    {buf : Buf} {bit : Nat} {lens : List (Res Nat)} {len : Res Nat} {v : Val}
    (h : getField m buf bit lens len ty = .ok v) : ∃ x, valueText six t v = some x := by
  cases t with
  | flat t =>
    obtain ⟨x, hx⟩ := flat_typed six hfit h
    exact ⟨x, by cases v <;> exact hx⟩
  | structs name fields =>
    cases ty with
    | prim p => exact hfit.elim
    | misc ps => exact hfit.elim
    | vecPrim p => exact hfit.elim
    | vecPkt c =>
      obtain ⟨d, hd, hfit⟩ := hfit
      simp only [getField] at h
      obtain ⟨packet, -, h⟩ := bind_eq_ok.mp h
      cases hg : c.collect m packet.length packet with
      | error e => rw [hg] at h; cases h
      | ok vs =>
        rw [hg] at h
        cases h
        have := collect_typed (P := fun v => ∃ x, structText six name fields v = some x)
          (fun b v hv => struct_typed six name hfit (by rw [hd] at hv; exact hv)) _ _ _ hg
        have key : ∀ vs : List Val, (∀ v ∈ vs, ∃ x, structText six name fields v = some x) →
            ∃ ts, vs.mapM (structText six name fields) = some ts := by
          intro vs
          induction vs with
          | nil => intro _; exact ⟨_, rfl⟩
          | cons v vs ih =>
            intro hvs
            obtain ⟨x, hx⟩ := hvs v (by simp)
            obtain ⟨ts, hts⟩ := ih (fun v hv => hvs v (by simp [hv]))
            exact ⟨_, by rw [List.mapM_cons, hx, hts]; rfl⟩
        obtain ⟨ts, hts⟩ := key vs this
        exact ⟨_, by simp only [valueText, hts, Option.bind_eq_bind, Option.bind_some]; rfl⟩

/-- The text types of the fields fit the modelled types. -/
def FieldFits (structs : List Char → Option (List RawField)) (raw : List RawField) (f : Field) : Prop :=
  ∃ t, fieldTy structs raw f = some t ∧ t.named = true ∧ Fits t f.ty

theorem debugValue_some {six : List Nat → List Char} {structs : List Char → Option (List RawField)}
    {raw : List RawField} {f : Field} {t : DebugTy} (ht : fieldTy structs raw f = some t) {v : Val}
    {x : List Char} (hx : valueText six t v = some x) : debugValue six structs raw f v = x := by
  unfold debugValue
  rw [ht]
  simp [hx]

theorem fieldTexts_read {six : List Nat → List Char} (h6 : SixText six)
    {structs : List Char → Option (List RawField)} {raw : List RawField} {m : Mode} {buf buf' : Buf} {d : Decl} :
    ∀ (fs : List Field) (k : Nat) (x x' r r' : List Char), d.fields.drop k = fs →
      (∀ f ∈ fs, FieldFits structs raw f) →
      fieldTexts (debugValue six structs raw) (fs.zip ((List.range' k fs.length).map (d.get m buf))) = .ok x →
      fieldTexts (debugValue six structs raw) (fs.zip ((List.range' k fs.length).map (d.get m buf'))) = .ok x' →
      x ++ r = x' ++ r' →
      ∀ i f, fs[i]? = some f → f.payload = false → d.get m buf (k + i) = d.get m buf' (k + i) := by
  intro fs
  induction fs with
  | nil => intro k x x' r r' _ _ _ _ _ i f hf; simp at hf
  | cons g fs ih =>
    intro k x x' r r' hk hfit h h' he
    have hgk : d.fields[k]? = some g := by
      have := congrArg List.head? hk
      simpa [List.head?_drop] using this
    have hk' : d.fields.drop (k + 1) = fs := by rw [← List.tail_drop, hk]; rfl
    simp only [List.length_cons, List.range'_succ, List.map_cons, List.zip_cons_cons, fieldTexts] at h h'
    have hrec : ∀ y y' s s', fieldTexts (debugValue six structs raw)
          (fs.zip ((List.range' (k + 1) fs.length).map (d.get m buf))) = .ok y →
        fieldTexts (debugValue six structs raw)
          (fs.zip ((List.range' (k + 1) fs.length).map (d.get m buf'))) = .ok y' → y ++ s = y' ++ s' →
        ∀ i f, fs[i]? = some f → f.payload = false → d.get m buf (k + (i + 1)) = d.get m buf' (k + (i + 1)) := by
      intro y y' s s' hy hy' hyy i f hf hpay
      have := ih (k + 1) y y' s s' hk' (fun f hf => hfit f (by simp [hf])) hy hy' hyy i f hf hpay
      rw [show k + (i + 1) = k + 1 + i by omega]
      exact this
    cases hp : g.payload with
    | true =>
      rw [hp, if_pos rfl] at h h'
      intro i f hf hpay
      cases i with
      | zero =>
        simp only [List.getElem?_cons_zero, Option.some.injEq] at hf
        subst hf
        rw [hp] at hpay; cases hpay
      | succ i => exact hrec _ _ _ _ h h' he i f (by simpa using hf) hpay
    | false =>
      rw [hp, if_neg (by decide)] at h h'
      obtain ⟨v, hv, h⟩ := bind_eq_ok.mp h
      obtain ⟨y, hy, h⟩ := bind_eq_ok.mp h
      obtain ⟨v', hv', h'⟩ := bind_eq_ok.mp h'
      obtain ⟨y', hy', h'⟩ := bind_eq_ok.mp h'
      cases h
      cases h'
      obtain ⟨t, ht, hnamed, hfits⟩ := hfit g (by simp)
      have hvt : ∀ b w, d.get m b k = .ok w → ∃ z, valueText six t w = some z := by
        intro b w hw
        rw [Decl.get, hgk] at hw
        exact value_typed six hfits hw
      obtain ⟨z, hz⟩ := hvt buf v hv
      obtain ⟨z', hz'⟩ := hvt buf' v' hv'
      rw [debugValue_some ht hz, debugValue_some ht hz'] at he
      simp only [List.append_assoc, List.append_cancel_left_eq] at he
      have hs : ∀ l : List Char, Stop (", ".toList ++ l) := fun l c hc => by
        have hc : some ',' = some c := hc
        cases hc
        decide
      obtain ⟨h1, h2⟩ := value_readable h6 t hnamed _ _ _ _ _ _ hz hz' (hs _) (hs _) he
      rw [List.append_cancel_left_eq] at h2
      intro i f hf hpay
      cases i with
      | zero => rw [Nat.add_zero, hv, hv', h1]
      | succ i => exact hrec _ _ _ _ hy hy' h2 i f (by simpa using hf) hpay

/-! ## The form of the texts -/

theorem commaJoin_between (ts : List (List Char)) : commaJoin ts = between ", " ts := by
  unfold between
  induction ts with
  | nil => rfl
  | cons t ts ih =>
    cases ts with
    | nil => simp [commaJoin, List.intercalate]
    | cons u us =>
      rw [commaJoin, ih]
      · simp [List.intercalate, List.intersperse]
      · simp

theorem decText_toString (n : Nat) : (toString n).toList = decText n := by
  simp [decText, toString, Nat.repr]

theorem hex2_twoHex {n : Nat} (h : n < 256) : hex2 n = twoHex n := by
  have key : ∀ i : Fin 256, hex2 i.val = twoHex i.val := by decide +kernel
  exact key ⟨n, h⟩

theorem flat_form {six : List Nat → List Char} {t : FlatTy} {v : Val} {x : List Char}
    (h : flatText six t v = some x) : FlatForm six t v x := by
  unfold flatText at h
  split at h
  · cases h; rw [← decText_toString]; exact .int _
  · cases h
    rename_i name n
    have := FlatForm.newtype (six := six) name n
    simpa [decText] using this
  · rename_i a b c d e f
    split at h
    · rename_i hb
      cases h
      have hb : ∀ y ∈ [a, b, c, d, e, f], y < 256 := by simpa using hb
      have := FlatForm.mac (six := six) [a, b, c, d, e, f] rfl hb
      simp only [List.mem_cons, List.not_mem_nil, or_false, forall_eq_or_imp, forall_eq] at hb
      obtain ⟨h1, h2, h3, h4, h5, h6⟩ := hb
      rw [hex2_twoHex h1, hex2_twoHex h2, hex2_twoHex h3, hex2_twoHex h4, hex2_twoHex h5, hex2_twoHex h6]
      simpa [between, List.intercalate, List.intersperse] using this
    · cases h
  · rename_i a b c d
    cases h
    have := FlatForm.ipv4 (six := six) [a, b, c, d] rfl
    simpa [between, List.intercalate, List.intersperse, decText] using this
  · rename_i ns
    split at h
    · rename_i hn
      cases h
      exact .ipv6 ns hn.1 (by simpa using hn.2)
    · cases h
  · rename_i ns
    cases h
    have := FlatForm.ints (six := six) ns
    rw [commaJoin_between, show decText = fun n => Nat.toDigits 10 n from rfl]
    simpa using this
  · cases h

theorem named_form {six : List Nat → List Char} {fs : List (List Char × FlatTy)} {vs : List Val}
    {xs : List (List Char)} (h : namedTexts six fs vs = some xs) : NamedForm six fs vs xs := by
  induction fs generalizing vs xs with
  | nil =>
    cases vs with
    | nil => cases h; exact .nil
    | cons v vs => cases h
  | cons f fs ih =>
    cases vs with
    | nil => cases h
    | cons v vs =>
      obtain ⟨n, t⟩ := f
      simp only [namedTexts, Option.bind_eq_bind, Option.bind_eq_some_iff, Option.some.injEq] at h
      obtain ⟨x, hx, ys, hy, rfl⟩ := h
      rw [← List.append_assoc]
      exact .cons (flat_form hx) (ih hy)

theorem structs_form {six : List Nat → List Char} {name : List Char} {fields : List (List Char × FlatTy)}
    {vs : List Val} {ts : List (List Char)} (h : vs.mapM (structText six name fields) = some ts) :
    StructsForm six name fields vs ts := by
  induction vs generalizing ts with
  | nil => simp at h; subst h; exact .nil
  | cons v vs ih =>
    simp only [List.mapM_cons, Option.bind_eq_bind, Option.bind_eq_some_iff, Option.pure_def,
      Option.some.injEq] at h
    obtain ⟨t, ht, ts', hts, rfl⟩ := h
    cases v with
    | list ws =>
      simp only [structText, Option.bind_eq_bind, Option.bind_eq_some_iff, Option.some.injEq] at ht
      obtain ⟨xs, hx, rfl⟩ := ht
      rw [commaJoin_between, ← List.append_assoc, ← List.append_assoc]
      exact .cons (named_form hx) (ih hts)
    | num n => cases ht
    | nums ns => cases ht

theorem value_form {six : List Nat → List Char} {t : DebugTy} {v : Val} {x : List Char}
    (h : valueText six t v = some x) : ValueForm six t v x := by
  cases t with
  | flat t => exact .flat (flat_form h)
  | structs name fields =>
    cases v with
    | list vs =>
      simp only [valueText, Option.bind_eq_bind, Option.bind_eq_some_iff, Option.some.injEq] at h
      obtain ⟨ts, hts, rfl⟩ := h
      rw [commaJoin_between]
      have := ValueForm.structs (structs_form hts)
      simpa using this
    | num n => cases h
    | nums ns => cases h

end Verif
