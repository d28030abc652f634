import Verif.Model.Ipv6Text
import Verif.Proofs.DebugValue

/-! # Lemmas on the text of IPv6 addresses -/

namespace Verif

/-- The hexadecimal digits. -/
def hexDigits : List Char := "0123456789abcdef".toList

theorem digitChar_hex {n : Nat} (h : n < 16) : n.digitChar ∈ hexDigits := by
  have key : ∀ i : Fin 16, i.val.digitChar ∈ hexDigits := by decide
  exact key ⟨n, h⟩

theorem digitChar_inj {n m : Nat} (hn : n < 16) (hm : m < 16) (h : n.digitChar = m.digitChar) : n = m := by
  have key : ∀ i j : Fin 16, i.val.digitChar = j.val.digitChar → i.val = j.val := by decide
  exact key ⟨n, hn⟩ ⟨m, hm⟩ h

theorem hexText_hex (n : Nat) : ∀ c ∈ hexText n, c ∈ hexDigits := by
  induction n using Nat.strongRecOn with
  | ind n ih =>
    intro c hc
    rw [hexText, Nat.toDigits_eq_if (by decide)] at hc
    split at hc
    · rename_i h
      rw [List.mem_singleton] at hc
      exact hc ▸ digitChar_hex h
    · rcases List.mem_append.mp hc with hc | hc
      · exact ih (n / 16) (by omega) c hc
      · rw [List.mem_singleton] at hc
        exact hc ▸ digitChar_hex (Nat.mod_lt _ (by decide))

theorem hexText_ne_nil (n : Nat) : hexText n ≠ [] := Nat.toDigits_ne_nil

theorem hexText_inj {n m : Nat} (h : hexText n = hexText m) : n = m := by
  induction n using Nat.strongRecOn generalizing m with
  | ind n ih =>
    rw [hexText, hexText, Nat.toDigits_eq_if (by decide), Nat.toDigits_eq_if (n := m) (by decide)] at h
    split at h <;> split at h
    · simp only [List.cons.injEq, and_true] at h
      exact digitChar_inj (by assumption) (by assumption) h
    · have := congrArg List.length h
      have hp := List.length_pos_iff.mpr (Nat.toDigits_ne_nil (n := m / 16) (b := 16))
      simp at this
    · have := congrArg List.length h
      have hp := List.length_pos_iff.mpr (Nat.toDigits_ne_nil (n := n / 16) (b := 16))
      simp at this
    · obtain ⟨h1, h2⟩ := List.append_inj' h rfl
      simp only [List.cons.injEq, and_true] at h2
      have h1 := ih (n / 16) (by omega) h1
      have h2 := digitChar_inj (Nat.mod_lt _ (by decide)) (Nat.mod_lt _ (by decide)) h2
      omega

/-! ## Splitting at colons -/

/-- The pieces between colons. -/
def splitColon : List Char → List (List Char)
  | [] => [[]]
  | c :: cs =>
    if c = ':' then [] :: splitColon cs
    else match splitColon cs with
      | [] => [[c]]
      | p :: ps => (c :: p) :: ps

theorem splitColon_ne_nil (cs : List Char) : splitColon cs ≠ [] := by
  induction cs with
  | nil => simp [splitColon]
  | cons c cs ih =>
    rw [splitColon]
    split
    · simp
    · split <;> simp

theorem splitColon_append (xs ys : List Char) :
    splitColon (xs ++ ':' :: ys) = splitColon xs ++ splitColon ys := by
  induction xs with
  | nil => simp [splitColon]
  | cons c cs ih =>
    rw [List.cons_append, splitColon, ih, splitColon]
    split
    · rfl
    · cases hs : splitColon cs with
      | nil => exact absurd hs (splitColon_ne_nil cs)
      | cons p ps => rfl

theorem splitColon_word {w : List Char} (h : ':' ∉ w) : splitColon w = [w] := by
  induction w with
  | nil => rfl
  | cons c cs ih =>
    simp only [List.mem_cons, not_or] at h
    rw [splitColon, if_neg (fun hc => h.1 hc.symm), ih h.2]

theorem hexText_no {c : Char} (hc : c ∉ hexDigits) (n : Nat) : c ∉ hexText n :=
  fun h => hc (hexText_hex n c h)

theorem splitColon_join {ns : List Nat} (h : ns ≠ []) : splitColon (colonJoin ns) = ns.map hexText := by
  induction ns with
  | nil => exact absurd rfl h
  | cons n ns ih =>
    cases ns with
    | nil => exact splitColon_word (hexText_no (by decide) n)
    | cons m ms =>
      rw [colonJoin, splitColon_append, ih (by simp), splitColon_word (hexText_no (by decide) n)]
      rfl
      simp

/-- The pieces of some segments. -/
def pieces (ns : List Nat) : List (List Char) := if ns = [] then [[]] else ns.map hexText

theorem splitColon_colonJoin (ns : List Nat) : splitColon (colonJoin ns) = pieces ns := by
  unfold pieces
  split
  · rename_i h; subst h; rfl
  · rename_i h; exact splitColon_join h

theorem map_hexText_inj {l l' : List Nat} (h : l.map hexText = l'.map hexText) : l = l' := by
  induction l generalizing l' with
  | nil => cases l' <;> simp_all
  | cons a l ih =>
    cases l' with
    | nil => simp at h
    | cons b l' =>
      simp only [List.map_cons, List.cons.injEq] at h
      rw [hexText_inj h.1, ih h.2]

theorem pieces_inj {l l' : List Nat} (h : pieces l = pieces l') : l = l' := by
  unfold pieces at h
  split at h <;> split at h
  · simp_all
  · rename_i h1 h2
    cases l' with
    | nil => exact absurd rfl h2
    | cons a l' => simp at h; exact absurd h.1 (hexText_ne_nil a)
  · rename_i h1 h2
    cases l with
    | nil => exact absurd rfl h1
    | cons a l => simp at h; exact absurd h.1 (hexText_ne_nil a)
  · exact map_hexText_inj h

theorem nil_notMem_map (l : List Nat) : [] ∉ l.map hexText := by
  simp only [List.mem_map, not_exists, not_and]
  exact fun n _ => hexText_ne_nil n

theorem append_cons_first {α : Type} {A A' B B' : List α} {p : α} (h : A ++ p :: B = A' ++ p :: B')
    (hA : p ∉ A) (hA' : p ∉ A') : A = A' ∧ B = B' := by
  induction A generalizing A' with
  | nil =>
    cases A' with
    | nil => simpa using h
    | cons a A' => simp at h; exact absurd h.1 (fun e => hA' (by simp [e]))
  | cons a A ih =>
    cases A' with
    | nil => simp at h; exact absurd h.1.symm (fun e => hA (by simp [e]))
    | cons a' A' =>
      simp only [List.cons_append, List.cons.injEq] at h
      obtain ⟨h1, h2⟩ := ih h.2 (fun e => hA (List.mem_cons_of_mem _ e)) (fun e => hA' (List.mem_cons_of_mem _ e))
      exact ⟨by rw [h.1, h1], h2⟩

/-- Two texts with `::` in them. -/
theorem compressed_inj {l r l' r' : List Nat}
    (h : colonJoin l ++ ':' :: ':' :: colonJoin r = colonJoin l' ++ ':' :: ':' :: colonJoin r') :
    l = l' ∧ r = r' := by
  have h := congrArg splitColon h
  rw [splitColon_append, splitColon_append,
    show (':' :: colonJoin r) = [] ++ ':' :: colonJoin r from rfl,
    show (':' :: colonJoin r') = [] ++ ':' :: colonJoin r' from rfl,
    splitColon_append, splitColon_append] at h
  simp only [splitColon_colonJoin, splitColon, List.singleton_append] at h
  by_cases hl : l = [] <;> by_cases hl' : l' = []
  · subst hl hl'
    simp only [pieces, if_true, List.singleton_append, List.cons.injEq, true_and] at h
    exact ⟨rfl, pieces_inj (by simpa [pieces] using h)⟩
  · cases l' with
    | nil => exact absurd rfl hl'
    | cons a l' => subst hl; simp [pieces] at h; exact absurd h.1 (hexText_ne_nil a)
  · cases l with
    | nil => exact absurd rfl hl
    | cons a l => subst hl'; simp [pieces] at h; exact absurd h.1 (hexText_ne_nil a)
  · have e1 : pieces l = l.map hexText := if_neg hl
    have e2 : pieces l' = l'.map hexText := if_neg hl'
    rw [e1, e2] at h
    obtain ⟨h1, h2⟩ := append_cons_first h (nil_notMem_map l) (nil_notMem_map l')
    exact ⟨map_hexText_inj h1, pieces_inj h2⟩

/-- A text with `::` is not one without. -/
theorem compressed_ne {l r ns : List Nat} (hn : ns ≠ []) :
    colonJoin l ++ ':' :: ':' :: colonJoin r ≠ colonJoin ns := by
  intro h
  have h := congrArg splitColon h
  rw [splitColon_append, show (':' :: colonJoin r) = [] ++ ':' :: colonJoin r from rfl, splitColon_append,
    splitColon_join hn] at h
  have : [] ∈ ns.map hexText := by rw [← h]; simp [splitColon]
  exact nil_notMem_map ns this

/-! ## The run of zeros -/

/-- The segments of the run are zeros. -/
def RunOk (ns : List Nat) (s : ZeroSpan) : Prop :=
  s.start + s.len ≤ ns.length ∧ ∀ i, s.start ≤ i → i < s.start + s.len → ns[i]? = some 0

theorem zeroRunFrom_ok (ns : List Nat) : ∀ (done : List Nat) (cur longest : ZeroSpan),
    RunOk (done ++ ns) longest → (cur.len ≠ 0 → cur.start + cur.len = done.length) →
    (cur.len ≠ 0 → RunOk (done ++ ns) cur) →
    RunOk (done ++ ns) (zeroRunFrom done.length cur longest ns) := by
  induction ns with
  | nil => intro done cur longest h _ _; exact h
  | cons n ns ih =>
    intro done cur longest h hc hr
    rw [zeroRunFrom]
    have e : done ++ n :: ns = (done ++ [n]) ++ ns := by simp
    have el : done.length + 1 = (done ++ [n]).length := by simp
    split
    · rename_i hn
      subst hn
      rw [el, e]
      have hcur : RunOk (done ++ 0 :: ns) ⟨if cur.len = 0 then done.length else cur.start, cur.len + 1⟩ := by
        by_cases h0 : cur.len = 0
        · simp only [h0, if_true]
          refine ⟨by simp, fun i h1 h2 => ?_⟩
          have : i = done.length := by simp at h1 h2; omega
          subst this
          simp
        · simp only [h0, if_false]
          have := hc h0
          have hr := (hr h0).2
          refine ⟨by simp; omega, fun i h1 h2 => ?_⟩
          simp only at h1 h2
          by_cases hi : i = done.length
          · subst hi; simp
          · exact hr i h1 (by omega)
      apply ih
      · rw [← e]
        by_cases hgt : cur.len + 1 > longest.len
        · rw [if_pos hgt]; exact hcur
        · rw [if_neg hgt]; exact h
      · intro _
        by_cases h0 : cur.len = 0
        · simp [h0]
        · simp only [h0, if_false, List.length_append, List.length_cons, List.length_nil]
          have := hc h0
          omega
      · intro _
        rw [← e]
        exact hcur
    · rw [el, e]
      apply ih
      · rw [← e]; exact h
      · intro h; exact absurd rfl h
      · intro h; exact absurd rfl h

theorem zeroRun_ok (ns : List Nat) : RunOk ns (zeroRun ns) :=
  zeroRunFrom_ok ns [] ⟨0, 0⟩ ⟨0, 0⟩ ⟨by simp, fun i h1 h2 => by simp at h2⟩ (fun h => absurd rfl h)
    (fun h => absurd rfl h)

theorem run_split {ns : List Nat} {s : ZeroSpan} (h : RunOk ns s) :
    ns = ns.take s.start ++ (List.replicate s.len 0 ++ ns.drop (s.start + s.len)) := by
  have hmid : (ns.drop s.start).take s.len = List.replicate s.len 0 := by
    apply List.ext_getElem
    · simp; have := h.1; omega
    · intro i h1 h2
      have := h.2 (s.start + i) (by omega) (by simp at h2; omega)
      simp only [List.getElem_take, List.getElem_drop, List.getElem_replicate]
      rw [List.getElem?_eq_some_iff] at this
      exact this.2
  rw [← hmid, ← List.drop_drop, List.take_append_drop, List.take_append_drop]

/-! ## The texts -/

theorem colonJoin_chars (ns : List Nat) : ∀ c ∈ colonJoin ns, c ∈ ':' :: hexDigits := by
  induction ns with
  | nil => intro c h; simp [colonJoin] at h
  | cons n ns ih =>
    intro c h
    cases ns with
    | nil => exact List.mem_cons_of_mem _ (hexText_hex n c h)
    | cons m ms =>
      rw [colonJoin] at h
      · rcases List.mem_append.mp h with h | h
        · exact List.mem_cons_of_mem _ (hexText_hex n c h)
        · rcases List.mem_cons.mp h with h | h
          · exact h ▸ List.mem_cons_self
          · exact ih c h
      · simp

/-- The text of an address that is not an IPv4-mapped one. -/
def sixHex (ns : List Nat) : List Char :=
  if (zeroRun ns).len > 1 then
    colonJoin (ns.take (zeroRun ns).start) ++
      (':' :: ':' :: colonJoin (ns.drop ((zeroRun ns).start + (zeroRun ns).len)))
  else colonJoin ns

/-- The text of an IPv4-mapped address. -/
def sixMapped (g h : Nat) : List Char :=
  "::ffff:".toList ++ (decText (g / 256) ++ ('.' :: (decText (g % 256) ++ ('.' ::
      (decText (h / 256) ++ ('.' :: decText (h % 256)))))))

theorem sixStd_cases (ns : List Nat) :
    (∃ g h, ns = [0, 0, 0, 0, 0, 0xffff, g, h] ∧ sixStd ns = sixMapped g h) ∨ sixStd ns = sixHex ns := by
  unfold sixStd
  split
  · exact Or.inl ⟨_, _, rfl, rfl⟩
  · exact Or.inr rfl

theorem sixHex_chars (ns : List Nat) : ∀ c ∈ sixHex ns, c ∈ ':' :: hexDigits := by
  intro c h
  unfold sixHex at h
  split at h
  · simp only [List.mem_append, List.mem_cons (a := c) (b := ':')] at h
    rcases h with h | h | h | h
    · exact colonJoin_chars _ c h
    · exact h ▸ List.mem_cons_self
    · exact h ▸ List.mem_cons_self
    · exact colonJoin_chars _ c h
  · exact colonJoin_chars _ c h

theorem sixHex_inj {ns ns' : List Nat} (hl : ns.length = 8) (hl' : ns'.length = 8)
    (h : sixHex ns = sixHex ns') : ns = ns' := by
  have hn : ns ≠ [] := by intro e; subst e; simp at hl
  have hn' : ns' ≠ [] := by intro e; subst e; simp at hl'
  have hr := zeroRun_ok ns
  have hr' := zeroRun_ok ns'
  unfold sixHex at h
  generalize zeroRun ns = s at h hr
  generalize zeroRun ns' = s' at h hr'
  split at h <;> split at h
  · obtain ⟨h1, h2⟩ := compressed_inj h
    have e1 := congrArg List.length h1
    have e2 := congrArg List.length h2
    simp only [List.length_take, List.length_drop] at e1 e2
    have := hr.1
    have := hr'.1
    have es : s.len = s'.len := by omega
    rw [run_split hr, run_split hr', h1, h2, es]
  · exact absurd h (compressed_ne hn')
  · exact absurd h.symm (compressed_ne hn)
  · have h := congrArg splitColon h
    rw [splitColon_join hn, splitColon_join hn'] at h
    exact map_hexText_inj h

theorem sixMapped_inj {g h g' h' : Nat} (e : sixMapped g h = sixMapped g' h') : g = g' ∧ h = h' := by
  unfold sixMapped at e
  have e := (List.append_right_inj _).mp e
  obtain ⟨h1, e⟩ := decText_char (by decide) e
  obtain ⟨h2, e⟩ := decText_char (by decide) e
  obtain ⟨h3, e⟩ := decText_char (by decide) e
  have h4 := decText_inj e
  omega

theorem sixMapped_ne {g h : Nat} {ns : List Nat} : sixMapped g h ≠ sixHex ns := by
  intro e
  have h1 : '.' ∈ sixMapped g h :=
    List.mem_append_right _ (List.mem_append_right _ List.mem_cons_self)
  rw [e] at h1
  exact absurd (sixHex_chars ns _ h1) (by decide)

theorem decText_chars (n : Nat) : ∀ c ∈ decText n, c ∉ stops := by
  intro c hc hs
  have key : ∀ c ∈ stops, ¬ c.isDigit = true := by decide
  exact key c hs (decText_digit n c hc)

theorem chars_dot {w r : List Char} (hw : ∀ c ∈ w, c ∉ stops) (hr : ∀ c ∈ r, c ∉ stops) :
    ∀ c ∈ w ++ '.' :: r, c ∉ stops := by
  intro c hc
  rcases List.mem_append.mp hc with hc | hc
  · exact hw c hc
  · rcases List.mem_cons.mp hc with hc | hc
    · subst hc; decide
    · exact hr c hc

theorem sixMapped_chars {g h : Nat} {c : Char} (hc : c ∈ sixMapped g h) : c ∉ stops := by
  rcases List.mem_append.mp hc with hc | hc
  · have key : ∀ c ∈ "::ffff:".toList, c ∉ stops := by decide
    exact key c hc
  · exact chars_dot (decText_chars _) (chars_dot (decText_chars _) (chars_dot (decText_chars _)
      (decText_chars _))) c hc

theorem sixStd_text : SixText sixStd where
  inj := by
    intro ns ns' hl hl' _ _ h
    rcases sixStd_cases ns with ⟨g, k, rfl, e⟩ | e <;> rcases sixStd_cases ns' with ⟨g', k', rfl, e'⟩ | e'
    · rw [e, e'] at h
      obtain ⟨rfl, rfl⟩ := sixMapped_inj h
      rfl
    · rw [e, e'] at h; exact absurd h sixMapped_ne
    · rw [e, e'] at h; exact absurd h.symm sixMapped_ne
    · rw [e, e'] at h; exact sixHex_inj hl hl' h
  chars := by
    intro ns _ c hc
    rcases sixStd_cases ns with ⟨g, k, rfl, e⟩ | e
    · rw [e] at hc
      exact sixMapped_chars hc
    · rw [e] at hc
      have key : ∀ c ∈ ':' :: hexDigits, c ∉ stops := by decide
      exact key c (sixHex_chars ns c hc)

end Verif
