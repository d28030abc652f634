import Verif.Model.CodeText

/-! # Reading the generated accessor texts back -/

namespace Verif.CodeText

open Verif.LengthText (Tok pushWord isWord digit)

/-! ## Numbers -/

theorem decimal_read : ∀ n < 256, decimalOf (decimal n) = some n ∧
    (decimal n).all (fun c => c.isDigit) = true ∧ (decimal n ≠ []) := by decide +kernel

theorem hexDigit_facts : ∀ d < 16, isHex ("0123456789abcdef".toList[d]?.getD '?') = true ∧
    digit ("0123456789abcdef".toList[d]?.getD '?') = d ∧
    isWord ("0123456789abcdef".toList[d]?.getD '?') = true ∧
    ("0123456789abcdef".toList[d]?.getD '?') ≠ '{' := by decide +kernel

/-- Hexadecimal digits. -/
def HexText (cs : List Char) : Prop := ∀ c ∈ cs, isHex c = true ∧ isWord c = true ∧ c ≠ '{'

theorem radix16From_hex : ∀ n val ret, HexText ret → HexText (radix16From n val ret)
  | 0, _, _, h => h
  | n + 1, val, ret, h => by
    rw [radix16From]
    split
    · apply radix16From_hex
      intro c hc
      rcases List.mem_cons.mp hc with rfl | hc
      · have := hexDigit_facts (val % 16) (by omega)
        exact ⟨this.1, this.2.2.1, this.2.2.2⟩
      · exact h c hc
    · exact h

theorem radix16From_value : ∀ n val ret, val < 16 ^ n →
    (radix16From n val ret).foldl (fun n c => 16 * n + digit c) 0 =
      ret.foldl (fun n c => 16 * n + digit c) val
  | 0, val, ret, h => by
    have : val = 0 := by simpa using h
    subst this; rfl
  | n + 1, val, ret, h => by
    rw [radix16From]
    split
    · rw [radix16From_value n _ _ (by rw [Nat.pow_succ] at h; omega), List.foldl_cons,
        (hexDigit_facts (val % 16) (by omega)).2.1]
      congr 1; omega
    · have : val = 0 := by omega
      subst this; rfl

theorem radix16From_length : ∀ n val ret, ret.length ≤ (radix16From n val ret).length
  | 0, _, _ => Nat.le_refl _
  | n + 1, val, ret => by
    rw [radix16From]
    split
    · exact Nat.le_trans (by simp) (radix16From_length n _ _)
    · exact Nat.le_refl _

theorem radix16_ne_nil (val : Nat) (h : 0 < val) : radix16 val ≠ [] := by
  intro hn
  have := radix16From_length 15 (val / 16) ["0123456789abcdef".toList[val % 16]?.getD '?']
  rw [radix16, radix16From, if_pos h] at hn
  rw [hn] at this
  simp at this

theorem literal_radix16 (val : Nat) (h0 : 0 < val) (h : val < 2 ^ 64) :
    literalOf ('0' :: 'x' :: radix16 val) = some val := by
  have hx : HexText (radix16 val) := radix16From_hex _ _ _ (fun _ h => by cases h)
  have h1 : ¬ (radix16 val = [] ∨ (radix16 val).any (fun c => !isHex c) = true) := by
    intro hc
    rcases hc with hc | hc
    · exact radix16_ne_nil val h0 hc
    · obtain ⟨c, hc, hn⟩ := List.any_eq_true.mp hc
      simp [(hx c hc).1] at hn
  simp only [literalOf]
  rw [if_neg h1, radix16, radix16From_value _ _ _ (by simpa using h)]
  rfl

/-! ## Replacing -/

theorem strReplaceFrom_skip (p : Char) (pat rep : List Char) : ∀ s t, p ∉ s →
    strReplaceFrom (p :: pat) rep 0 (s ++ t) = s ++ strReplaceFrom (p :: pat) rep 0 t
  | [], _, _ => rfl
  | c :: s, t, h => by
    have hc : (p == c) = false := by
      have : p ≠ c := fun e => h (e ▸ List.mem_cons_self ..)
      simpa using this
    rw [List.cons_append, strReplaceFrom, List.isPrefixOf, hc, Bool.false_and, if_neg (by decide),
      strReplaceFrom_skip p pat rep s t (fun hm => h (List.mem_cons_of_mem _ hm))]
    rfl

theorem strReplaceFrom_none (p : Char) (pat rep : List Char) (s : List Char) (h : p ∉ s) :
    strReplaceFrom (p :: pat) rep 0 s = s := by
  have := strReplaceFrom_skip p pat rep s [] h
  simpa [strReplaceFrom] using this

/-! ## Scanning -/

/-- A word: not empty, and nothing but word characters. -/
def Wd (cs : List Char) : Prop := cs ≠ [] ∧ ∀ c ∈ cs, isWord c = true

/-- What may follow a word. -/
def Ends : List Char → Prop
  | [] => True
  | c :: _ => isWord c = false

theorem scan_word : ∀ (cs b : List Char), Wd cs → Ends b → scan (cs ++ b) = .word cs :: scan b
  | [], _, h, _ => absurd rfl h.1
  | [c], b, h, hb => by
    have hc : isWord c = true := h.2 c (List.mem_cons_self ..)
    cases b with
    | nil => simp [scan, hc]
    | cons d b =>
      have hd : isWord d = false := hb
      rw [List.cons_append, List.nil_append, scan.eq_def]
      simp only [hc, if_true, hd]
      simp
  | c :: d :: cs, b, h, hb => by
    have hc : isWord c = true := h.2 c (List.mem_cons_self ..)
    have hd : isWord d = true := h.2 d (List.mem_cons_of_mem _ (List.mem_cons_self ..))
    have ih := scan_word (d :: cs) b ⟨by simp, fun x hx => h.2 x (List.mem_cons_of_mem _ hx)⟩ hb
    rw [List.cons_append, List.cons_append, scan.eq_def]
    simp only [hc, if_true, hd]
    rw [← List.cons_append, ih, pushWord]

theorem scan_space (b : List Char) : scan (' ' :: b) = scan b := by rw [scan.eq_def]; rfl
theorem scan_newline (b : List Char) : scan ('\n' :: b) = scan b := by rw [scan.eq_def]; rfl
theorem scan_oparen (b : List Char) : scan ('(' :: b) = .opening .paren :: scan b := by
  rw [scan.eq_def]; rfl
theorem scan_cparen (b : List Char) : scan (')' :: b) = .closing .paren :: scan b := by
  rw [scan.eq_def]; rfl
theorem scan_obracket (b : List Char) : scan ('[' :: b) = .opening .bracket :: scan b := by
  rw [scan.eq_def]; rfl
theorem scan_cbracket (b : List Char) : scan (']' :: b) = .closing .bracket :: scan b := by
  rw [scan.eq_def]; rfl
theorem scan_obrace (b : List Char) : scan ('{' :: b) = .opening .brace :: scan b := by
  rw [scan.eq_def]; rfl
theorem scan_cbrace (b : List Char) : scan ('}' :: b) = .closing .brace :: scan b := by
  rw [scan.eq_def]; rfl
theorem scan_amp (b : List Char) : scan ('&' :: b) = .punct '&' :: scan b := by
  rw [scan.eq_def]; rfl
theorem scan_bar (b : List Char) : scan ('|' :: b) = .punct '|' :: scan b := by
  rw [scan.eq_def]; rfl
theorem scan_lt (b : List Char) : scan ('<' :: b) = .punct '<' :: scan b := by
  rw [scan.eq_def]; rfl
theorem scan_gt (b : List Char) : scan ('>' :: b) = .punct '>' :: scan b := by
  rw [scan.eq_def]; rfl
theorem scan_plus (b : List Char) : scan ('+' :: b) = .punct '+' :: scan b := by
  rw [scan.eq_def]; rfl
theorem scan_eq (b : List Char) : scan ('=' :: b) = .punct '=' :: scan b := by
  rw [scan.eq_def]; rfl
theorem scan_semi (b : List Char) : scan (';' :: b) = .punct ';' :: scan b := by
  rw [scan.eq_def]; rfl
theorem scan_dot (b : List Char) : scan ('.' :: b) = .punct '.' :: scan b := by
  rw [scan.eq_def]; rfl

theorem wd_decimal {n : Nat} (h : n < 256) : Wd (decimal n) :=
  ⟨(decimal_read n h).2.2, fun c hc => by
    have := List.all_eq_true.mp (decimal_read n h).2.1 c hc
    simp [isWord, Char.isAlphanum, this]⟩

theorem wd_local {n : Nat} (h : n < 256) : Wd ('b' :: decimal n) :=
  ⟨by simp, fun c hc => by
    rcases List.mem_cons.mp hc with rfl | hc
    · decide
    · exact (wd_decimal h).2 c hc⟩

theorem wd_hex (v : Nat) : Wd ('0' :: 'x' :: radix16 v) :=
  ⟨by simp, fun c hc => by
    rcases List.mem_cons.mp hc with rfl | hc
    · decide
    rcases List.mem_cons.mp hc with rfl | hc
    · decide
    · exact (radix16From_hex 16 v [] (fun _ h => by cases h) c hc).2.1⟩

/-! ## The texts after replacing -/

theorem not_mem_decimal {n : Nat} (h : n < 256) : '{' ∉ decimal n := fun hm => by
  have := List.all_eq_true.mp (decimal_read n h).2.1 _ hm
  revert this; decide

theorem not_mem_radix (v : Nat) : '{' ∉ radix16 v := fun hm =>
  (radix16From_hex 16 v [] (fun _ h => by cases h) _ hm).2.2 rfl

/-- The shifts can be printed with the digits checked above. -/
def SmallShift (l r : Nat) : Prop := l - r < 256 ∧ r - l < 256

/-- ` << n`, ` >> n` or nothing. -/
def shiftSuffix (l r : Nat) : List Char :=
  if r = l then [] else if r < l then " << ".toList ++ decimal (l - r)
  else " >> ".toList ++ decimal (r - l)

theorem shiftText_eq (a : List Char) (l r : Nat) : shiftText a l r = a ++ shiftSuffix l r := by
  unfold shiftText shiftSuffix
  split
  · simp
  · split <;> simp

theorem not_mem_shift {l r : Nat} (h : SmallShift l r) : '{' ∉ shiftSuffix l r := by
  unfold shiftSuffix
  split
  · simp
  · split
    · intro hm
      rcases List.mem_append.mp hm with hm | hm
      · revert hm; decide
      · exact not_mem_decimal h.1 hm
    · intro hm
      rcases List.mem_append.mp hm with hm | hm
      · revert hm; decide
      · exact not_mem_decimal h.2 hm

theorem replace_get (rep : List Char) (op : GetOperation) (h : SmallShift op.shiftl op.shiftr) :
    strReplace "{}".toList rep (getText op) =
      (if op.mask ≠ 0xFF then '(' :: (rep ++ " & 0x".toList ++ radix16 op.mask ++ ")".toList) else rep) ++
        shiftSuffix op.shiftl op.shiftr := by
  have hs := not_mem_shift h
  rw [getText, shiftText_eq]
  have e1 : ∀ t, strReplaceFrom ['{', '}'] rep 0 ('{' :: '}' :: t) =
      rep ++ strReplaceFrom ['{', '}'] rep 0 t := fun t => rfl
  have e0 : ∀ t, strReplaceFrom ['{', '}'] rep 0 ('(' :: t) =
      '(' :: strReplaceFrom ['{', '}'] rep 0 t := fun t => rfl
  unfold strReplace
  show strReplaceFrom ['{', '}'] rep 0 _ = _
  by_cases hm : op.mask ≠ 0xFF
  · rw [if_pos hm, if_pos hm]
    have : "({} & 0x".toList ++ radix16 op.mask ++ ")".toList ++ shiftSuffix op.shiftl op.shiftr =
        '(' :: '{' :: '}' :: (" & 0x".toList ++ radix16 op.mask ++ ")".toList ++
          shiftSuffix op.shiftl op.shiftr) := by simp
    rw [this, e0, e1, strReplaceFrom_none]
    · simp
    · simp only [List.mem_append, not_or]
      exact ⟨⟨⟨by decide, not_mem_radix _⟩, by decide⟩, hs⟩
  · rw [if_neg hm, if_neg hm]
    have : "{}".toList ++ shiftSuffix op.shiftl op.shiftr =
        '{' :: '}' :: shiftSuffix op.shiftl op.shiftr := by simp
    rw [this, e1, strReplaceFrom_none _ _ _ _ hs]

/-- The part of a setter statement made from the value. -/
def valueText (op : SetOperation) : List Char :=
  (if op.valueMask ≠ 0xFF then "(val & 0x".toList ++ radix16 op.valueMask ++ ")".toList
    else "val".toList) ++ shiftSuffix op.shiftl op.shiftr

theorem replace_set (rep : List Char) (hr : '{' ∉ rep) (op : SetOperation)
    (h : SmallShift op.shiftl op.shiftr) :
    strReplace "{val}".toList "val".toList (strReplace "{packet}".toList rep (setText op)) =
      if op.saveMask ≠ 0 then rep ++ " = ((".toList ++ rep ++ " & 0x".toList ++ radix16 op.saveMask ++
        ") | (".toList ++ valueText op ++ ") as u8) as u8".toList
      else rep ++ " = (".toList ++ valueText op ++ ") as u8".toList := by
  have hs := not_mem_shift h
  have hx := not_mem_radix op.saveMask
  have hy := not_mem_radix op.valueMask
  have e1 : ∀ t, strReplaceFrom "{packet}".toList rep 0 ("{packet}".toList ++ t) =
      rep ++ strReplaceFrom "{packet}".toList rep 0 t := fun t => rfl
  have e2 : ∀ t, strReplaceFrom "{packet}".toList rep 0 ("{val}".toList ++ t) =
      "{val}".toList ++ strReplaceFrom "{packet}".toList rep 0 t := fun t => rfl
  have e3 : ∀ t, strReplaceFrom "{val}".toList "val".toList 0 ("{val}".toList ++ t) =
      "val".toList ++ strReplaceFrom "{val}".toList "val".toList 0 t := fun t => rfl
  have k1 : ∀ s t, '{' ∉ s → strReplaceFrom "{packet}".toList rep 0 (s ++ t) =
      s ++ strReplaceFrom "{packet}".toList rep 0 t := fun s t => strReplaceFrom_skip '{' _ rep s t
  have k2 : ∀ s t, '{' ∉ s → strReplaceFrom "{val}".toList "val".toList 0 (s ++ t) =
      s ++ strReplaceFrom "{val}".toList "val".toList 0 t := fun s t => strReplaceFrom_skip '{' _ _ s t
  have n1 : ∀ s, '{' ∉ s → strReplaceFrom "{packet}".toList rep 0 s = s := fun s =>
    strReplaceFrom_none '{' _ rep s
  have n2 : ∀ s, '{' ∉ s → strReplaceFrom "{val}".toList "val".toList 0 s = s := fun s =>
    strReplaceFrom_none '{' _ _ s
  -- the value part
  have hv : ∃ p q : List Char, '{' ∉ p ∧ '{' ∉ q ∧
      shiftText (if op.valueMask ≠ 0xFF then "({val} & 0x".toList ++ radix16 op.valueMask ++ ")".toList
        else "{val}".toList) op.shiftl op.shiftr = p ++ ("{val}".toList ++ q) ∧
      valueText op = p ++ ("val".toList ++ q) := by
    unfold valueText
    rw [shiftText_eq]
    by_cases hm : op.valueMask ≠ 0xFF
    · refine ⟨['('], " & 0x".toList ++ radix16 op.valueMask ++ ")".toList ++
        shiftSuffix op.shiftl op.shiftr, by decide, ?_, ?_, ?_⟩
      · simp only [List.mem_append, not_or]
        exact ⟨⟨⟨by decide, hy⟩, by decide⟩, hs⟩
      · rw [if_pos hm]; simp
      · rw [if_pos hm]; simp
    · refine ⟨[], shiftSuffix op.shiftl op.shiftr, by simp, hs, ?_, ?_⟩
      · rw [if_neg hm]; rfl
      · rw [if_neg hm]; rfl
  obtain ⟨p, q, hp, hq, hv1, hv2⟩ := hv
  unfold strReplace setText
  dsimp only
  rw [hv1, hv2]
  by_cases hsv : op.saveMask ≠ 0
  · rw [if_pos hsv, if_pos hsv]
    have t1 : "{packet} = (".toList ++ ("({packet} & 0x".toList ++ radix16 op.saveMask ++ ")".toList) ++
        " | (".toList ++ (p ++ ("{val}".toList ++ q)) ++ ") as u8) as u8".toList =
        "{packet}".toList ++ (" = ((".toList ++ ("{packet}".toList ++ (" & 0x".toList ++
          (radix16 op.saveMask ++ (") | (".toList ++ (p ++ ("{val}".toList ++
            (q ++ ") as u8) as u8".toList)))))))) := by simp
    rw [t1, e1, k1 _ _ (by decide), e1, k1 _ _ (by decide), k1 _ _ hx, k1 _ _ (by decide), k1 _ _ hp,
      e2, n1 (q ++ ") as u8) as u8".toList) (by
        simp only [List.mem_append, not_or]; exact ⟨hq, by decide⟩),
      k2 _ _ hr, k2 _ _ (by decide), k2 _ _ hr, k2 _ _ (by decide), k2 _ _ hx, k2 _ _ (by decide),
      k2 _ _ hp, e3, n2 (q ++ ") as u8) as u8".toList) (by
        simp only [List.mem_append, not_or]; exact ⟨hq, by decide⟩)]
    simp
  · rw [if_neg hsv, if_neg hsv]
    have t1 : "{packet} = (".toList ++ (p ++ ("{val}".toList ++ q)) ++ ") as u8".toList =
        "{packet}".toList ++ (" = (".toList ++ (p ++ ("{val}".toList ++
            (q ++ ") as u8".toList)))) := by simp
    rw [t1, e1, k1 _ _ (by decide), k1 _ _ hp,
      e2, n1 (q ++ ") as u8".toList) (by
        simp only [List.mem_append, not_or]; exact ⟨hq, by decide⟩),
      k2 _ _ hr, k2 _ _ (by decide), k2 _ _ hp, e3, n2 (q ++ ") as u8".toList) (by
        simp only [List.mem_append, not_or]; exact ⟨hq, by decide⟩)]
    simp

/-! ## The tokens of the texts -/

/-- The tokens of a name of the buffer. -/
structure NameOk (name : List Char) (P : List Tok) : Prop where
  scan : ∀ b, scan (name ++ '[' :: b) = P ++ .opening .bracket :: CodeText.scan b
  path : ∀ ts, packetPath (P ++ ts) = some ts
  plain : '{' ∉ name
  /-- it starts with a word other than `let` -/
  first : ∃ w P', P = .word w :: P' ∧ w ≠ ['l', 'e', 't']

theorem ends_cons {c : Char} {b : List Char} (h : isWord c = false) : Ends (c :: b) := h

theorem nameOk_packet : NameOk "packet".toList [.word "packet".toList] :=
  ⟨fun b => by
    rw [scan_word _ _ ⟨by decide, by decide⟩ (ends_cons (by decide)), scan_obracket]; rfl,
    fun _ => rfl, by decide, ⟨_, _, rfl, by decide⟩⟩

theorem nameOk_self : NameOk "self.packet".toList
    [.word "self".toList, .punct '.', .word "packet".toList] :=
  ⟨fun b => by
    have : "self.packet".toList ++ '[' :: b = "self".toList ++ '.' :: ("packet".toList ++ '[' :: b) := by
      simp
    rw [this, scan_word _ _ ⟨by decide, by decide⟩ (ends_cons (by decide)), scan_dot,
      scan_word _ _ ⟨by decide, by decide⟩ (ends_cons (by decide)), scan_obracket]; rfl,
    fun _ => rfl, by decide, ⟨_, _, rfl, by decide⟩⟩

theorem nameOk_underscore : NameOk "_self.packet".toList
    [.word "_self".toList, .punct '.', .word "packet".toList] :=
  ⟨fun b => by
    have : "_self.packet".toList ++ '[' :: b = "_self".toList ++ '.' :: ("packet".toList ++ '[' :: b) := by
      simp
    rw [this, scan_word _ _ ⟨by decide, by decide⟩ (ends_cons (by decide)), scan_dot,
      scan_word _ _ ⟨by decide, by decide⟩ (ends_cons (by decide)), scan_obracket]; rfl,
    fun _ => rfl, by decide, ⟨_, _, rfl, by decide⟩⟩

/-- The tokens of a shift. -/
def shiftToks (l r : Nat) : List Tok :=
  if r = l then [] else if r < l then [.punct '<', .punct '<', .word (decimal (l - r))]
  else [.punct '>', .punct '>', .word (decimal (r - l))]

theorem scan_shift {l r : Nat} (h : SmallShift l r) (b : List Char) (hb : Ends b) :
    scan (shiftSuffix l r ++ b) = shiftToks l r ++ scan b := by
  unfold shiftSuffix shiftToks
  split
  · rfl
  · split
    · have : " << ".toList ++ decimal (l - r) ++ b = ' ' :: '<' :: '<' :: ' ' :: (decimal (l - r) ++ b) := by
        simp
      rw [this, scan_space, scan_lt, scan_lt, scan_space, scan_word _ _ (wd_decimal h.1) hb]; rfl
    · have : " >> ".toList ++ decimal (r - l) ++ b = ' ' :: '>' :: '>' :: ' ' :: (decimal (r - l) ++ b) := by
        simp
      rw [this, scan_space, scan_gt, scan_gt, scan_space, scan_word _ _ (wd_decimal h.2) hb]; rfl

/-- What may follow a text and its shift. -/
theorem ends_shift {l r : Nat} {b : List Char} (hb : Ends b) : Ends (shiftSuffix l r ++ b) := by
  unfold shiftSuffix
  split
  · exact hb
  · split <;> exact ends_cons (c := ' ') (by decide)

/-- The tokens of an index: `[co]` or `[co + idx]`. -/
def indexToks : Option Nat → List Tok
  | none => [.opening .bracket, .word ['c', 'o'], .closing .bracket]
  | some idx => [.opening .bracket, .word ['c', 'o'], .punct '+', .word (decimal idx), .closing .bracket]

/-- `[co]` or `[co + idx]`. -/
def indexText : Option Nat → List Char
  | none => "[co]".toList
  | some idx => "[co + ".toList ++ decimal idx ++ "]".toList

theorem scan_index {name : List Char} {P : List Tok} (hn : NameOk name P) (i : Option Nat)
    (hi : ∀ k ∈ i, k < 256) (b : List Char) :
    scan (name ++ (indexText i ++ b)) = P ++ (indexToks i ++ scan b) := by
  cases i with
  | none =>
    have : indexText none ++ b = '[' :: ("co".toList ++ ']' :: b) := by simp [indexText]
    rw [this, hn.scan, scan_word _ _ ⟨by decide, by decide⟩ (ends_cons (by decide)), scan_cbracket]; rfl
  | some k =>
    have : indexText (some k) ++ b = '[' :: ("co".toList ++ (' ' :: '+' :: ' ' :: (decimal k ++ ']' :: b))) := by
      simp [indexText]
    rw [this, hn.scan, scan_word _ _ ⟨by decide, by decide⟩ (ends_cons (by decide)), scan_space, scan_plus,
      scan_space, scan_word _ _ (wd_decimal (hi k rfl)) (ends_cons (by decide)), scan_cbracket]; rfl

/-- The tokens of `(<name>[..] as <ty>)`. -/
def castToks (P : List Tok) (ty : List Char) (i : Option Nat) : List Tok :=
  .opening .paren :: (P ++ (indexToks i ++ [.word ['a', 's'], .word ty, .closing .paren]))

theorem scan_cast {name : List Char} {P : List Tok} (hn : NameOk name P) {ty : List Char} (ht : Wd ty)
    (i : Option Nat) (hi : ∀ k ∈ i, k < 256) (b : List Char) :
    scan ('(' :: (name ++ (indexText i ++ (" as ".toList ++ (ty ++ ')' :: b))))) =
      castToks P ty i ++ scan b := by
  have : " as ".toList ++ (ty ++ ')' :: b) = ' ' :: ("as".toList ++ (' ' :: (ty ++ ')' :: b))) := by simp
  rw [this, scan_oparen, scan_index hn i hi, scan_space,
    scan_word _ _ ⟨by decide, by decide⟩ (ends_cons (by decide)), scan_space,
    scan_word _ _ ht (ends_cons (by decide)), scan_cparen]
  simp [castToks]

/-- The tokens of one reading operation. -/
def getToks (P : List Tok) (ty : List Char) (op : GetOperation) (i : Option Nat) : List Tok :=
  (if op.mask ≠ 0xFF then .opening .paren :: (castToks P ty i ++
    [.punct '&', .word ('0' :: 'x' :: radix16 op.mask), .closing .paren])
  else castToks P ty i) ++ shiftToks op.shiftl op.shiftr

theorem scan_get {name : List Char} {P : List Tok} (hn : NameOk name P) {ty : List Char} (ht : Wd ty)
    (i : Option Nat) (hi : ∀ k ∈ i, k < 256) (op : GetOperation) (h : SmallShift op.shiftl op.shiftr)
    (b : List Char) (hb : Ends b) :
    scan (strReplace "{}".toList ("(".toList ++ name ++ indexText i ++ " as ".toList ++ ty ++ ")".toList)
      (getText op) ++ b) = getToks P ty op i ++ scan b := by
  rw [replace_get _ _ h]
  unfold getToks
  split
  · have : '(' :: ("(".toList ++ name ++ indexText i ++ " as ".toList ++ ty ++ ")".toList ++
        " & 0x".toList ++ radix16 op.mask ++ ")".toList) ++ shiftSuffix op.shiftl op.shiftr ++ b =
        '(' :: '(' :: (name ++ (indexText i ++ (" as ".toList ++ (ty ++ ')' :: (' ' :: '&' :: ' ' ::
          (('0' :: 'x' :: radix16 op.mask) ++ ')' :: (shiftSuffix op.shiftl op.shiftr ++ b))))))) := by simp
    rw [this, scan_oparen, scan_cast hn ht i hi, scan_space, scan_amp, scan_space,
      scan_word _ _ (wd_hex _) (ends_cons (by decide)), scan_cparen, scan_shift h b hb]
    simp
  · have : "(".toList ++ name ++ indexText i ++ " as ".toList ++ ty ++ ")".toList ++
        shiftSuffix op.shiftl op.shiftr ++ b =
        '(' :: (name ++ (indexText i ++ (" as ".toList ++ (ty ++ ')' ::
          (shiftSuffix op.shiftl op.shiftr ++ b))))) := by simp
    rw [this, scan_cast hn ht i hi, scan_shift h b hb]
    simp

/-- The tokens of the value in a setter statement. -/
def valueToks (op : SetOperation) : List Tok :=
  (if op.valueMask ≠ 0xFF then [.opening .paren, .word ['v', 'a', 'l'], .punct '&',
    .word ('0' :: 'x' :: radix16 op.valueMask), .closing .paren]
  else [.word ['v', 'a', 'l']]) ++ shiftToks op.shiftl op.shiftr

theorem scan_value (op : SetOperation) (h : SmallShift op.shiftl op.shiftr) (b : List Char) (hb : Ends b) :
    scan (valueText op ++ b) = valueToks op ++ scan b := by
  unfold valueText valueToks
  split
  · have : "(val & 0x".toList ++ radix16 op.valueMask ++ ")".toList ++ shiftSuffix op.shiftl op.shiftr ++ b =
        '(' :: ("val".toList ++ (' ' :: '&' :: ' ' :: (('0' :: 'x' :: radix16 op.valueMask) ++ ')' ::
          (shiftSuffix op.shiftl op.shiftr ++ b)))) := by simp
    rw [this, scan_oparen, scan_word _ _ ⟨by decide, by decide⟩ (ends_cons (by decide)), scan_space,
      scan_amp, scan_space, scan_word _ _ (wd_hex _) (ends_cons (by decide)), scan_cparen,
      scan_shift h b hb]
    simp
  · have : "val".toList ++ shiftSuffix op.shiftl op.shiftr ++ b =
        "val".toList ++ (shiftSuffix op.shiftl op.shiftr ++ b) := by simp
    rw [this, scan_word _ _ ⟨by decide, by decide⟩ (ends_shift hb), scan_shift h b hb]
    simp

/-- The tokens of a setter statement without its semicolon. -/
def setToks (P : List Tok) (op : SetOperation) (idx : Nat) : List Tok :=
  P ++ (indexToks (some idx) ++ (.punct '=' :: .opening .paren ::
    if op.saveMask ≠ 0 then
      .opening .paren :: (P ++ (indexToks (some idx) ++ (.punct '&' ::
        .word ('0' :: 'x' :: radix16 op.saveMask) :: .closing .paren :: .punct '|' :: .opening .paren ::
        (valueToks op ++ [.closing .paren, .word ['a', 's'], .word ['u', '8'], .closing .paren,
          .word ['a', 's'], .word ['u', '8']]))))
    else valueToks op ++ [.closing .paren, .word ['a', 's'], .word ['u', '8']]))

theorem scan_set {name : List Char} {P : List Tok} (hn : NameOk name P) (idx : Nat) (hi : idx < 256)
    (op : SetOperation) (h : SmallShift op.shiftl op.shiftr) (b : List Char) (hb : Ends b) :
    scan (strReplace "{val}".toList "val".toList (strReplace "{packet}".toList
      (name ++ "[co + ".toList ++ decimal idx ++ "]".toList) (setText op)) ++ b) =
      setToks P op idx ++ scan b := by
  have hi' : ∀ k ∈ some idx, k < 256 := fun k hk => by cases hk; exact hi
  have ht : name ++ "[co + ".toList ++ decimal idx ++ "]".toList = name ++ indexText (some idx) := by
    simp [indexText]
  rw [ht, replace_set _ (by
    rw [indexText]
    simp only [List.mem_append, not_or]
    exact ⟨hn.plain, ⟨by decide, not_mem_decimal hi⟩, by decide⟩) op h]
  unfold setToks
  split
  · have : name ++ indexText (some idx) ++ " = ((".toList ++ (name ++ indexText (some idx)) ++
        " & 0x".toList ++ radix16 op.saveMask ++ ") | (".toList ++ valueText op ++
        ") as u8) as u8".toList ++ b =
        name ++ (indexText (some idx) ++ (' ' :: '=' :: ' ' :: '(' :: '(' :: (name ++
          (indexText (some idx) ++ (' ' :: '&' :: ' ' :: (('0' :: 'x' :: radix16 op.saveMask) ++
            (')' :: ' ' :: '|' :: ' ' :: '(' :: (valueText op ++ (')' :: ' ' :: ("as".toList ++
              (' ' :: ("u8".toList ++ (')' :: ' ' :: ("as".toList ++ (' ' :: ("u8".toList ++ b)))
                ))))))))))))) := by simp
    rw [this, scan_index hn _ hi', scan_space, scan_eq, scan_space, scan_oparen, scan_oparen,
      scan_index hn _ hi', scan_space, scan_amp, scan_space,
      scan_word _ _ (wd_hex _) (ends_cons (by decide)), scan_cparen, scan_space, scan_bar, scan_space,
      scan_oparen, scan_value op h _ (ends_cons (by decide)), scan_cparen, scan_space,
      scan_word _ _ ⟨by decide, by decide⟩ (ends_cons (by decide)), scan_space,
      scan_word _ _ ⟨by decide, by decide⟩ (ends_cons (by decide)), scan_cparen, scan_space,
      scan_word _ _ ⟨by decide, by decide⟩ (ends_cons (by decide)), scan_space,
      scan_word _ _ ⟨by decide, by decide⟩ hb]
    simp
  · have : name ++ indexText (some idx) ++ " = (".toList ++ valueText op ++ ") as u8".toList ++ b =
        name ++ (indexText (some idx) ++ (' ' :: '=' :: ' ' :: '(' :: (valueText op ++ (')' :: ' ' ::
          ("as".toList ++ (' ' :: ("u8".toList ++ b))))))) := by simp
    rw [this, scan_index hn _ hi', scan_space, scan_eq, scan_space, scan_oparen,
      scan_value op h _ (ends_cons (by decide)), scan_cparen, scan_space,
      scan_word _ _ ⟨by decide, by decide⟩ (ends_cons (by decide)), scan_space,
      scan_word _ _ ⟨by decide, by decide⟩ hb]
    simp

end Verif.CodeText
