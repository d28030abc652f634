import Verif.Proofs.MacAddr

/-! # MAC addresses (C38-C40) -/

namespace Verif.Props
open Spec

/-! ## C39 -/

/-- **C39**: every string has exactly one list of components. -/
theorem C39_components_unique (s : List Char) :
    ∃ comps, Components ':' s comps ∧ ∀ comps', Components ':' s comps' → comps' = comps :=
  ⟨_, components_strSplit ':' s, fun _ h => (strSplit_components h).symm⟩

example : Components ':' "1F:".toList ["1F".toList, []] := by unfold Components; decide

/-- **C39**. What parsing does, by the components of the string: one of the first six is not a
hexadecimal `u8` literal; otherwise more than six, fewer than six, or exactly six components. -/
theorem C39_parse (s : List Char) (comps : List (List Char)) (h : Components ':' s comps) :
    ((∃ w ∈ comps.take 6, ∀ v, ¬ HexU8 w v) → MacAddr.parse s = .error .invalidComponent) ∧
    ((∀ w ∈ comps.take 6, ∃ v, HexU8 w v) → 6 < comps.length →
      MacAddr.parse s = .error .tooManyComponents) ∧
    ((∀ w ∈ comps.take 6, ∃ v, HexU8 w v) → comps.length < 6 →
      MacAddr.parse s = .error .tooFewComponents) ∧
    (∀ a b c d e f v0 v1 v2 v3 v4 v5, comps = [a, b, c, d, e, f] → HexU8 a v0 → HexU8 b v1 →
      HexU8 c v2 → HexU8 d v3 → HexU8 e v4 → HexU8 f v5 →
      MacAddr.parse s = .ok ⟨v0, v1, v2, v3, v4, v5⟩) := by
  rw [MacAddr.parse, strSplit_components h]
  refine ⟨fun hi => ?_, fun hv hl => ?_, fun hv hl => ?_, ?_⟩
  · rw [macLoop_invalid (i := 0) (by omega) hi]; rfl
  · rw [(macLoop_valid (i := 0) (by omega) hv).1 (by omega)]; rfl
  · obtain ⟨parts, hp⟩ := (macLoop_valid (i := 0) (parts := List.replicate 6 0) (by omega) hv).2 (by omega)
    rw [hp]
    show (if 0 + comps.length = 6 then _ else _) = _
    rw [if_neg (by omega)]
  · rintro a b c d e f v0 v1 v2 v3 v4 v5 rfl h0 h1 h2 h3 h4 h5
    rw [macLoop_six _ rfl a b c d e f v0 v1 v2 v3 v4 v5 h0 h1 h2 h3 h4 h5]
    rfl

example : MacAddr.parse "1:2".toList = .error .tooFewComponents :=
  (C39_parse "1:2".toList ["1".toList, "2".toList] (by unfold Components; decide)).2.2.1
    (by intro w hw
        rcases List.mem_cons.mp hw with rfl | hw
        · exact ⟨1, ['1'], .inl rfl, by decide, .snoc (ds := []) (d := 1) .nil (by decide)⟩
        · rcases List.mem_cons.mp hw with rfl | hw
          · exact ⟨2, ['2'], .inl rfl, by decide, .snoc (ds := []) (d := 2) .nil (by decide)⟩
          · cases hw)
    (by decide)

/-- **C39**: parsing succeeds exactly for six components that are hexadecimal `u8` literals, with
their values. -/
theorem C39_success_iff (s : List Char) (m : MacAddr) :
    MacAddr.parse s = .ok m ↔
      ∃ a b c d e f, Components ':' s [a, b, c, d, e, f] ∧ HexU8 a m.b0 ∧ HexU8 b m.b1 ∧
        HexU8 c m.b2 ∧ HexU8 d m.b3 ∧ HexU8 e m.b4 ∧ HexU8 f m.b5 := by
  obtain ⟨comps, hc, -⟩ := C39_components_unique s
  have hp := C39_parse s comps hc
  constructor
  · intro hok
    have hv : ∀ w ∈ comps.take 6, ∃ v, HexU8 w v := by
      apply Classical.byContradiction
      intro hn
      have := hp.1 (by
        apply Classical.byContradiction
        intro hn2
        apply hn
        intro w hw
        apply Classical.byContradiction
        intro h3
        exact hn2 ⟨w, hw, fun v hv => h3 ⟨v, hv⟩⟩)
      rw [hok] at this; cases this
    have hl : comps.length = 6 := by
      rcases Nat.lt_trichotomy comps.length 6 with h | h | h
      · have := hp.2.2.1 hv h; rw [hok] at this; cases this
      · exact h
      · have := hp.2.1 hv h; rw [hok] at this; cases this
    match comps, hl with
    | [a, b, c, d, e, f], _ =>
      simp only [List.take, List.mem_cons, List.not_mem_nil, or_false, forall_eq_or_imp, forall_eq] at hv
      obtain ⟨⟨v0, h0⟩, ⟨v1, h1⟩, ⟨v2, h2⟩, ⟨v3, h3⟩, ⟨v4, h4⟩, ⟨v5, h5⟩⟩ := hv
      have := hp.2.2.2 a b c d e f v0 v1 v2 v3 v4 v5 rfl h0 h1 h2 h3 h4 h5
      rw [hok, Except.ok.injEq] at this
      subst this
      exact ⟨a, b, c, d, e, f, hc, h0, h1, h2, h3, h4, h5⟩
  · rintro ⟨a, b, c, d, e, f, hc', h0, h1, h2, h3, h4, h5⟩
    exact (C39_parse s _ hc').2.2.2 a b c d e f _ _ _ _ _ _ rfl h0 h1 h2 h3 h4 h5

/-- The literal `+f` has value 15 and is accepted, like `0000f`. -/
example : MacAddr.parse "+f:0000f:0:1:2:FF".toList = .ok ⟨15, 15, 0, 1, 2, 255⟩ ∧
    MacAddr.parse "0:1:2:3:4:100".toList = .error .invalidComponent ∧
    MacAddr.parse "0:1:2:3:4".toList = .error .tooFewComponents ∧
    MacAddr.parse "0:1:2:3:4:5:x".toList = .error .tooManyComponents ∧
    MacAddr.parse "".toList = .error .invalidComponent := by decide +kernel

example : HexU8 "1F".toList 31 :=
  ⟨['1', 'F'], .inl rfl, by simp,
    .snoc (ds := ['1']) (.snoc (ds := []) .nil (by decide : ('1', 1) ∈ hexDigits))
      (by decide : ('F', 15) ∈ hexDigits)⟩

/-! ## C38 -/

/-- **C38**. Parsing the displayed text of an address gives the address. -/
theorem C38_round_trip (m : MacAddr) : MacAddr.parse m.display = .ok m := by
  rw [C39_success_iff]
  refine ⟨fmt02x m.b0, fmt02x m.b1, fmt02x m.b2, fmt02x m.b3, fmt02x m.b4, fmt02x m.b5,
    ⟨by simp, ?_, ?_⟩, ?_⟩
  · simp only [List.mem_cons, List.not_mem_nil, or_false, forall_eq_or_imp, forall_eq]
    exact ⟨(fmt02x_facts _).2, (fmt02x_facts _).2, (fmt02x_facts _).2, (fmt02x_facts _).2,
      (fmt02x_facts _).2, (fmt02x_facts _).2⟩
  · simp [MacAddr.display, List.intercalate, List.intersperse]
  · simp only [← fromStrRadix16_iff]
    exact ⟨(fmt02x_facts _).1, (fmt02x_facts _).1, (fmt02x_facts _).1, (fmt02x_facts _).1,
      (fmt02x_facts _).1, (fmt02x_facts _).1⟩

example : MacAddr.parse "12:34:56:78:90:ab".toList = .ok ⟨0x12, 0x34, 0x56, 0x78, 0x90, 0xab⟩ :=
  C38_round_trip ⟨0x12, 0x34, 0x56, 0x78, 0x90, 0xab⟩

/-- **C38**: distinct addresses have distinct texts, each of 17 characters. -/
theorem C38_display_injective (m m' : MacAddr) :
    (m.display = m'.display → m = m') ∧ m.display.length = 17 := by
  refine ⟨fun h => ?_, rfl⟩
  have h1 := C38_round_trip m
  rw [h, C38_round_trip m'] at h1
  cases h1; rfl

example : (MacAddr.new 0x12 0x34 0x56 0x78 0x90 0xab).display = "12:34:56:78:90:ab".toList := by
  decide +kernel

/-! ## C40 -/

/-- **C40**: classification by the two low bits of the first byte. -/
theorem C40_classification (m : MacAddr) :
    (m.isMulticast = true ↔ m.b0.toNat % 2 = 1) ∧
    (m.isLocal = true ↔ m.b0.toNat / 2 % 2 = 1) ∧
    m.isUnicast = !m.isMulticast ∧ m.isUniversal = !m.isLocal ∧
    (m.isZero = true ↔ m = ⟨0, 0, 0, 0, 0, 0⟩) ∧
    (m.isBroadcast = true ↔ m = ⟨255, 255, 255, 255, 255, 255⟩) ∧
    (m.isBroadcast = true → m.isMulticast = true ∧ m.isLocal = true) := by
  have key : ∀ n < 256, ((UInt8.ofNat n &&& 0x01 == 0x01) = true ↔ n % 2 = 1) ∧
      ((UInt8.ofNat n &&& 0x02 == 0x02) = true ↔ n / 2 % 2 = 1) := by decide +kernel
  have hk := key m.b0.toNat m.b0.toNat_lt
  rw [UInt8.ofNat_toNat] at hk
  have hb : m.isBroadcast = true ↔ m = ⟨255, 255, 255, 255, 255, 255⟩ := by
    simp [MacAddr.isBroadcast, MacAddr.broadcast, MacAddr.ofBytes]
  refine ⟨hk.1, hk.2, rfl, rfl, by simp [MacAddr.isZero, MacAddr.zero], hb, fun h => ?_⟩
  rw [hb] at h
  subst h
  decide

example : (⟨0x33, 0x33, 0, 0, 0, 1⟩ : MacAddr).isMulticast = true :=
  (C40_classification ⟨0x33, 0x33, 0, 0, 0, 1⟩).1.mpr (by decide)

/-- **C40**: conversion to and from byte arrays is a bijection; comparing with a byte array is
comparing the bytes. -/
theorem C40_bytes_bijection (m : MacAddr) (bytes : Buf) (hb : bytes.length = 6) :
    MacAddr.ofBytes m.toBytes = some m ∧ (MacAddr.ofBytes bytes).map MacAddr.toBytes = some bytes ∧
    (m.eqBytes bytes = true ↔ m.toBytes = bytes) := by
  match bytes, hb with
  | [a, b, c, d, e, f], _ =>
    obtain ⟨m0, m1, m2, m3, m4, m5⟩ := m
    refine ⟨rfl, rfl, ?_⟩
    simp [MacAddr.eqBytes, MacAddr.ofBytes, MacAddr.toBytes]

example : (MacAddr.new 0x33 0x33 0 0 0 1).isMulticast = true ∧
    (MacAddr.new 0x33 0x33 0 0 0 1).isLocal = true ∧
    (MacAddr.new 0x00 0x1b 0 0 0 1).isUniversal = true := by decide

/-! ## C62 -/

/-- **C62**. The displayed text consists of the six bytes, each as two lower-case hexadecimal
digits, joined by colons. -/
theorem C62_display_format (m : MacAddr) :
    m.display = [':'].intercalate (m.toBytes.map twoHex) := by
  have h : ∀ b : UInt8, fmt02x b = twoHex b := by
    have key : ∀ n < 256, [lowerHex (n / 16), lowerHex (n % 16)] =
        [lowerHexDigits[n / 16]?.getD '?', lowerHexDigits[n % 16]?.getD '?'] := by decide +kernel
    exact fun b => key b.toNat b.toNat_lt
  simp [MacAddr.display, MacAddr.toBytes, List.intercalate, List.intersperse, h]

example : (⟨0x00, 0x1B, 0xff, 0x3a, 9, 0xc0⟩ : MacAddr).display = "00:1b:ff:3a:09:c0".toList := by
  decide +kernel

/-- C70: an address written to a data format is read back, whichever kind of format it is: only the
hint that belongs to the format matters. -/
theorem C70_round_trip (m : MacAddr) (d : SerdeSource)
    (h : (if d.humanReadable then d.onStr else d.onBytes) = m.serialize d.humanReadable) :
    MacAddr.deserialize d = .ok m := by
  unfold MacAddr.deserialize
  cases hd : d.humanReadable with
  | true =>
    rw [hd] at h
    simp only [if_true, MacAddr.serialize] at h ⊢
    rw [h]
    simp only [MacAddr.visit, C38_round_trip]
  | false =>
    rw [hd] at h
    simp only [Bool.false_eq_true, if_false, MacAddr.serialize] at h ⊢
    rw [h]
    rfl

example : MacAddr.deserialize ⟨false, .other, .bytes [1, 2, 3, 4, 5, 6]⟩ =
    .ok ⟨1, 2, 3, 4, 5, 6⟩ := by decide

/-- C70: the written form: the displayed text for human-readable formats, the six bytes otherwise. -/
theorem C70_written (m : MacAddr) :
    m.serialize true = .str m.display ∧
    m.serialize false = .bytes m.toBytes := ⟨rfl, rfl⟩

/-- C70: exactly which values are read as an address. The text form is read by the same parser as
`FromStr`, byte arrays have exactly six bytes, and nothing else is accepted. -/
theorem C70_read_iff (v : SerdeValue) (m : MacAddr) (d : SerdeSource)
    (hv : v = if d.humanReadable then d.onStr else d.onBytes) :
    MacAddr.deserialize d = .ok m ↔
      (∃ s, v = .str s ∧ MacAddr.parse s = .ok m) ∨ v = .bytes m.toBytes := by
  have hd : MacAddr.deserialize d = MacAddr.visit v := by
    rw [hv]; unfold MacAddr.deserialize; split <;> rfl
  rw [hd]
  cases v with
  | other => simp [MacAddr.visit]
  | str s =>
    simp only [MacAddr.visit]
    cases hp : MacAddr.parse s with
    | ok m' => simp [hp]
    | error e => simp [hp]
  | bytes b =>
    simp only [MacAddr.visit]
    by_cases hl : b.length = 6
    · match b, hl with
      | [a0, a1, a2, a3, a4, a5], _ =>
        obtain ⟨c0, c1, c2, c3, c4, c5⟩ := m
        simp [MacAddr.new, MacAddr.toBytes]
    · rw [if_neg hl]
      constructor
      · intro h; cases h
      · rintro (⟨s, h, _⟩ | h)
        · cases h
        · exfalso; apply hl; cases h; rfl

example : MacAddr.deserialize ⟨true, .str "00:00:00:00:00:0g".toList, .other⟩ =
    .error (.custom .invalidComponent) := by decide +kernel

example : MacAddr.deserialize ⟨false, .other, .bytes [1, 2, 3, 4, 5]⟩ =
    .error (.invalidLength 5) := by decide

end Verif.Props
