import Verif.Proofs.Fuzz
import Verif.Props.Options
import Verif.Props.Payloads

/-! # C71: the fuzz targets find nothing -/

namespace Verif.Props
open Spec

/-- **C71**, full claim: no fuzz target panics or runs forever. -/
def C71_statement : Prop := ∀ (m : Mode) (data : Buf), SliceLen data.length →
  fuzzEther m data = .ok () ∧ fuzzGre m data = .ok () ∧ fuzzIpv4 m data = .ok () ∧
  fuzzTcp m data = .ok () ∧ fuzzUdp m data = .ok () ∧ fuzzVlan m data = .ok ()

/-- C71 is false: the GRE target panics on four bytes that announce a checksum. -/
theorem C71_false : ¬ C71_statement := by
  intro h
  have := (h .debug [0x80, 0, 0, 0] (by decide)).2.1
  revert this
  decide +kernel

/-- **C71**, all targets but GRE never panic and always end. Missing: GRE (`C71_false`). -/
theorem C71_other_targets_partial (m : Mode) (data : Buf) (hsl : SliceLen data.length) :
    fuzzEther m data = .ok () ∧ fuzzIpv4 m data = .ok () ∧ fuzzTcp m data = .ok () ∧
    fuzzUdp m data = .ok () ∧ fuzzVlan m data = .ok () := by
  have run : ∀ (d : Decl) (body : Buf → Res Unit), (d.minSize ≤ data.length → body data = .ok ()) →
      fuzzWith d data body = .ok () := by
    intro d body h
    unfold fuzzWith Decl.new
    by_cases hm : data.length ≥ d.minSize
    · rw [if_pos hm]; exact h hm
    · rw [if_neg hm]
  refine ⟨run _ _ fun hm => ?_, run _ _ fun hm => ?_, run _ _ fun hm => ?_, run _ _ fun hm => ?_,
    run _ _ fun hm => ?_⟩
  · have hnew : (ethernet.newPacket data).isSome = true := by simp [Decl.newPacket, hm]
    obtain ⟨v0, h0⟩ := C07_fixed_getters_total ethernet (by decide) 0 (by decide) rfl m data hsl hnew
    obtain ⟨v1, h1⟩ := C07_fixed_getters_total ethernet (by decide) 1 (by decide) rfl m data hsl hnew
    obtain ⟨v2, h2⟩ := C07_fixed_getters_total ethernet (by decide) 2 (by decide) rfl m data hsl hnew
    simp only [h0, h1, h2, ok_bind,
      C09_open_payloads ethernet 14 (by simp [openPayloads]) m data hsl]
  · simp only [C17_ipv4_options_raw m data hm, C09_ipv4 m data hm, ok_bind]
  · simp only [C17_tcp_options_raw m data hm, C09_tcp m data hsl hm, fuzzOptions_ok, ok_bind]
  · simp only [ok_bind, C09_open_payloads udp 8 (by simp [openPayloads]) m data hsl]
  · simp only [ok_bind, C09_open_payloads vlan 4 (by simp [openPayloads]) m data hsl]

example : fuzzTcp .debug cutTcp = .ok () := by decide +kernel

/-- **C71**, the GRE target: it returns exactly when there is no packet, or the routing bit is clear
and the optional fields announced by the checksum, key and sequence bits are in the buffer; otherwise
it panics. Missing: the panics. -/
theorem C71_gre_exact_partial (m : Mode) (data : Buf) (hsl : SliceLen data.length) :
    (fuzzGre m data = .ok () ↔ data.length < 4 ∨ (bitsAt data 1 1 = 0 ∧
      4 + 4 * bitsAt data 0 1 + 4 * bitsAt data 2 1 + 4 * bitsAt data 3 1 ≤ data.length)) ∧
    (fuzzGre m data = .ok () ∨ fuzzGre m data = panic) := by
  have r2 := bitsAt_lt data 1 1
  have hbody : ∀ x : Res Unit, x = (do
      let _ ← gre.getRaw m data 9
      let _ ← gre.getRaw m data 10
      let _ ← gre.getRaw m data 11
      let _ ← gre.getRaw m data 12
      let _ ← gre.getRaw m data 13
      .ok ()) → (x = .ok () ↔ ∀ j, 9 ≤ j → j ≤ 13 → ∃ r, gre.getRaw m data j = .ok r) ∧
        (x = .ok () ∨ x = panic) := by
    rintro x rfl
    have nh := gre_getRaw_NH m data
    have cases5 : ∀ j, (∃ r, gre.getRaw m data j = .ok r) ∨ gre.getRaw m data j = panic := by
      intro j
      cases hj : gre.getRaw m data j with
      | ok r => exact .inl ⟨r, rfl⟩
      | error e =>
        cases e with
        | panic => exact .inr rfl
        | hang => exact absurd hj (nh j)
    have all : ∀ P : Nat → Prop, (∀ j, 9 ≤ j → j ≤ 13 → P j) ↔ P 9 ∧ P 10 ∧ P 11 ∧ P 12 ∧ P 13 := by
      intro P
      constructor
      · intro h
        exact ⟨h 9 (by omega) (by omega), h 10 (by omega) (by omega), h 11 (by omega) (by omega),
          h 12 (by omega) (by omega), h 13 (by omega) (by omega)⟩
      · rintro ⟨h9, h10, h11, h12, h13⟩ j hj1 hj2
        match j, hj1, hj2 with
        | 9, _, _ => exact h9
        | 10, _, _ => exact h10
        | 11, _, _ => exact h11
        | 12, _, _ => exact h12
        | 13, _, _ => exact h13
    rw [all]
    rcases cases5 9 with ⟨a, h9⟩ | h9 <;> rcases cases5 10 with ⟨b, h10⟩ | h10 <;>
      rcases cases5 11 with ⟨c, h11⟩ | h11 <;> rcases cases5 12 with ⟨d, h12⟩ | h12 <;>
      rcases cases5 13 with ⟨e, h13⟩ | h13 <;>
      simp [h9, h10, h11, h12, h13, panic]
  unfold fuzzGre fuzzWith Decl.new
  rw [show gre.minSize = 4 from rfl]
  by_cases h4 : data.length ≥ 4
  · rw [if_pos h4]
    obtain ⟨hiff, hor⟩ := hbody _ rfl
    refine ⟨hiff.trans ?_, hor⟩
    rcases (show bitsAt data 1 1 = 0 ∨ bitsAt data 1 1 = 1 by omega) with hr | hr
    · obtain ⟨ha, hb⟩ := gre_raw_ok (m := m) hsl h4 hr
      constructor
      · intro h
        exact .inr ⟨hr, hb.mpr (h 13 (by omega) (by omega))⟩
      · rintro (h | ⟨-, h⟩) j hj1 hj2
        · omega
        · by_cases h13 : j = 13
          · subst h13; exact hb.mp h
          · exact ha j hj1 (by omega) h
    · constructor
      · intro h
        obtain ⟨r, h13⟩ := h 13 (by omega) (by omega)
        rw [gre_raw_routing h4 hr] at h13; cases h13
      · rintro (h | ⟨h, -⟩)
        · omega
        · omega
  · rw [if_neg h4]
    exact ⟨⟨fun _ => .inl (by omega), fun _ => rfl⟩, .inl rfl⟩

example : fuzzGre .debug [0x80, 0, 0, 0, 1, 2, 3, 4] = .ok () ∧ fuzzGre .debug [0x40, 0, 0, 0] = panic := by
  decide +kernel

end Verif.Props
