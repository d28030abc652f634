import Verif.Model.Fuzz
import Verif.Proofs.Options
import Verif.Proofs.Headers
import Verif.Proofs.Crate

/-! # The fuzz targets -/

namespace Verif
open Spec

/-- `payload()` of a TCP option returns. -/
theorem optionPayload_ok (m : Mode) (k : UInt8) (rest : Buf) :
    ∃ p, tcpOption.payload m (k :: rest) = .ok p := by
  have hlt := headD_le (rest.take (if tcpSolo k then 0 else 1))
  have hif : (if tcpSolo k then 0 else 1) ≤ 1 := by split <;> omega
  exact ⟨_, payload_eq (d := tcpOption) (m := m) (buf := k :: rest) (k := 2) rfl rfl
    (tcpOption_decl.lens m k rest) (tcpOption_decl.dataLens m k rest rfl)
    (by
      rw [show bitsSum (tcpOption.fields.take 2) = 8 from rfl]
      simp only [List.sum_cons, List.sum_nil]
      omega)⟩

/-- Collecting returns when sizes are positive and what is done to each packet returns. -/
theorem collect_ok {c : Codec} {m : Mode}
    (hsize : ∀ p, c.minSize ≤ p.length → ∃ n, c.packetSize m p = .ok (n + 1))
    (hdec : ∀ p, c.minSize ≤ p.length → ∃ v, c.fromPacket m p = .ok v) (fuel : Nat) (raw : Buf) :
    ∃ vs, c.collect m fuel raw = .ok vs := by
  induction fuel generalizing raw with
  | zero => exact ⟨[], rfl⟩
  | succ fuel ih =>
    simp only [Codec.collect]
    rw [next_eq]
    by_cases hr : raw.length > 0 ∧ c.minSize ≤ raw.length
    · rw [if_pos hr]
      obtain ⟨n, hn⟩ := hsize raw hr.2
      obtain ⟨v, hv⟩ := hdec raw hr.2
      obtain ⟨vs, hvs⟩ := ih (raw.drop (n + 1))
      rw [hn]
      simp only [ok_map, ok_bind, hv]
      rw [if_pos (by rw [List.length_drop]; omega), hvs]
      exact ⟨_, rfl⟩
    · rw [if_neg hr]; exact ⟨[], rfl⟩

theorem fuzzOptions_ok (m : Mode) (raw : Buf) : fuzzOptions m raw = .ok () := by
  unfold fuzzOptions
  obtain ⟨vs, h⟩ := collect_ok (c := { tcpOption.codec with
      fromPacket := fun m o => (fun _ => Val.num 0) <$> tcpOption.payload m o }) (m := m)
    (by
      intro p hp
      match p with
      | [] => exact absurd hp (by decide)
      | k :: rest =>
        have h := tcpOption_decl.size m k rest
        rw [Nat.add_assoc, Nat.add_comm 1] at h
        exact ⟨_, h⟩)
    (by
      intro p hp
      match p with
      | [] => exact absurd hp (by decide)
      | k :: rest =>
        obtain ⟨q, hq⟩ := optionPayload_ok m k rest
        refine ⟨.num 0, ?_⟩
        dsimp only
        rw [hq]; rfl) raw.length raw
  simp only [h, ok_bind]

theorem gre_getRaw_NH (m : Mode) (buf : Buf) (k : Nat) : NH (gre.getRaw m buf k) := by
  have hg := crateDecls_good gre (by simp [crateDecls])
  rw [Decl.getRaw]
  cases hf : gre.fields[k]? with
  | none => exact NH.panic
  | some f =>
    have hr := (run_NH (m := m) (buf := buf) (gre.fields.take k)
      (fun g hg' => hg.ends m g (List.mem_of_mem_take hg')) .init (by simp [St.init])
      (by simp [St.init]))
    have hr' : ∀ l ∈ (gre.before m buf k).lens, NH l := hr.1
    refine varSlice_NH (curOff_NH hr') ?_
    unfold fieldLen
    cases he : f.len with
    | none => exact NH.ok _
    | some e =>
      refine (hg.ends m f (List.mem_of_getElem? hf)).1 e he _ _ _ ?_
        ((curOff_NH hr').bind fun _ _ => sliceFrom_NH _ _)
      intro i
      rw [St.get]
      cases hi : (gre.before m buf k).vals[i]? with
      | none => exact NH.panic
      | some v => exact hr.2 v (List.mem_of_getElem? hi)

/-- The raw slices of a GRE packet without routing: the last one read decides. -/
theorem gre_raw_ok {m : Mode} {buf : Buf} (hsl : SliceLen buf.length) (h4 : 4 ≤ buf.length)
    (hr : bitsAt buf 1 1 = 0) :
    (∀ j, 9 ≤ j → j ≤ 12 →
      4 + 4 * bitsAt buf 0 1 + 4 * bitsAt buf 2 1 + 4 * bitsAt buf 3 1 ≤ buf.length →
      ∃ r, gre.getRaw m buf j = .ok r) ∧
    (4 + 4 * bitsAt buf 0 1 + 4 * bitsAt buf 2 1 + 4 * bitsAt buf 3 1 ≤ buf.length ↔
      ∃ r, gre.getRaw m buf 13 = .ok r) := by
  obtain ⟨l9, l10, l11, l12, l13, l14, l15, e9, e10, e11, e12, e13⟩ := gre_lens m buf h4 hr
  have c2 := bitsAt_lt buf 0 1
  have k2 := bitsAt_lt buf 2 1
  have s2 := bitsAt_lt buf 3 1
  simp only [Nat.pow_one] at c2 k2 s2
  unfold SliceLen at hsl
  have bs : ∀ j, 9 ≤ j → j ≤ 15 → bitsSum (gre.fields.take j) = 32 := by
    intro j h1 h2
    match j, h1, h2 with
    | 9, _, _ | 10, _, _ | 11, _, _ | 12, _, _ | 13, _, _ | 14, _, _ | 15, _, _ => rfl
  have q13 := getRaw_eq (d := gre) (k := 13) rfl l13 (by rw [fieldLen]; exact e13)
    (by rw [bs 13 (by omega) (by omega)]; simp; omega)
  rw [bs 13 (by omega) (by omega)] at q13
  simp only [List.sum_cons, List.sum_nil] at q13
  constructor
  · intro j h9 h12 hlen
    match j, h9, h12 with
    | 9, _, _ =>
      exact ⟨_, (getRaw_eq (d := gre) (k := 9) (sizes := []) rfl l9 (by rw [fieldLen]; exact e9)
        (by rw [bs 9 (by omega) (by omega)]; simp; omega)).1
        (by rw [bs 9 (by omega) (by omega)]; simp; omega)⟩
    | 10, _, _ =>
      exact ⟨_, (getRaw_eq (d := gre) (k := 10) rfl l10 (by rw [fieldLen]; exact e10)
        (by rw [bs 10 (by omega) (by omega)]; simp; omega)).1
        (by rw [bs 10 (by omega) (by omega)]; simp; omega)⟩
    | 11, _, _ =>
      exact ⟨_, (getRaw_eq (d := gre) (k := 11) rfl l11 (by rw [fieldLen]; exact e11)
        (by rw [bs 11 (by omega) (by omega)]; simp; omega)).1
        (by rw [bs 11 (by omega) (by omega)]; simp; omega)⟩
    | 12, _, _ =>
      exact ⟨_, (getRaw_eq (d := gre) (k := 12) rfl l12 (by rw [fieldLen]; exact e12)
        (by rw [bs 12 (by omega) (by omega)]; simp; omega)).1
        (by rw [bs 12 (by omega) (by omega)]; simp; omega)⟩
  · constructor
    · intro hlen
      exact ⟨_, q13.1 (by omega)⟩
    · rintro ⟨r, hr13⟩
      by_cases hlt : 4 + 4 * bitsAt buf 0 1 + 4 * bitsAt buf 2 1 + 4 * bitsAt buf 3 1 ≤ buf.length
      · exact hlt
      · rw [q13.2 (by omega)] at hr13; cases hr13

theorem gre_raw_routing {m : Mode} {buf : Buf} (h4 : 4 ≤ buf.length) (hr : bitsAt buf 1 1 = 1) :
    gre.getRaw m buf 13 = panic := by
  obtain ⟨l13, -, e13⟩ := gre_routing_lens m buf h4 hr
  have k2 := bitsAt_lt buf 2 1
  have s2 := bitsAt_lt buf 3 1
  have b13 : (gre.before m buf 13).bit = 32 := before_bit gre m buf 13
  have co : curOff m 32 ([2, 2, 4 * bitsAt buf 2 1, 4 * bitsAt buf 3 1].map .ok) = .ok _ :=
    curOff_ok (by unfold usizeCard; simp only [List.sum_cons, List.sum_nil]; omega)
  simp only [Decl.getRaw, show gre.fields[13]? = some _ from rfl, fieldLen, l13, b13, varSlice, co,
    ok_bind]
  dsimp only [fbytes]
  rw [e13]; rfl

end Verif
