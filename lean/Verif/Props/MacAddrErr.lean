import Verif.Props.MacAddr

/-! # C101: the messages of a failed MAC address parse -/

namespace Verif.Props
open Verif Verif.Spec

/-- **C101**. What the message of a failed parse says about the text. -/
theorem C101_messages (s : List Char) (comps : List (List Char)) (hc : Components ':' s comps)
    (e : ParseMacAddrErr) (he : MacAddr.parse s = .error e) :
    (e.display = "Invalid component in a MAC address string".toList ↔
      ∃ w ∈ comps.take 6, ∀ v, ¬ HexU8 w v) ∧
    (e.display = "Too many components in a MAC address string".toList ↔
      (∀ w ∈ comps.take 6, ∃ v, HexU8 w v) ∧ 6 < comps.length) ∧
    (e.display = "Too few components in a MAC address string".toList ↔
      (∀ w ∈ comps.take 6, ∃ v, HexU8 w v) ∧ comps.length < 6) := by
  obtain ⟨h1, h2, h3, h4'⟩ := C39_parse s comps hc
  by_cases hi : ∃ w ∈ comps.take 6, ∀ v, ¬ HexU8 w v
  · have hn : ¬ ∀ w ∈ comps.take 6, ∃ v, HexU8 w v := by
      obtain ⟨w, hw, hv⟩ := hi
      intro h
      obtain ⟨v, hv'⟩ := h w hw
      exact hv v hv'
    have := h1 hi
    rw [he] at this
    cases this
    simp only [hi, hn, false_and, iff_true, iff_false]
    decide
  · have hv : ∀ w ∈ comps.take 6, ∃ v, HexU8 w v := by
      intro w hw
      apply Classical.byContradiction
      intro hn
      exact hi ⟨w, hw, fun v hv => hn ⟨v, hv⟩⟩
    have cases3 : 6 < comps.length ∨ comps.length < 6 ∨ comps.length = 6 := by omega
    rcases cases3 with hl | hl | hl
    · have := h2 hv hl
      rw [he] at this
      cases this
      have : ¬ comps.length < 6 := by omega
      simp only [hi, hl, this, and_false, iff_false]
      refine ⟨by decide, ⟨fun _ => ⟨hv, trivial⟩, fun _ => rfl⟩, by decide⟩
    · have := h3 hv hl
      rw [he] at this
      cases this
      have : ¬ 6 < comps.length := by omega
      simp only [hi, hl, this, and_false, iff_false]
      refine ⟨by decide, by decide, ⟨fun _ => ⟨hv, trivial⟩, fun _ => rfl⟩⟩
    · exfalso
      match comps, hl with
      | [a, b, c, d, e, f], _ =>
        simp only [List.take, List.mem_cons, List.not_mem_nil, or_false, forall_eq_or_imp,
          forall_eq] at hv
        obtain ⟨⟨v0, h0⟩, ⟨v1, h1⟩, ⟨v2, h2⟩, ⟨v3, h3⟩, ⟨v4, h4⟩, ⟨v5, h5⟩⟩ := hv
        have := h4' a b c d e f v0 v1 v2 v3 v4 v5 rfl h0 h1 h2 h3 h4 h5
        rw [he] at this
        cases this

example : ∃ e, MacAddr.parse "00:11".toList = .error e ∧
    Components ':' "00:11".toList ["00".toList, "11".toList] ∧
    e.display = "Too few components in a MAC address string".toList :=
  ⟨.tooFewComponents, by decide +kernel, by unfold Components; decide, rfl⟩

example : ∃ e, MacAddr.parse "00:GG:22:33:44:55:66".toList = .error e ∧
    e.display = "Invalid component in a MAC address string".toList :=
  ⟨.invalidComponent, by decide +kernel, rfl⟩

end Verif.Props
