import Verif.Proofs.Bounds

/-! The inner packet types of the crate: options and GRE words. -/

namespace Verif
open Spec

/-- Everything the generic theorems ask of an inner packet type without further nesting. -/
structure Inner (d : Decl) : Prop where
  reg : regular d = true
  closed : Spec.closed d = true
  bytes : d.bits % 8 = 0
  pos : 8 ≤ d.bits
  bound : d.bits < 2 ^ 60
  count : d.fields.length ≤ 2 ^ 20
  flat : ∀ f ∈ d.fields, ∀ c, f.ty ≠ .vecPkt c
  loc : localLens d.fields
  small : smallFields d.fields
  ends : ∀ f ∈ d.fields, ∀ e, f.len = some e → e.ends
  last : (d.fields.getLast?).map (·.ty.isVec) = some true

theorem Inner.noWrap {d : Decl} (h : Inner d) (m : Mode) : NoWrap m d :=
  noWrap_of_small m h.small h.bound h.count

theorem Inner.confined {d : Decl} (h : Inner d) (m : Mode) : ConfinedC m d.codec :=
  confined_codec h.reg h.loc (h.noWrap m) (fun f hf c hc => absurd hc (h.flat f hf c)) h.closed h.bytes

theorem Inner.codecEnds {d : Decl} (h : Inner d) (m : Mode) : d.codec.Ends m :=
  codec_ends (fun f hf => ⟨h.ends f hf, fun c hc => absurd hc (h.flat f hf c)⟩) (h.noWrap m) h.pos

theorem Inner.lawful {d : Decl} (h : Inner d) (m : Mode) (E : Nat → Wire) :
    Lawful m d.codec (declWire m E d) :=
  lawful_codec h.reg h.closed h.bytes h.pos fun _ f c hf hc =>
    absurd hc (h.flat f (List.mem_of_getElem? hf) c)

theorem forall_field {fs : List Field} {P : Field → Prop} :
    (∀ f ∈ fs, P f) ↔ ∀ i (h : i < fs.length), P fs[i] := by
  constructor
  · intro h i hi; exact h _ (List.getElem_mem hi)
  · intro h f hf
    obtain ⟨i, hi, rfl⟩ := List.getElem_of_mem hf
    exact h i hi

theorem tcpOption_inner : Inner tcpOption where
  last := rfl
  reg := by decide
  closed := by decide
  bytes := by decide
  pos := by decide
  bound := by decide
  count := by decide
  flat := by simp [tcpOption, fmisc, fbytes, fpayload]
  loc := by
    simp only [localLens, tcpOption, fmisc, fbytes, fpayload, List.mem_cons, List.not_mem_nil, or_false]
    rintro f (rfl | rfl | rfl) e he <;> cases he <;> intro _ _ _ _ <;> rfl
  small := by
    simp only [smallFields, tcpOption, fmisc, fbytes, fpayload, List.mem_cons, List.not_mem_nil, or_false]
    rintro f (rfl | rfl | rfl) <;> refine ⟨rfl, ?_⟩ <;> intro e he <;> cases he <;> intro m g r k hg hk
    · obtain ⟨v, hv, hk⟩ := bind_eq_ok.mp hk
      obtain ⟨n, hn, hk⟩ := bind_eq_ok.mp hk
      cases hk
      unfold tcpOptionLength; repeat' split
      all_goals omega
    · obtain ⟨v, hv, hk⟩ := bind_eq_ok.mp hk
      obtain ⟨n, hn, hk⟩ := bind_eq_ok.mp hk
      cases hk
      have := asNums_eq_ok hn
      subst this
      have := hg _ _ hv
      simp only [smallVal] at this
      unfold tcpOptionPayloadLength
      split
      · rename_i len ns
        have := this _ (List.mem_cons_self ..)
        split <;> omega
      · omega
  ends := by
    simp only [tcpOption, fmisc, fbytes, fpayload, List.mem_cons, List.not_mem_nil, or_false]
    rintro f (rfl | rfl | rfl) e he <;> cases he <;> intro m g r hg hr
    · exact (hg _).bind fun _ _ => (asTuple1_NH _).bind fun _ _ => NH.ok _
    · exact (hg _).bind fun _ _ => (asNums_NH _).bind fun _ _ => NH.ok _

theorem ipv4Option_inner : Inner ipv4Option where
  last := rfl
  reg := by decide
  closed := by decide
  bytes := by decide
  pos := by decide
  bound := by decide
  count := by decide
  flat := by simp [ipv4Option, fprim, fmisc, fbytes, fpayload]
  loc := by
    simp only [localLens, ipv4Option, fprim, fmisc, fbytes, fpayload, List.mem_cons, List.not_mem_nil, or_false]
    rintro f (rfl | rfl | rfl | rfl | rfl) e he <;> cases he <;> intro _ _ _ _ <;> rfl
  small := by
    simp only [smallFields, ipv4Option, fprim, fmisc, fbytes, fpayload, List.mem_cons, List.not_mem_nil, or_false]
    rintro f (rfl | rfl | rfl | rfl | rfl) <;> refine ⟨rfl, ?_⟩ <;> intro e he <;> cases he <;>
      intro m g r k hg hk
    · obtain ⟨v, hv, hk⟩ := bind_eq_ok.mp hk
      obtain ⟨n, hn, hk⟩ := bind_eq_ok.mp hk
      cases hk
      unfold ipv4OptionLength; repeat' split
      all_goals omega
    · obtain ⟨v, hv, hk⟩ := bind_eq_ok.mp hk
      obtain ⟨n, hn, hk⟩ := bind_eq_ok.mp hk
      cases hk
      have := asNums_eq_ok hn
      subst this
      have := hg _ _ hv
      simp only [smallVal] at this
      unfold ipv4OptionPayloadLength
      split
      · rename_i len ns
        have := this _ (List.mem_cons_self ..)
        omega
      · omega
  ends := by
    simp only [ipv4Option, fprim, fmisc, fbytes, fpayload, List.mem_cons, List.not_mem_nil, or_false]
    rintro f (rfl | rfl | rfl | rfl | rfl) e he <;> cases he <;> intro m g r hg hr
    · exact (hg _).bind fun _ _ => (asTuple1_NH _).bind fun _ _ => NH.ok _
    · exact (hg _).bind fun _ _ => (asNums_NH _).bind fun _ _ => NH.ok _

theorem ndpOption_inner : Inner ndpOption where
  last := rfl
  reg := by decide
  closed := by decide
  bytes := by decide
  pos := by decide
  bound := by decide
  count := by decide
  flat := by simp [ndpOption, fprim, fmisc, fpayload]
  loc := by
    simp only [localLens, ndpOption, fprim, fmisc, fpayload, List.mem_cons, List.not_mem_nil, or_false]
    rintro f (rfl | rfl | rfl) e he <;> cases he <;> intro _ _ _ _ <;> rfl
  small := by
    simp only [smallFields, ndpOption, fprim, fmisc, fpayload, List.mem_cons, List.not_mem_nil, or_false]
    rintro f (rfl | rfl | rfl) <;> refine ⟨rfl, ?_⟩ <;> intro e he <;> cases he <;> intro m g r k hg hk
    obtain ⟨v, hv, hk⟩ := bind_eq_ok.mp hk
    obtain ⟨n, hn, hk⟩ := bind_eq_ok.mp hk
    unfold ndpOptionDataLength at hk
    split at hk
    · cases hk; omega
    · cases m
      · simp at hk
      · cases hk; omega
  ends := by
    simp only [ndpOption, fprim, fmisc, fpayload, List.mem_cons, List.not_mem_nil, or_false]
    rintro f (rfl | rfl | rfl) e he <;> cases he <;> intro m g r hg hr
    refine (hg _).bind fun _ _ => (asNum_NH _).bind fun _ _ => ?_
    unfold ndpOptionDataLength
    split
    · exact NH.ok _
    · cases m
      · exact NH.panic
      · exact NH.ok _

theorem u16BE_inner : Inner u16BE where
  last := rfl
  reg := by decide
  closed := by decide
  bytes := by decide
  pos := by decide
  bound := by decide
  count := by decide
  flat := by simp [u16BE, fprim, fpayload]
  loc := by
    simp only [localLens, u16BE, fprim, fpayload, List.mem_cons, List.not_mem_nil, or_false]
    rintro f (rfl | rfl) e he <;> cases he
    exact lenConst_local _
  small := by
    simp only [smallFields, u16BE, fprim, fpayload, List.mem_cons, List.not_mem_nil, or_false]
    rintro f (rfl | rfl) <;> refine ⟨rfl, ?_⟩ <;> intro e he <;> cases he
    exact lenConst_small (by decide)
  ends := by
    simp only [u16BE, fprim, fpayload, List.mem_cons, List.not_mem_nil, or_false]
    rintro f (rfl | rfl) e he <;> cases he
    exact lenConst_ends _

theorem u32BE_inner : Inner u32BE where
  last := rfl
  reg := by decide
  closed := by decide
  bytes := by decide
  pos := by decide
  bound := by decide
  count := by decide
  flat := by simp [u32BE, fprim, fpayload]
  loc := by
    simp only [localLens, u32BE, fprim, fpayload, List.mem_cons, List.not_mem_nil, or_false]
    rintro f (rfl | rfl) e he <;> cases he
    exact lenConst_local _
  small := by
    simp only [smallFields, u32BE, fprim, fpayload, List.mem_cons, List.not_mem_nil, or_false]
    rintro f (rfl | rfl) <;> refine ⟨rfl, ?_⟩ <;> intro e he <;> cases he
    exact lenConst_small (by decide)
  ends := by
    simp only [u32BE, fprim, fpayload, List.mem_cons, List.not_mem_nil, or_false]
    rintro f (rfl | rfl) e he <;> cases he
    exact lenConst_ends _

end Verif
