import Verif.Proofs.Crate

/-! The accessors of a packet read only its first `packet_size()` bytes. -/

namespace Verif
open Spec

theorem sameBits_of_take {a b : Buf} {n : Nat} (ha : n ≤ a.length) (hb : n ≤ b.length)
    (h : a.take n = b.take n) : SameBits a b (8 * n) := by
  refine ⟨by omega, by omega, ?_⟩
  rw [← bitsOf_take, ← bitsOf_take, h]

theorem packetSize_sum {m : Mode} {d : Decl} (hnw : NoWrap m d) {buf : Buf} {n : Nat}
    (hn : d.packetSize m buf = .ok n) :
    ∃ sizes : List Nat, (d.final m buf).lens = sizes.map .ok ∧ n = d.bits / 8 + sizes.sum := by
  obtain ⟨sizes, hs⟩ := foldlM_uadd_ok hn
  have hb : (d.final m buf).bit = d.bits := by
    rw [final_eq_before, before_bit, List.take_length]; rfl
  refine ⟨sizes, hs, ?_⟩
  rw [Decl.packetSize, hs, hb] at hn
  exact curOff_inv (hnw.lens.imp_right fun hh => by
    have := hh buf d.fields.length sizes (by rw [← final_eq_before]; exact hs); omega) hn

/-- The state before a field is the same on two buffers that agree up to the field. -/
theorem before_same {m : Mode} {d : Decl} (hreg : regular d = true) (hloc : localLens d.fields)
    {a b : Buf} (hsl : SliceLen a.length) {k : Nat} {sizes : List Nat}
    (hclosed : closedFields (d.fields.take k))
    (hlens : (d.before m a k).lens = sizes.map .ok)
    (h : SameBits a b (bitsSum (d.fields.take k) + 8 * sizes.sum)) :
    d.before m a k = d.before m b k :=
  run_stable (m := m) hsl (d.fields.take k) 0 [] sizes [] (regularFields_take hreg k) hclosed
    (fun f hf => hloc f (List.mem_of_mem_take hf)) hlens (by simp) h

/-- `before_same` for every prefix whose variable-length fields have lengths, from the size of the
whole packet. -/
theorem before_same_size {m : Mode} {d : Decl} (hreg : regular d = true) (hloc : localLens d.fields)
    (hnw : NoWrap m d) (hbytes : d.bits % 8 = 0) {a b : Buf} (hsl : SliceLen a.length) {n : Nat}
    (hn : d.packetSize m a = .ok n) (h : SameBits a b (8 * n)) {k : Nat} (hk : k ≤ d.fields.length)
    (hclosed : closedFields (d.fields.take k)) :
    d.before m a k = d.before m b k ∧ ∃ sizes : List Nat, (d.before m a k).lens = sizes.map .ok ∧
      bitsSum (d.fields.take k) / 8 + sizes.sum ≤ n := by
  obtain ⟨all, hall, rfl⟩ := packetSize_sum hnw hn
  rw [final_eq_before] at hall
  obtain ⟨rest, hr⟩ := lens_prefix (d := d) (m := m) (buf := a) hk (Nat.le_refl _)
  rw [hall] at hr
  obtain ⟨s, t, h1, -, rfl⟩ := map_ok_append hr
  have hle : bitsSum (d.fields.take k) ≤ d.bits := bitsSum_take_le _ _
  rw [List.sum_append] at h ⊢
  refine ⟨before_same hreg hloc hsl hclosed h1 (h.mono (by omega)), s, h1, by omega⟩

/-- Fields before an open one, and all fields when none is open. -/
theorem closedFields_upTo {d : Decl} (hreg : regular d = true) {k : Nat} {f : Field}
    (hf : d.fields[k]? = some f) (hlen : f.ty.isVec = true → f.len.isSome = true) :
    closedFields (d.fields.take (k + 1)) := by
  have hk : k < d.fields.length := (List.getElem?_eq_some_iff.mp hf).1
  have hc := closedFields_take hreg hk
  rw [List.take_add_one, hf]
  intro g hg
  simp only [Option.toList_some, List.mem_append, List.mem_singleton] at hg
  rcases hg with hg | rfl
  · exact hc g hg
  · exact hlen

section Same

variable {m : Mode} {d : Decl} (hreg : regular d = true) (hloc : localLens d.fields)
  (hnw : NoWrap m d) (hbytes : d.bits % 8 = 0) {a b : Buf} (hsl : SliceLen a.length) {n : Nat}
  (hn : d.packetSize m a = .ok n) (h : SameBits a b (8 * n))
include hreg hloc hnw hbytes hsl hn h

theorem get_sameBits {k : Nat} {f : Field} (hf : d.fields[k]? = some f)
    (hlen : f.ty.isVec = true → f.len.isSome = true) : d.get m b k = d.get m a k := by
  have hk : k < d.fields.length := (List.getElem?_eq_some_iff.mp hf).1
  have hs := (before_same_size hreg hloc hnw hbytes hsl hn h (k := k + 1) (by omega)
    (closedFields_upTo hreg hf hlen)).1
  rw [← before_get (d := d) (k := k + 1) (by omega) (by omega), ← hs,
    before_get (by omega) (by omega)]

theorem fieldLen_sameBits {k : Nat} {f : Field} (hf : d.fields[k]? = some f) {e : LenExpr}
    (he : f.len = some e) : ∃ len, fieldLen m a (d.before m a k) f = .ok len ∧
      fieldLen m b (d.before m b k) f = .ok len ∧ ∃ sizes : List Nat,
      (d.before m a k).lens = sizes.map .ok ∧ d.before m a k = d.before m b k ∧
      bitsSum (d.fields.take k) / 8 + sizes.sum + len ≤ n := by
  have hk : k < d.fields.length := (List.getElem?_eq_some_iff.mp hf).1
  obtain ⟨hs, sizes, h1, h2⟩ := before_same_size hreg hloc hnw hbytes hsl hn h (k := k) (by omega)
    (closedFields_take hreg hk)
  obtain ⟨hs', sizes', h1', h2'⟩ := before_same_size hreg hloc hnw hbytes hsl hn h (k := k + 1) (by omega)
    (closedFields_upTo hreg hf (by simp [he]))
  rw [before_lens_succ hf he, h1] at h1'
  obtain ⟨s, t, h3, h4, rfl⟩ := map_ok_append h1'.symm
  have := map_ok_inj h3
  subst this
  obtain ⟨len, rfl, h5⟩ := List.map_eq_singleton_iff.mp h4.symm
  refine ⟨len, by simp only [fieldLen, he, h5], ?_, sizes, h1, hs, ?_⟩
  · simp only [fieldLen, he]
    rw [← hs, h5, lenExpr, lenExpr]
    exact hloc f (List.mem_of_getElem? hf) e he _ _ _ _
  · have : bitsSum (d.fields.take k) ≤ bitsSum (d.fields.take (k + 1)) := by
      rw [bitsSum_take_succ hf]; omega
    simp only [List.sum_append, List.sum_cons, List.sum_nil] at h2'
    omega

theorem getRaw_sameBits {k : Nat} {f : Field} (hf : d.fields[k]? = some f) (hlen : f.len.isSome = true) :
    d.getRaw m b k = d.getRaw m a k := by
  obtain ⟨e, he⟩ := Option.isSome_iff_exists.mp hlen
  obtain ⟨len, l1, l2, sizes, h1, hs, hle⟩ := fieldLen_sameBits hreg hloc hnw hbytes hsl hn h hf he
  have ha := h.1
  have hb := h.2.1
  have hsl' := hsl
  unfold SliceLen at hsl'
  rw [(getRaw_eq hf h1 l1 (by omega)).1 (by omega),
    (getRaw_eq hf (hs ▸ h1) l2 (by omega)).1 (by omega), h.bytes (by omega)]

theorem payload_sameBits (hpay : ∀ f ∈ d.fields, f.payload = true → f.len.isSome = true) : d.payload m b = d.payload m a := by
  cases hk : d.payloadIdx with
  | none =>
    have : ∀ c, d.payload m c = .ok [] := by
      intro c
      rw [Decl.payload, Decl.payloadBounds, hk]
      dsimp only
      rw [ok_bind]
      dsimp only
      split
      · rfl
      · rw [slice, if_pos (by omega)]; rfl
    rw [this, this]
  | some k =>
    have hk' := List.findIdx?_eq_some_iff_getElem.mp hk
    obtain ⟨hlt, hp, -⟩ := hk'
    have hf : d.fields[k]? = some d.fields[k] := List.getElem?_eq_getElem hlt
    generalize d.fields[k] = f at hf hp
    obtain ⟨e, he⟩ := Option.isSome_iff_exists.mp (hpay f (List.mem_of_getElem? hf) hp)
    obtain ⟨len, l1, l2, sizes, h1, hs, hle⟩ := fieldLen_sameBits hreg hloc hnw hbytes hsl hn h hf he
    have ha := h.1
    have hsl' := hsl
    unfold SliceLen at hsl'
    rw [payload_eq hk hf h1 l1 (by omega), payload_eq hk hf (hs ▸ h1) l2 (by omega), h.bytes (by omega)]

/-- An open payload takes the bytes added. -/
theorem payload_openEnd {k : Nat} {f : Field} (hk : d.payloadIdx = some k) (hf : d.fields[k]? = some f)
    (hlen : f.len = none) (hslb : SliceLen b.length) : ∃ o, o ≤ n ∧
      d.payload m a = .ok (a.drop o) ∧ d.payload m b = .ok (b.drop o) := by
  have hkl : k < d.fields.length := (List.getElem?_eq_some_iff.mp hf).1
  obtain ⟨hs, sizes, h1, h2⟩ := before_same_size hreg hloc hnw hbytes hsl hn h (k := k) (by omega)
    (closedFields_take hreg hkl)
  have ha := h.1
  unfold SliceLen at hsl hslb
  refine ⟨_, h2, ?_, ?_⟩
  · rw [payload_eq hk hf h1 (len := a.length) (by rw [fieldLen, hlen]) (by omega),
      List.take_of_length_le (by simp)]
  · rw [payload_eq hk hf (hs ▸ h1) (len := b.length) (by rw [fieldLen, hlen]) (by omega),
      List.take_of_length_le (by simp)]

/-- The raw bytes of an open vector take the bytes added. -/
theorem getRaw_openEnd {k : Nat} {f : Field} (hf : d.fields[k]? = some f)
    (hlen : f.len = none) (hslb : SliceLen b.length) : ∃ o, o ≤ n ∧
      d.getRaw m a k = .ok (a.drop o) ∧ d.getRaw m b k = .ok (b.drop o) := by
  have hkl : k < d.fields.length := (List.getElem?_eq_some_iff.mp hf).1
  obtain ⟨hs, sizes, h1, h2⟩ := before_same_size hreg hloc hnw hbytes hsl hn h (k := k) (by omega)
    (closedFields_take hreg hkl)
  have ha := h.1
  have hb := h.2.1
  unfold SliceLen at hsl hslb
  refine ⟨_, h2, ?_, ?_⟩
  · rw [(getRaw_eq hf h1 (len := a.length) (by rw [fieldLen, hlen]) (by omega)).1 (by omega),
      List.take_of_length_le (by simp)]
  · rw [(getRaw_eq hf (hs ▸ h1) (len := b.length) (by rw [fieldLen, hlen]) (by omega)).1 (by omega),
      List.take_of_length_le (by simp)]

theorem packetSize_sameBits (hclosed : closed d = true) : d.packetSize m b = .ok n := by
  have := (before_same_size hreg hloc hnw hbytes hsl hn h (k := d.fields.length) (Nat.le_refl _)
    (by rw [List.take_length]; exact closed_fields hclosed)).1
  rw [← hn, Decl.packetSize, Decl.packetSize, final_eq_before, final_eq_before, this]

/-- The size of a packet with an open last field does not count that field. -/
theorem packetSize_openEnd {k : Nat} {f : Field} (hf : d.fields[k]? = some f)
    (hlast : k + 1 = d.fields.length) (hlen : f.len = none) : d.packetSize m b = .ok n := by
  have hs := (before_same_size hreg hloc hnw hbytes hsl hn h (k := k) (by omega)
    (closedFields_take hreg (by omega))).1
  have : ∀ c, d.final m c = (d.before m c k).step m c f := by
    intro c
    rw [final_eq_before, ← hlast, before_succ hf]
  rw [← hn, Decl.packetSize, Decl.packetSize, this, this, ← hs]
  simp only [St.step, hlen]

theorem fromPacket_sameBits (hclosed : closed d = true) : d.fromPacket m b = d.fromPacket m a := by
  rw [Decl.fromPacket, Decl.fromPacket, final_vals, final_vals]
  congr 2
  apply List.map_congr_left
  intro k hk
  have hk := List.mem_range.mp hk
  have hf : d.fields[k]? = some d.fields[k] := List.getElem?_eq_getElem hk
  exact get_sameBits hreg hloc hnw hbytes hsl hn h hf (closed_fields hclosed _ (List.getElem_mem hk))

end Same
end Verif
