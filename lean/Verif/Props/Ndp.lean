import Verif.Proofs.Ndp

/-! # C89: options of neighbour discovery messages -/

namespace Verif.Props
open Verif Spec

/-- The neighbour discovery messages, the layout of their fixed fields, and the size of these. The next
two fields are `payload` (always empty) and `options`. -/
def ndpMessages : List (Decl × List Slot × Nat) := [
  (routerSolicit, routerSolicitLayout, 8), (routerAdvert, routerAdvertLayout, 16),
  (neighborSolicit, neighborSolicitLayout, 24), (neighborAdvert, neighborAdvertLayout, 24),
  (redirect, redirectLayout, 40)]

/-- Position of the field `options`. -/
abbrev optionsIdx (L : List Slot) : Nat := L.length + 1

theorem ndpMessages_shape {e : Decl × List Slot × Nat} (he : e ∈ ndpMessages) : NdpMessage e.1 e.2.1 e.2.2 := by
  simp only [ndpMessages, List.mem_cons, List.not_mem_nil, or_false] at he
  rcases he with rfl | rfl | rfl | rfl | rfl <;>
    exact ⟨by decide +kernel, by decide +kernel, by decide +kernel, by decide, by decide, by decide, rfl, rfl, by decide⟩

/-- **C89**, `get_options_raw()`: everything after the fixed fields. -/
theorem C89_options_raw {e : Decl × List Slot × Nat} (he : e ∈ ndpMessages) (m : Mode) (buf : Buf)
    (hsl : SliceLen buf.length) (hb : e.2.2 ≤ buf.length) :
    e.1.getRaw m buf (optionsIdx e.2.1) = .ok (buf.drop e.2.2) :=
  (ndpMessages_shape he).raw m hb hsl

example : routerSolicit.getRaw .debug [133, 0, 0, 0, 0, 0, 0, 0, 1, 1, 2] 5 = .ok [1, 1, 2] :=
  C89_options_raw (e := (routerSolicit, routerSolicitLayout, 8)) (by simp [ndpMessages]) .debug _ (by decide)
    (by decide)

/-- **C89**, `get_options()` returns the options in these bytes; it panics when there is no reading. -/
theorem C89_get_options {e : Decl × List Slot × Nat} (he : e ∈ ndpMessages) (m : Mode) (buf : Buf)
    (hsl : SliceLen buf.length) (hb : e.2.2 ≤ buf.length) :
    (∀ os, NdpOptions m (buf.drop e.2.2) os →
      e.1.get m buf (optionsIdx e.2.1) = .ok (.list (os.map NdpOpt.val))) ∧
    ((∀ os, ¬ NdpOptions m (buf.drop e.2.2) os) → e.1.get m buf (optionsIdx e.2.1) = panic) := by
  rw [(ndpMessages_shape he).get m hb hsl]
  refine ⟨fun os h => ?_, fun h => ?_⟩
  · rw [ndp_collect h _ (Nat.le_refl _)]; rfl
  · rcases ndp_options_or_panic m _ (buf.drop e.2.2) (Nat.le_refl _) with ⟨os, ho⟩ | ⟨-, hp⟩
    · exact (h os ho).elim
    · rw [hp]; rfl

/-- A router solicitation with a source link-layer address option and a cut off one. -/
def solicitation : Buf := [133, 0, 0, 0, 0, 0, 0, 0, 1, 1, 2, 3, 4, 5, 6, 7, 5, 2, 9]

example : NdpOptions .debug (solicitation.drop 8) [⟨1, 1, [2, 3, 4, 5, 6, 7]⟩, ⟨5, 2, [9]⟩] :=
  .option (o := ⟨1, 1, [2, 3, 4, 5, 6, 7]⟩) ⟨fun _ => by decide, by decide⟩
    (.cut (o := ⟨5, 2, [9]⟩) (fun _ => by decide) (by decide))

example : routerSolicit.get .debug solicitation 5 =
    .ok (.list ([⟨1, 1, [2, 3, 4, 5, 6, 7]⟩, ⟨5, 2, [9]⟩].map NdpOpt.val)) := by decide +kernel

/-- C89: the options are determined by the bytes. -/
theorem C89_reading_unique (m : Mode) (bs : Buf) (os os' : List NdpOpt) (h : NdpOptions m bs os)
    (h' : NdpOptions m bs os') : os = os' := ndp_unique h h'

/-- **C89**: in release builds there always is a reading, whatever the bytes. -/
theorem C89_release_reads (bs : Buf) : ∃ os, NdpOptions .release bs os := by
  rcases ndp_options_or_panic .release _ bs (Nat.le_refl _) with h | ⟨h, -⟩
  · exact h
  · cases h

/-- **C89**: in debug builds there is no reading exactly when, after some whole options, there is one
whose length byte is 32 or more. -/
theorem C89_debug_unreadable_iff (bs : Buf) : (∀ os, ¬ NdpOptions .debug bs os) ↔
    ∃ (os : List NdpOpt) (o : NdpOpt), (∀ o ∈ os, o.whole .debug) ∧ 32 ≤ o.length.toNat ∧
      bs = os.flatMap NdpOpt.bytes ++ o.bytes := by
  constructor
  · intro h
    generalize hn : bs.length = n
    induction n using Nat.strongRecOn generalizing bs with
    | ind n ih =>
      match bs, hn with
      | [], _ => exact (h [] (.stop (by simp))).elim
      | [_], _ => exact (h [] (.stop (by simp))).elim
      | t :: l :: r, hn =>
        simp only [List.length_cons] at hn
        by_cases hl : l.toNat < 32
        · by_cases hr : r.length < NdpOpt.room l
          · exact (h _ (.cut (o := ⟨t, l, r⟩) (fun _ => hl) hr)).elim
          · have hw : NdpOpt.whole .debug ⟨t, l, r.take (NdpOpt.room l)⟩ := ⟨fun _ => hl, by simp; omega⟩
            have hsplit : t :: l :: r = (⟨t, l, r.take (NdpOpt.room l)⟩ : NdpOpt).bytes ++ r.drop (NdpOpt.room l) := by
              simp [NdpOpt.bytes]
            obtain ⟨os, o, h1, h2, h3⟩ := ih (r.drop (NdpOpt.room l)).length (by simp; omega) (r.drop (NdpOpt.room l))
              (fun os ho => h _ (by rw [hsplit]; exact .option hw ho)) rfl
            refine ⟨⟨t, l, r.take (NdpOpt.room l)⟩ :: os, o, ?_, h2, ?_⟩
            · intro o' ho'
              rcases List.mem_cons.mp ho' with rfl | ho'
              · exact hw
              · exact h1 o' ho'
            · rw [hsplit, h3, List.flatMap_cons, List.append_assoc]
        · exact ⟨[], ⟨t, l, r⟩, by simp, by simp only; omega, rfl⟩
  · rintro ⟨os, o, h1, h2, rfl⟩ os' h'
    induction os generalizing os' with
    | nil =>
      simp only [List.flatMap_nil, List.nil_append] at h'
      generalize hb : o.bytes = bs at h'
      cases h' with
      | stop h => rw [← hb, NdpOpt.bytes_length] at h; omega
      | @option o' rest os hw hr =>
        simp only [NdpOpt.bytes, List.cons_append, List.cons.injEq] at hb
        have := hw.1 rfl
        rw [← hb.2.1] at this
        omega
      | @cut o' hc hd =>
        simp only [NdpOpt.bytes, List.cons.injEq] at hb
        have := hc rfl
        rw [← hb.2.1] at this
        omega
    | cons a os ih =>
      rw [List.flatMap_cons, List.append_assoc] at h'
      have ha := h1 a (by simp)
      generalize hb : a.bytes ++ (os.flatMap NdpOpt.bytes ++ o.bytes) = bs at h'
      cases h' with
      | stop h => rw [← hb, List.length_append, NdpOpt.bytes_length] at h; omega
      | @option o' rest os'' hw hr =>
        simp only [NdpOpt.bytes, List.cons_append, List.cons.injEq] at hb
        obtain ⟨e1, e2, e3⟩ := hb
        have hlen : a.data.length = o'.data.length := by rw [ha.2, hw.2, e2]
        obtain ⟨-, e5⟩ := List.append_inj e3 hlen
        subst e5
        exact ih (fun o ho => h1 o (by simp [ho])) _ hr
      | @cut o' hc hd =>
        simp only [NdpOpt.bytes, List.cons_append, List.cons.injEq] at hb
        obtain ⟨e1, e2, e3⟩ := hb
        have e4 := congrArg List.length e3
        have := ha.2
        rw [← e2] at hd
        simp only [List.length_append] at e4
        omega

example : ∀ os, ¬ NdpOptions .debug [1, 1, 2, 3, 4, 5, 6, 7, 5, 32, 9] os :=
  (C89_debug_unreadable_iff _).mpr ⟨[⟨1, 1, [2, 3, 4, 5, 6, 7]⟩], ⟨5, 32, [9]⟩,
    by simp [NdpOpt.whole, NdpOpt.legible, NdpOpt.room], by decide, rfl⟩

/-- **C89**, `from_packet()`: the fixed fields, no payload, and the options; it panics exactly when
`get_options()` does, and so does `{:?}`. -/
theorem C89_from_packet {e : Decl × List Slot × Nat} (he : e ∈ ndpMessages) (m : Mode) (buf : Buf)
    (hsl : SliceLen buf.length) (hb : e.2.2 ≤ buf.length) :
    (∀ os, NdpOptions m (buf.drop e.2.2) os →
      e.1.fromPacket m buf = .ok (.list (e.2.1.map (·.read buf) ++ [.nums [], .list (os.map NdpOpt.val)])) ∧
      e.1.debug m buf = .ok ()) ∧
    ((∀ os, ¬ NdpOptions m (buf.drop e.2.2) os) →
      e.1.fromPacket m buf = panic ∧ e.1.debug m buf = panic) := by
  have h := ndpMessages_shape he
  obtain ⟨h1, h2⟩ := C89_get_options he m buf hsl hb
  rw [h.fromPacket m hb, h.debug m hb]
  refine ⟨fun os ho => ?_, fun hn => ?_⟩
  · rw [h1 os ho]; exact ⟨rfl, rfl⟩
  · rw [h2 hn]; exact ⟨rfl, rfl⟩

example : routerSolicit.fromPacket .debug solicitation = .ok (.list [.nums [133], .nums [0], .num 0, .num 0,
    .nums [], .list ([⟨1, 1, [2, 3, 4, 5, 6, 7]⟩, ⟨5, 2, [9]⟩].map NdpOpt.val)]) := by decide +kernel

/-- **C89**, `set_options` writes the bytes of the options after the fixed fields and changes nothing
else. The getter then returns them, followed by whatever options can be read from the bytes left over. -/
theorem C89_set_options {e : Decl × List Slot × Nat} (he : e ∈ ndpMessages) (m : Mode) (buf : Buf)
    (hsl : SliceLen buf.length) (os : List NdpOpt) (hw : ∀ o ∈ os, o.whole m)
    (hfit : e.2.2 + (os.flatMap NdpOpt.bytes).length ≤ buf.length) :
    let rest := buf.drop (e.2.2 + (os.flatMap NdpOpt.bytes).length)
    let new := buf.take e.2.2 ++ os.flatMap NdpOpt.bytes ++ rest
    e.1.set m buf (optionsIdx e.2.1) (.list (os.map NdpOpt.val)) = .ok new ∧
    ∀ left, NdpOptions m rest left →
      e.1.get m new (optionsIdx e.2.1) = .ok (.list ((os ++ left).map NdpOpt.val)) := by
  intro rest new
  refine ⟨(ndpMessages_shape he).set m hsl hw hfit, fun left hl => ?_⟩
  have hn : (buf.take e.2.2).length = e.2.2 := by rw [List.length_take]; omega
  have hlen : new.length = buf.length := by
    simp only [new, rest, List.length_append, hn, List.length_drop]; omega
  refine (C89_get_options he m new (by rw [hlen]; exact hsl) (by omega)).1 _ ?_
  simp only [new]
  rw [List.append_assoc, List.drop_left' hn]
  exact ndp_append hw hl

example : ∀ o ∈ [(⟨1, 1, [2, 3, 4, 5, 6, 7]⟩ : NdpOpt), ⟨9, 0, []⟩], o.whole .debug := by
  simp [NdpOpt.whole, NdpOpt.legible, NdpOpt.room]

/-- C89: zeroes read as options of length 0, one for every two bytes. So an option written into a longer,
zeroed message is followed by such options when read back. -/
theorem C89_padding (m : Mode) : ∀ n, NdpOptions m (List.replicate (2 * n) 0) (List.replicate n ⟨0, 0, []⟩)
  | 0 => .stop (by simp)
  | n + 1 => by
    rw [List.replicate_succ, show 2 * (n + 1) = 2 * n + 1 + 1 by omega, List.replicate_succ, List.replicate_succ]
    exact .option (o := ⟨0, 0, []⟩) ⟨fun _ => by decide, by decide⟩ (C89_padding m n)

end Verif.Props
