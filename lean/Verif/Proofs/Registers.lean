import Verif.Spec.Registers
import Verif.Props.Vectors
import Verif.Props.WriteBack
import Verif.Proofs.Short
import Verif.Props.Fits

/-! Sequences of writes to a packet. -/

namespace Verif
open Spec Props

theorem bitsSum_fixed_part {fs : List Field} (h : vecsLast fs = true) {k : Nat} {f : Field}
    (hf : fs[k]? = some f) (hvec : f.ty.isVec = true) : bitsSum (fs.take k) = bitsSum fs := by
  induction fs generalizing k with
  | nil => simp at hf
  | cons g fs ih =>
    have hz : ∀ l : List Field, l.all (·.ty.isVec) = true → bitsSum l = 0 := by
      intro l
      induction l with
      | nil => intro _; rfl
      | cons a l ih =>
        intro h
        simp only [List.all_cons, Bool.and_eq_true] at h
        have := ih h.2
        have := isVec_bits h.1
        simp_all [bitsSum]
    simp only [vecsLast] at h
    cases hg : g.ty.isVec with
    | true =>
      rw [hg, if_pos rfl] at h
      rw [hz (g :: fs) (by simp [hg, h])]
      have := bitsSum_take_le (g :: fs) k
      rw [hz (g :: fs) (by simp [hg, h])] at this
      omega
    | false =>
      rw [hg, if_neg (by decide)] at h
      cases k with
      | zero =>
        simp only [List.getElem?_cons_zero, Option.some.injEq] at hf
        subst hf
        rw [hg] at hvec; cases hvec
      | succ k =>
        simp only [List.getElem?_cons_succ] at hf
        have := ih h hf
        simp only [bitsSum, List.take_succ_cons, List.map_cons, List.sum_cons] at this ⊢
        omega

theorem fixed_before {d : Decl} (hreg : regular d = true) (hlast : vecsLast d.fields = true) {k : Nat}
    {f : Field} (hf : d.fields[k]? = some f) (hvec : f.ty.isVec = false) :
    (d.fields.take (k + 1)).all isFixed = true := by
  have h := vecsLast_before hlast hf hvec
  rw [List.all_eq_true] at h ⊢
  intro g hg
  have h1 := h g hg
  obtain ⟨j, hj⟩ := List.getElem?_of_mem (List.mem_of_mem_take hg)
  have hr := regularFields_drop hreg j
  rw [drop_of_getElem? hj] at hr
  simp only [regularFields, Bool.and_eq_true] at hr
  simp only [Bool.not_eq_true'] at h1
  have := hr.1.2
  rw [h1, if_neg (by decide)] at this
  simp [isFixed, h1, this]

/-- A setter that returns got a value of the right type. -/
theorem set_typed {d : Decl} {m : Mode} {buf new : Buf} {k : Nat} {f : Field} {v : Val}
    (hf : d.fields[k]? = some f) (hvec : f.ty.isVec = false) (h : d.set m buf k v = .ok new)
    (w : Wire) : typed w f.ty v := by
  rw [Decl.set, hf] at h
  dsimp only at h
  cases hty : f.ty with
  | prim p => rw [hty] at h; cases v <;> simp at h; simp [typed]
  | misc args =>
    rw [hty] at h
    cases v <;> simp only [panic, reduceCtorEq] at h
    split at h
    · assumption
    · cases h
  | vecPrim p => rw [hty] at hvec; cases hvec
  | vecPkt c => rw [hty] at hvec; cases hvec

/-- What a declaration needs for its fixed fields to behave as registers. -/
structure Recordlike (d : Decl) : Prop where
  good : GoodDecl d
  last : vecsLast d.fields = true

theorem newPacket_isSome {d : Decl} {buf : Buf} : (d.newPacket buf).isSome = true ↔ d.minSize ≤ buf.length := by
  unfold Decl.newPacket
  split <;> simp_all

theorem bitSlice_take (l : List Bool) {s n B : Nat} (h : s + n ≤ B) :
    bitSlice (l.take B) s n = bitSlice l s n := by
  unfold bitSlice
  rw [List.drop_take, List.take_take, Nat.min_eq_left (by omega)]

theorem decodeInts_take (l : List Bool) (ns : List Nat) {s B : Nat} (h : s + ns.sum ≤ B) :
    decodeInts (l.take B) s ns = decodeInts l s ns := by
  induction ns generalizing s with
  | nil => rfl
  | cons n ns ih =>
    rw [List.sum_cons] at h
    rw [decodeInts, decodeInts, bitSlice_take l (by omega), ih (by omega)]

theorem decodeFixed_take (l : List Bool) {s B : Nat} {ty : Ty} (h : s + ty.bits ≤ B) :
    decodeFixed (l.take B) s ty = decodeFixed l s ty := by
  cases ty with
  | prim p => rw [decodeFixed, decodeFixed, bitSlice_take l (by simpa [Ty.bits] using h)]
  | misc args => rw [decodeFixed, decodeFixed, decodeInts_take l _ (by simpa [Ty.bits] using h)]
  | vecPrim p => rfl
  | vecPkt c => rfl

/-- The getter of a fixed field depends on the header only. -/
theorem get_header {d : Decl} (h : Recordlike d) {m : Mode} {buf new : Buf} {k : Nat} {f : Field}
    (hf : d.fields[k]? = some f) (hvec : f.ty.isVec = false) (hnew : d.minSize ≤ buf.length)
    (hlen : new.length = buf.length) (hbits : (bitsOf new).take d.bits = (bitsOf buf).take d.bits) :
    d.get m new k = d.get m buf k := by
  have hfix := fixed_before h.good.reg h.last hf hvec
  have hb : d.bits = bitsSum d.fields := rfl
  have hm : bitsSum d.fields ≤ 8 * buf.length := by
    unfold Decl.minSize at hnew
    split at hnew <;> omega
  have hle := bitsSum_field_le hf
  have ha := accepted_fields h.good.acc
  have hpl := regular_plain h.good.reg f (List.mem_of_getElem? hf)
  rw [get_fixed_big ha hf hfix hpl m new (by omega), get_fixed_big ha hf hfix hpl m buf (by omega)]
  have key : ∀ b : Buf, decodeFixed (bitsOf b) (bitsSum (d.fields.take k)) f.ty =
      decodeFixed ((bitsOf b).take d.bits) (bitsSum (d.fields.take k)) f.ty := by
    intro b
    exact (decodeFixed_take _ (by omega)).symm
  rw [key new, key buf, hbits]

/-- Setting a vector keeps the header. -/
theorem set_vec_header {d : Decl} (h : Recordlike d) {m : Mode} {buf new : Buf} {k : Nat} {f : Field}
    {v : Val} (hf : d.fields[k]? = some f) (hvec : f.ty.isVec = true) (hsl : SliceLen buf.length)
    (hset : d.set m buf k v = .ok new) :
    new.length = buf.length ∧ (bitsOf new).take d.bits = (bitsOf buf).take d.bits := by
  have hg := h.good
  obtain ⟨sizes, sz, -, -, -, h4⟩ :=
    set_within hg.reg hg.local (hg.noWrap m) (hg.confined m) hsl hf hset
  rw [bitsSum_fixed_part h.last hf hvec] at h4
  exact ⟨h4.1, (h4.mono (P' := d.bits) (Nat.le_add_right _ _) (Nat.le_refl _)).2.1⟩

/-- Writing the payload keeps the header. -/
theorem payload_header {d : Decl} (h : Recordlike d) (hvecs : ∀ f ∈ d.fields, f.payload = true → f.ty.isVec = true)
    {m : Mode} {buf new bytes : Buf} (hset : d.payloadMutCopy m buf bytes = .ok new) :
    new.length = buf.length ∧ (bitsOf new).take d.bits = (bitsOf buf).take d.bits := by
  have hg := h.good
  unfold Decl.payloadMutCopy at hset
  obtain ⟨⟨a, b⟩, hab, hset⟩ := bind_eq_ok.mp hset
  dsimp only at hset
  by_cases ha : buf.length ≤ a
  · rw [if_pos ha] at hset
    split at hset
    · cases hset; exact ⟨rfl, rfl⟩
    · cases hset
  · rw [if_neg ha] at hset
    obtain ⟨old, hold, hset⟩ := bind_eq_ok.mp hset
    by_cases hsame : bytes.length = old.length
    · rw [if_pos hsame] at hset
      have hge : bytes = [] ∨ d.bits ≤ 8 * a := by
        unfold Decl.payloadBounds at hab
        split at hab
        · cases hab
          left
          unfold slice at hold
          split at hold
          · cases hold
            simpa using hsame
          · cases hold
        · rename_i k hk
          dsimp only at hab
          split at hab
          · cases hab
          · rename_i f hf
            obtain ⟨lower, hlow, hab⟩ := bind_eq_ok.mp hab
            have hpay : f.payload = true := by
              unfold Decl.payloadIdx at hk
              obtain ⟨hk1, hk2, -⟩ := List.findIdx?_eq_some_iff_getElem.mp hk
              rw [List.getElem?_eq_getElem hk1] at hf
              cases hf
              exact hk2
            have hvec := hvecs f (List.mem_of_getElem? hf) hpay
            have hbit := bitsSum_fixed_part h.last hf hvec
            have hlo : a = lower := by
              split at hab
              · cases hab; rfl
              · obtain ⟨n, -, hab⟩ := bind_eq_ok.mp hab
                obtain ⟨u, -, hab⟩ := bind_eq_ok.mp hab
                cases hab; rfl
            subst hlo
            right
            obtain ⟨sizes, hs⟩ := foldlM_uadd_ok hlow
            have hsm := hg.lens_small m buf k sizes hs
            have hco : curOff m (d.before m buf k).bit (d.before m buf k).lens =
                .ok (bitsSum (d.fields.take k) / 8 + sizes.sum) := by
              rw [before_bit, hs]
              have hb : d.bits = bitsSum d.fields := rfl
              exact curOff_ok (by unfold usizeCard; omega)
            rw [hco] at hlow
            cases hlow
            have hb : d.bits = bitsSum d.fields := rfl
            have := hg.bytes
            omega
      rcases hge with rfl | hge
      · unfold copyInto at hset
        split at hset
        · cases hset
          simp
        · cases hset
      · obtain ⟨h1, h2, h3, h4, h5⟩ := copyInto_inv hset
        refine ⟨h2, ?_⟩
        have : (bitsOf new).take (8 * a) = (bitsOf buf).take (8 * a) := by
          rw [← bitsOf_take, ← bitsOf_take, h3]
        rw [← Nat.min_eq_left hge, ← List.take_take, this, List.take_take]
    · rw [if_neg hsame] at hset
      cases hset

theorem crate_recordlike (d : Decl) (hd : d ∈ crateDecls) : Recordlike d :=
  ⟨crateDecls_good d hd, by
    have := List.all_eq_true.mp C92_crate d hd
    simp only [Bool.and_eq_true] at this
    exact this.2⟩

theorem crate_payload_vec : crateDecls.all (fun d => d.fields.all fun f => !f.payload || f.ty.isVec) = true := by
  decide +kernel

theorem lastWrite_cons (k : Nat) (c : Write) (ws : List Write) : lastWrite k (c :: ws) =
    (lastWrite k ws).or (match c with | .set j v => if j = k then some v else none | _ => none) := rfl

/-- One call. -/
theorem write_step (d : Decl) (hd : d ∈ crateDecls) (m : Mode) (w : Wire) (c : Write) (buf new : Buf)
    (hsl : SliceLen buf.length) (hnew : d.minSize ≤ buf.length) (h : c.run d m buf = .ok new) :
    new.length = buf.length ∧ ∀ k f, d.fields[k]? = some f → f.ty.isVec = false →
      d.get m new k = match c with
        | .set j v => if j = k then .ok (normField w f.ty v) else d.get m buf k
        | .payload _ => d.get m buf k := by
  have hr := crate_recordlike d hd
  have hpv : ∀ f ∈ d.fields, f.payload = true → f.ty.isVec = true := by
    have := List.all_eq_true.mp (List.all_eq_true.mp crate_payload_vec d hd)
    intro f hf hp
    have := this f hf
    rw [hp] at this
    simpa using this
  have hn := newPacket_isSome.mpr hnew
  cases c with
  | payload bytes =>
    have h1 := payload_header hr hpv h
    exact ⟨h1.1, fun k f hf hvec => get_header hr hf hvec hnew h1.1 h1.2⟩
  | set j v =>
    have h : d.set m buf j v = .ok new := h
    cases hg : d.fields[j]? with
    | none => rw [Decl.set, hg] at h; cases h
    | some g =>
      cases hgv : g.ty.isVec with
      | true =>
        have h1 := set_vec_header hr hg hgv hsl h
        refine ⟨h1.1, fun k f hf hvec => ?_⟩
        have hne : j ≠ k := by
          rintro rfl
          rw [hg] at hf; cases hf
          rw [hgv] at hvec; cases hvec
        dsimp only
        rw [if_neg hne]
        exact get_header hr hf hvec hnew h1.1 h1.2
      | false =>
        have hty := set_typed hg hgv h w
        have hfixj := fixed_before hr.good.reg hr.last hg hgv
        have hpj := regular_plain hr.good.reg g (List.mem_of_getElem? hg)
        obtain ⟨new', h1, h2, -⟩ := C03_declared_setter d hr.good.acc j g hg hfixj hpj m w v hty buf hsl hn
        rw [h] at h1
        cases h1
        refine ⟨h2, fun k f hf hvec => ?_⟩
        dsimp only
        by_cases hjk : j = k
        · subst hjk
          rw [hg] at hf; cases hf
          rw [if_pos rfl]
          obtain ⟨new', h3, h4⟩ := C02_declared_set_then_get d hr.good.acc j g hg hfixj hpj m w v hty buf hsl hn
          rw [h] at h3
          cases h3
          exact h4
        · rw [if_neg hjk]
          have hfixk := fixed_before hr.good.reg hr.last hf hvec
          have hpk := regular_plain hr.good.reg f (List.mem_of_getElem? hf)
          obtain ⟨new', h3, h4⟩ := C54_declared_other_getter d hr.good.acc j k hjk g f hg hf hfixj hfixk
            hpj hpk m w v hty buf hsl hn
          rw [h] at h3
          cases h3
          exact h4

end Verif
