import Verif.Proofs.Populate
import Verif.Model.Packet
import Verif.Spec.Safety

/-! Helper lemmas about arbitrary declarations and arbitrary (hostile) buffers. -/

namespace Verif
open Spec

/-! ## Fixed-size fields -/

/-- Neither a vector nor given a `#[length]`. -/
def Field.fixed (f : Field) : Bool := !f.ty.isVec && f.len.isNone

theorem run_fixed (m : Mode) (buf : Buf) (fs : List Field) (h : fs.all Field.fixed = true) (st : St) :
    (St.run m buf st fs).bit = st.bit + bitsSum fs ∧ (St.run m buf st fs).lens = st.lens := by
  induction fs generalizing st with
  | nil => simp [St.run, bitsSum]
  | cons f fs ih =>
    simp only [List.all_cons, Bool.and_eq_true, Field.fixed, Option.isNone_iff_eq_none] at h
    obtain ⟨h1, h2⟩ := ih (by simpa [Field.fixed] using h.2) (st.step m buf f)
    have hs : St.run m buf st (f :: fs) = St.run m buf (st.step m buf f) fs := rfl
    rw [hs, h1, h2]
    simp only [St.step, h.1.2, bitsSum, List.map_cons, List.sum_cons, and_true]
    omega

theorem before_fixed {d : Decl} {k : Nat} (h : (d.fields.take k).all Field.fixed = true) (m : Mode)
    (buf : Buf) : (d.before m buf k).bit = bitsSum (d.fields.take k) ∧ (d.before m buf k).lens = [] := by
  have := run_fixed m buf (d.fields.take k) h .init
  simpa [St.init, Decl.before] using this

theorem before_bit (d : Decl) (m : Mode) (buf : Buf) (k : Nat) :
    (d.before m buf k).bit = bitsSum (d.fields.take k) := by
  have : ∀ (fs : List Field) (st : St), (St.run m buf st fs).bit = st.bit + bitsSum fs := by
    intro fs
    induction fs with
    | nil => intro st; simp [St.run, bitsSum]
    | cons f fs ih =>
      intro st
      have hs : St.run m buf st (f :: fs) = St.run m buf (st.step m buf f) fs := rfl
      rw [hs, ih]
      simp only [St.step, bitsSum, List.map_cons, List.sum_cons]
      omega
  have := this (d.fields.take k) .init
  simpa [St.init, Decl.before] using this

theorem bitsSum_take_le (fs : List Field) (k : Nat) : bitsSum (fs.take k) ≤ bitsSum fs := by
  induction fs generalizing k with
  | nil => simp
  | cons f fs ih => cases k with
    | zero => simp [bitsSum]
    | succ k => have := ih k; simp only [bitsSum, List.take_succ_cons, List.map_cons, List.sum_cons] at *; omega

theorem bitsSum_take_succ {fs : List Field} {k : Nat} {f : Field} (h : fs[k]? = some f) :
    bitsSum (fs.take (k + 1)) = bitsSum (fs.take k) + f.ty.bits := by
  obtain ⟨hk, rfl⟩ := List.getElem?_eq_some_iff.mp h
  rw [List.take_succ_eq_append_getElem hk]
  simp only [bitsSum, List.map_append, List.sum_append, List.map_cons, List.map_nil, List.sum_cons,
    List.sum_nil, Nat.add_zero]

theorem bitsSum_field_le {fs : List Field} {k : Nat} {f : Field} (h : fs[k]? = some f) :
    bitsSum (fs.take k) + f.ty.bits ≤ bitsSum fs := by
  rw [← bitsSum_take_succ h]; exact bitsSum_take_le _ _

theorem acceptedFields_get {bit : Nat} {fs : List Field} (h : acceptedFields bit fs = true) {k : Nat}
    {f : Field} (hf : fs[k]? = some f) : f.ty.accepted (bit + bitsSum (fs.take k)) = true := by
  induction fs generalizing bit k with
  | nil => simp at hf
  | cons g fs ih =>
    simp only [acceptedFields, Bool.and_eq_true] at h
    cases k with
    | zero =>
      simp only [List.getElem?_cons_zero, Option.some.injEq] at hf
      subst hf
      simpa [bitsSum] using h.1.1
    | succ k =>
      have := ih h.2 (k := k) (by simpa using hf)
      simpa [bitsSum, Nat.add_assoc] using this

/-- `bit + 8 * bytes` bits fit when the minimum size does. -/
theorem minSize_bits (d : Decl) : d.bits ≤ 8 * d.minSize ∧ 8 * d.minSize < d.bits + 8 := by
  unfold Decl.minSize
  split <;> omega

theorem accepted_fits {p : Prim} {s : Nat} (h : p.accepted s = true) : fits s p.size :=
  (operations_isSome_iff _ _ _).mp h

/-- Getters of accepted integer fields inside the buffer return, whatever the byte order. -/
theorem getPrim_ok {p : Prim} {s : Nat} (h : p.accepted s = true) (buf : Buf) (co : Nat)
    (hb : 8 * co + s + p.size ≤ 8 * buf.length) : ∃ v, getPrim p s buf co = .ok v := by
  obtain ⟨n, e⟩ := p
  have hf : fits s n := accepted_fits h
  have hnb := numBytes_bounds hf
  dsimp only at hb
  have hb' : co + numBytes s n ≤ buf.length := by omega
  have hle : ∀ e, e = .little ∨ e = .host → ∃ v, getPrim ⟨n, e⟩ s buf co = .ok v := by
    intro e he
    obtain ⟨hg, hlen⟩ := leOps_good_table s (by have := hf.1; omega) n (by have := hf.2.2.1; omega) hf
    simp only [getPrim, operations_little hf e he, getOps]
    exact get_ops (storageWidth_ge8 _) co _ hg 0 buf (by rw [hlen]; omega)
  cases e with
  | big => exact ⟨_, getPrim_big hf buf co hb'⟩
  | little => exact hle _ (.inl rfl)
  | host => exact hle _ (.inr rfl)

theorem curOff_nil (m : Mode) (bit : Nat) : curOff m bit [] = .ok (bit / 8) := rfl

theorem getArgs_ok {m : Mode} {sizes : List Nat} {buf : Buf} (args : List Prim) (bit : Nat)
    (hsl : SliceLen buf.length)
    (hacc : acceptedArgs bit args = true)
    (hb : bit + 8 * sizes.sum + (args.map (·.size)).sum ≤ 8 * buf.length) :
    ∃ vs, getArgs m (sizes.map .ok) buf bit args = .ok vs ∧ vs.length = args.length := by
  induction args generalizing bit with
  | nil => exact ⟨[], rfl, rfl⟩
  | cons p ps ih =>
    simp only [acceptedArgs, Bool.and_eq_true] at hacc
    simp only [List.map_cons, List.sum_cons] at hb
    unfold SliceLen at hsl
    have hco : curOff m bit (sizes.map .ok) = .ok (bit / 8 + sizes.sum) :=
      curOff_ok (by unfold usizeCard; omega)
    obtain ⟨v, hv⟩ := getPrim_ok hacc.1 buf (bit / 8 + sizes.sum) (by omega)
    obtain ⟨vs, hvs, hl⟩ := ih (bit + p.size) hacc.2 (by omega)
    exact ⟨v :: vs, by rw [getArgs, hco, ok_bind, hv, ok_bind, hvs, ok_bind], by simp [hl]⟩

/-- Big-endian integers of the given widths, one after the other from bit `bit` on. -/
theorem getArgs_big {m : Mode} {buf : Buf} (args : List Prim) (bit : Nat)
    (hbig : args.all (·.endian == .big) = true) (hacc : acceptedArgs bit args = true)
    (hb : bit + (args.map (·.size)).sum ≤ 8 * buf.length) :
    getArgs m [] buf bit args = .ok (decodeInts (bitsOf buf) bit (args.map (·.size))) := by
  induction args generalizing bit with
  | nil => rfl
  | cons p ps ih =>
    simp only [acceptedArgs, Bool.and_eq_true] at hacc
    simp only [List.all_cons, Bool.and_eq_true, beq_iff_eq] at hbig
    simp only [List.map_cons, List.sum_cons] at hb ⊢
    obtain ⟨n, e⟩ := p
    dsimp only at *
    have he := hbig.1
    subst he
    have hf : fits (bit % 8) n := accepted_fits hacc.1
    have hnb := numBytes_bounds hf
    rw [getArgs, curOff_nil, ok_bind, getPrim_big hf buf _ (by omega), ok_bind,
      ih (bit + n) hbig.2 hacc.2 (by omega), ok_bind, decodeInts]
    rw [show 8 * (bit / 8) + bit % 8 = bit by omega]

/-- The getter of a fixed-size field after fixed-size fields returns. -/
theorem get_fixed_ok {d : Decl} (hacc : acceptedFields 0 d.fields = true) {k : Nat} {f : Field}
    (hf : d.fields[k]? = some f) (hfix : (d.fields.take (k + 1)).all Field.fixed = true) (m : Mode)
    (buf : Buf) (hsl : SliceLen buf.length) (hmin : d.minSize ≤ buf.length) :
    ∃ v, d.get m buf k = .ok v := by
  have htake : (d.fields.take k).all Field.fixed = true ∧ f.fixed = true := by
    obtain ⟨hk, rfl⟩ := List.getElem?_eq_some_iff.mp hf
    rw [List.take_succ_eq_append_getElem hk, List.all_append, Bool.and_eq_true] at hfix
    simpa using hfix
  have hb := before_fixed htake.1 m buf
  have ha := acceptedFields_get hacc hf
  rw [Nat.zero_add] at ha
  have hle := bitsSum_field_le hf
  have hmb := minSize_bits d
  simp only [Decl.get, hf, hb.1, hb.2]
  have hbits : d.bits = bitsSum d.fields := rfl
  have hv : f.ty.isVec = false := by
    have := htake.2; simp only [Field.fixed, Bool.and_eq_true, Bool.not_eq_true'] at this; exact this.1
  cases hty : f.ty with
  | prim p =>
    rw [hty] at ha hle
    simp only [Ty.bits] at hle
    obtain ⟨v, hv⟩ := getPrim_ok (p := p) ha buf (bitsSum (d.fields.take k) / 8) (by omega)
    exact ⟨.num v, by rw [getField, curOff_nil, ok_bind, hv, ok_map]⟩
  | misc args =>
    rw [hty] at ha hle
    simp only [Ty.bits] at hle
    simp only [Ty.accepted, Bool.and_eq_true] at ha
    obtain ⟨vs, hvs, -⟩ := getArgs_ok (m := m) (sizes := []) (buf := buf) args _ hsl ha.2
      (by simp only [List.sum_nil]; omega)
    exact ⟨.nums vs, by rw [getField]; rw [List.map_nil] at hvs; rw [hvs, ok_map]⟩
  | vecPrim p => rw [hty] at hv; simp [Ty.isVec] at hv
  | vecPkt c => rw [hty] at hv; simp [Ty.isVec] at hv

/-- Value of a fixed-size big-endian field after fixed-size fields. -/
theorem get_fixed_big {d : Decl} (hacc : acceptedFields 0 d.fields = true) {k : Nat} {f : Field}
    (hf : d.fields[k]? = some f) (hfix : (d.fields.take (k + 1)).all Field.fixed = true)
    (hbig : plainTy f.ty = true) (m : Mode)
    (buf : Buf) (hb : bitsSum (d.fields.take k) + f.ty.bits ≤ 8 * buf.length) :
    d.get m buf k = .ok (decodeFixed (bitsOf buf) (bitsSum (d.fields.take k)) f.ty) := by
  have htake : (d.fields.take k).all Field.fixed = true ∧ f.fixed = true := by
    obtain ⟨hk, rfl⟩ := List.getElem?_eq_some_iff.mp hf
    rw [List.take_succ_eq_append_getElem hk, List.all_append, Bool.and_eq_true] at hfix
    simpa using hfix
  have hbf := before_fixed htake.1 m buf
  have ha := acceptedFields_get hacc hf
  rw [Nat.zero_add] at ha
  simp only [Decl.get, hf, hbf.1, hbf.2]
  have hv : f.ty.isVec = false := by
    have := htake.2; simp only [Field.fixed, Bool.and_eq_true, Bool.not_eq_true'] at this; exact this.1
  cases hty : f.ty with
  | prim p =>
    rw [hty] at ha hb hbig
    simp only [Ty.bits] at hb
    simp only [plainTy, beq_iff_eq] at hbig
    obtain ⟨n, e⟩ := p
    dsimp only at hbig hb
    subst hbig
    have hfit : fits (bitsSum (d.fields.take k) % 8) n := accepted_fits ha
    have hnb := numBytes_bounds hfit
    rw [getField, curOff_nil, ok_bind, getPrim_big hfit _ _ (by omega), ok_map, decodeFixed,
      show 8 * (bitsSum (d.fields.take k) / 8) + bitsSum (d.fields.take k) % 8
        = bitsSum (d.fields.take k) by omega]
  | misc args =>
    rw [hty] at ha hb hbig
    simp only [Ty.bits] at hb
    simp only [plainTy] at hbig
    simp only [Ty.accepted, Bool.and_eq_true] at ha
    rw [getField, getArgs_big args _ hbig ha.2 hb, ok_map, decodeFixed]
  | vecPrim p => rw [hty] at hv; simp [Ty.isVec] at hv
  | vecPkt c => rw [hty] at hv; simp [Ty.isVec] at hv

/-! ## Offsets and slices on arbitrary buffers -/

theorem foldlM_uadd_ok {m : Mode} {lens : List (Res Nat)} {a n : Nat}
    (h : lens.foldlM (fun a l => do uadd m a (← l)) a = (.ok n : Res Nat)) :
    ∃ sizes : List Nat, lens = sizes.map .ok := by
  induction lens generalizing a with
  | nil => exact ⟨[], rfl⟩
  | cons l ls ih =>
    rw [List.foldlM_cons, bind_eq_ok] at h
    obtain ⟨b, hb, h2⟩ := h
    obtain ⟨x, hx, -⟩ := bind_eq_ok.mp hb
    obtain ⟨sizes, hs⟩ := ih h2
    exact ⟨x :: sizes, by rw [hx, hs]; rfl⟩

theorem foldlM_uadd_debug {sizes : List Nat} {a n : Nat}
    (h : (sizes.map (Except.ok (ε := Fail))).foldlM (fun a l => do uadd .debug a (← l)) a = .ok n) :
    n = a + sizes.sum := by
  induction sizes generalizing a with
  | nil => simp at h; simp [h]
  | cons s ss ih =>
    rw [List.map_cons, List.foldlM_cons, bind_eq_ok] at h
    obtain ⟨b, hb, h2⟩ := h
    rw [ok_bind] at hb
    unfold uadd at hb
    split at hb
    · cases hb; have := ih h2; simp only [List.sum_cons]; omega
    · simp at hb

theorem varSlice_ok {m : Mode} {buf : Buf} {a l : Nat} (h : a + l < usizeCard) (ha : a ≤ buf.length) :
    varSlice m buf (.ok a) (.ok l) = .ok ((buf.drop a).take l) := by
  rw [varSlice, ok_bind, ok_bind, uadd_ok h, ok_bind, slice, if_pos (by omega), List.drop_take]
  congr 1
  by_cases hc : a + l ≤ buf.length
  · rw [show min (a + l) buf.length - a = l by omega]
  · rw [show min (a + l) buf.length - a = buf.length - a by omega,
      List.take_of_length_le (by simp), List.take_of_length_le (by simp; omega)]

theorem varSlice_panic {m : Mode} {buf : Buf} {a l : Nat} (h : a + l < usizeCard)
    (ha : buf.length < a) : varSlice m buf (.ok a) (.ok l) = panic := by
  rw [varSlice, ok_bind, ok_bind, uadd_ok h, ok_bind, slice, if_neg (by omega)]

/-! ## Setters of fixed-size fields -/

theorem fixed_take_succ {d : Decl} {k : Nat} {f : Field} (hf : d.fields[k]? = some f)
    (hfix : (d.fields.take (k + 1)).all Field.fixed = true) :
    (d.fields.take k).all Field.fixed = true ∧ f.fixed = true := by
  obtain ⟨hk, rfl⟩ := List.getElem?_eq_some_iff.mp hf
  rw [List.take_succ_eq_append_getElem hk, List.all_append, Bool.and_eq_true] at hfix
  simpa using hfix

/-- The setter of a fixed-size big-endian field after fixed-size fields replaces its bits. -/
theorem set_fixed_big {d : Decl} (hacc : acceptedFields 0 d.fields = true) {k : Nat} {f : Field}
    (hf : d.fields[k]? = some f) (hfix : (d.fields.take (k + 1)).all Field.fixed = true)
    (hbig : plainTy f.ty = true) (m : Mode) {w : Wire} {v : Val} (hv : typed w f.ty v)
    (buf : Buf) (hsl : SliceLen buf.length)
    (hb : bitsSum (d.fields.take k) + f.ty.bits ≤ 8 * buf.length) :
    ∃ new, d.set m buf k v = .ok new ∧ new.length = buf.length ∧
      bitsOf new = (bitsOf buf).take (bitsSum (d.fields.take k)) ++ encField w f.ty v ++
        (bitsOf buf).drop (bitsSum (d.fields.take k) + f.ty.bits) := by
  have htake := fixed_take_succ hf hfix
  have hbf := before_fixed htake.1 m buf
  have ha := acceptedFields_get hacc hf
  rw [Nat.zero_add] at ha
  have hvec : f.ty.isVec = false := by
    have := htake.2; simp only [Field.fixed, Bool.and_eq_true, Bool.not_eq_true'] at this; exact this.1
  have hsplit : bitsOf buf = (bitsOf buf).take (bitsSum (d.fields.take k)) ++
      bitSlice (bitsOf buf) (bitsSum (d.fields.take k)) f.ty.bits ++
      (bitsOf buf).drop (bitsSum (d.fields.take k) + f.ty.bits) := by
    rw [bitSlice, List.append_assoc, ← List.drop_drop, List.take_append_drop, List.take_append_drop]
  have hl1 : ((bitsOf buf).take (bitsSum (d.fields.take k))).length = bitsSum (d.fields.take k) := by
    rw [List.length_take, bitsOf_length]; omega
  have hl2 : (bitSlice (bitsOf buf) (bitsSum (d.fields.take k)) f.ty.bits).length = f.ty.bits := by
    rw [bitSlice, List.length_take, List.length_drop, bitsOf_length]; omega
  rw [Decl.set, hf]
  dsimp only
  rw [hbf.1, hbf.2]
  generalize (bitsOf buf).take (bitsSum (d.fields.take k)) = pre at *
  generalize bitSlice (bitsOf buf) (bitsSum (d.fields.take k)) f.ty.bits = old at *
  generalize (bitsOf buf).drop (bitsSum (d.fields.take k) + f.ty.bits) = post at *
  cases hty : f.ty with
  | prim p =>
    rw [hty] at ha hl2 hbig hv
    cases v <;> simp only [typed] at hv
    rename_i n
    simp only [plainTy, beq_iff_eq] at hbig
    simp only [Ty.bits] at hl2
    dsimp only
    rw [curOff_nil, ok_bind]
    exact setPrim_enc hbig ha n hsplit (by omega) hl2
  | misc args =>
    rw [hty] at ha hl2 hbig hv
    cases v <;> simp only [typed] at hv
    rename_i ns
    simp only [plainTy] at hbig
    simp only [Ty.accepted, Bool.and_eq_true] at ha
    simp only [Ty.bits] at hl2
    dsimp only
    rw [if_pos hv]
    have := setArgs_enc (m := m) (lensOf := fun b => (d.before m b k).lens) (sizes := []) (pre0 := pre) (n := buf.length) hsl
      (fun b _ _ _ => (before_fixed htake.1 m b).2) args ns hv hbig _ ha.2 buf rfl
      (done := []) (old := old) (post := post) (by simpa using hsplit)
      (by simp only [List.append_nil, List.sum_nil]; omega) hl2
    simpa [encField] using this
  | vecPrim p => rw [hty] at hvec; simp [Ty.isVec] at hvec
  | vecPkt c => rw [hty] at hvec; simp [Ty.isVec] at hvec

/-! ## Iteration -/

theorem sliceFrom_min {buf : Buf} (n : Nat) : sliceFrom buf (min n buf.length) = .ok (buf.drop n) := by
  rw [sliceFrom, if_pos (Nat.min_le_right _ _)]
  congr 1
  by_cases h : n ≤ buf.length
  · rw [Nat.min_eq_left h]
  · rw [Nat.min_eq_right (by omega), List.drop_length, List.drop_eq_nil_of_le (by omega)]

/-- What one step of an iterator does. -/
theorem next_eq (c : Codec) (m : Mode) (buf : Buf) : c.next m buf =
    if buf.length > 0 ∧ c.minSize ≤ buf.length then
      (fun n => some (buf, buf.drop n)) <$> c.packetSize m buf
    else .ok none := by
  rw [Codec.next]
  split
  · cases c.packetSize m buf with
    | error e => rfl
    | ok n => rw [ok_bind, sliceFrom_min, ok_bind, ok_map]
  · rfl

theorem items_not_hang {c : Codec} {m : Mode} (hp : c.positive m)
    (hsz : ∀ buf, c.packetSize m buf ≠ .error .hang) (fuel : Nat) (buf : Buf) :
    c.items m fuel buf ≠ .error .hang := by
  induction fuel generalizing buf with
  | zero => simp [Codec.items]
  | succ fuel ih =>
    rw [Codec.items, next_eq]
    split
    · rename_i hc
      cases hn : c.packetSize m buf with
      | error e =>
        have := hsz buf
        rw [hn] at this
        simpa using this
      | ok n =>
        have h0 := hp buf n hn
        simp only [ok_map, ok_bind]
        rw [if_pos (by rw [List.length_drop]; omega)]
        have := ih (buf.drop n)
        cases hi : c.items m fuel (buf.drop n) with
        | error e => rw [hi] at this; simpa using this
        | ok l => simp
    · simp

theorem items_length {c : Codec} {m : Mode} (fuel : Nat) (buf : Buf) (ps : List Buf)
    (h : c.items m fuel buf = .ok ps) : ps.length ≤ buf.length := by
  induction fuel generalizing buf ps with
  | zero => simp [Codec.items] at h; subst h; simp
  | succ fuel ih =>
    rw [Codec.items, next_eq] at h
    split at h
    · cases hn : c.packetSize m buf with
      | error e => rw [hn] at h; simp at h
      | ok n =>
        rw [hn] at h
        simp only [ok_map, ok_bind] at h
        split at h
        · rename_i hlt
          rw [bind_eq_ok] at h
          obtain ⟨l, hl, he⟩ := h
          cases he
          have := ih _ _ hl
          simp only [List.length_cons]; omega
        · simp at h
    · simp only [ok_bind, Except.ok.injEq] at h; subst h; simp

/-- More fuel than bytes makes no difference. -/
theorem items_fuel {c : Codec} {m : Mode} (fuel : Nat) (buf : Buf) (h : buf.length ≤ fuel) :
    c.items m fuel buf = c.items m buf.length buf := by
  induction fuel using Nat.strongRecOn generalizing buf with
  | ind fuel ih =>
    cases fuel with
    | zero => rw [Nat.le_zero.mp h]
    | succ fuel =>
      cases hb : buf.length with
      | zero => simp only [Codec.items]; rw [next_eq, if_neg (by omega)]; rfl
      | succ n =>
        rw [Codec.items, Codec.items]
        cases hnx : c.next m buf with
        | error e => rfl
        | ok o =>
          cases o with
          | none => rfl
          | some pr =>
            obtain ⟨p, rest⟩ := pr
            simp only [ok_bind]
            split
            · rename_i hlt
              rw [ih fuel (by omega) rest (by omega), ← ih n (by omega) rest (by omega)]
            · rfl

/-! ## `payload()` and raw getters, from the values of the length expressions -/

theorem payload_eq {d : Decl} {m : Mode} {buf : Buf} {k : Nat} {f : Field}
    (hk : d.payloadIdx = some k) (hf : d.fields[k]? = some f) {sizes : List Nat} {len : Nat}
    (hsizes : (d.before m buf k).lens = sizes.map .ok)
    (hlen : fieldLen m buf (d.before m buf k) f = .ok len)
    (hov : bitsSum (d.fields.take k) / 8 + sizes.sum + len < 2 ^ 64) :
    d.payload m buf =
      .ok ((buf.drop (bitsSum (d.fields.take k) / 8 + sizes.sum)).take len) := by
  have hco : curOff m (d.before m buf k).bit (d.before m buf k).lens =
      .ok (bitsSum (d.fields.take k) / 8 + sizes.sum) := by
    rw [before_bit, hsizes]; exact curOff_ok (by unfold usizeCard; omega)
  generalize ha : bitsSum (d.fields.take k) / 8 + sizes.sum = a at *
  have key : ∀ b, b = min (a + len) buf.length →
      (if buf.length ≤ a then (.ok [] : Res Buf) else slice buf a b) =
        .ok ((buf.drop a).take len) := by
    rintro b rfl
    split
    · rw [List.drop_eq_nil_of_le (by omega), List.take_nil]
    · have := varSlice_ok (m := m) (buf := buf) (a := a) (l := len) hov (by omega)
      rwa [varSlice, ok_bind, ok_bind, uadd_ok hov, ok_bind] at this
  rw [Decl.payload, Decl.payloadBounds, hk]
  dsimp only
  rw [hf]
  dsimp only
  rw [hco, ok_bind]
  cases he : f.len with
  | none =>
    rw [fieldLen, he] at hlen
    cases hlen
    dsimp only
    rw [ok_bind]
    exact key _ (by omega)
  | some e =>
    rw [fieldLen, he] at hlen
    dsimp only at hlen ⊢
    rw [hlen, ok_bind, uadd_ok hov, ok_bind, ok_bind]
    exact key _ rfl

theorem getRaw_eq {d : Decl} {m : Mode} {buf : Buf} {k : Nat} {f : Field}
    (hf : d.fields[k]? = some f) {sizes : List Nat} {len : Nat}
    (hsizes : (d.before m buf k).lens = sizes.map .ok)
    (hlen : fieldLen m buf (d.before m buf k) f = .ok len)
    (hov : bitsSum (d.fields.take k) / 8 + sizes.sum + len < 2 ^ 64) :
    (bitsSum (d.fields.take k) / 8 + sizes.sum ≤ buf.length → d.getRaw m buf k =
      .ok ((buf.drop (bitsSum (d.fields.take k) / 8 + sizes.sum)).take len)) ∧
    (buf.length < bitsSum (d.fields.take k) / 8 + sizes.sum → d.getRaw m buf k = panic) := by
  have hco : curOff m (d.before m buf k).bit (d.before m buf k).lens =
      .ok (bitsSum (d.fields.take k) / 8 + sizes.sum) := by
    rw [before_bit, hsizes]; exact curOff_ok (by unfold usizeCard; omega)
  simp only [Decl.getRaw, hf, hlen, hco]
  exact ⟨fun h => varSlice_ok hov h, fun h => varSlice_panic hov h⟩

end Verif
