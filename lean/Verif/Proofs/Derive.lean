import Verif.Spec.Encode
import Verif.Proofs.LittleEndian

/-! Helper lemmas about generated packet code: positions, reading an encoding, writing it. -/

namespace Verif
open Spec

/-! ## Offsets -/

theorem uadd_ok {m : Mode} {a b : Nat} (h : a + b < usizeCard) : uadd m a b = .ok (a + b) := by
  unfold uadd; rw [if_pos h]

theorem foldlM_uadd (m : Mode) (sizes : List Nat) (a : Nat) (h : a + sizes.sum < usizeCard) :
    (sizes.map (Except.ok (ε := Fail))).foldlM (fun a l => do uadd m a (← l)) a
      = (.ok (a + sizes.sum) : Res Nat) := by
  induction sizes generalizing a with
  | nil => simp
  | cons s ss ih =>
    simp only [List.sum_cons] at h ⊢
    simp only [List.map_cons, List.foldlM_cons, ok_bind]
    rw [uadd_ok (by omega), ok_bind, ih (a + s) (by omega), Nat.add_assoc]

theorem curOff_ok {m : Mode} {bit : Nat} {sizes : List Nat}
    (h : bit / 8 + sizes.sum < usizeCard) :
    curOff m bit (sizes.map .ok) = .ok (bit / 8 + sizes.sum) :=
  foldlM_uadd m sizes (bit / 8) h

/-! ## Bits and bytes -/

theorem buf_split {buf : Buf} {pre mid post : List Bool} (h : bitsOf buf = pre ++ mid ++ post)
    {a b : Nat} (ha : pre.length = 8 * a) (hb : mid.length = 8 * b) :
    bitsOf (buf.take a) = pre ∧ bitsOf ((buf.drop a).take b) = mid ∧
      bitsOf (buf.drop (a + b)) = post ∧ a + b ≤ buf.length := by
  have hl := congrArg List.length h
  simp only [bitsOf_length, List.length_append] at hl
  refine ⟨?_, ?_, ?_, by omega⟩
  · rw [bitsOf_take, h, ← ha, List.append_assoc, List.take_left]
  · rw [bitsOf_take, bitsOf_drop, h, ← ha, List.append_assoc, List.drop_left, ← hb, List.take_left]
  · rw [bitsOf_drop, h]
    have : 8 * (a + b) = (pre ++ mid).length := by simp; omega
    rw [this, List.drop_left]

theorem slice_mid {buf : Buf} {pre post : List Bool} {packet : Buf}
    (h : bitsOf buf = pre ++ bitsOf packet ++ post) {a : Nat} (ha : pre.length = 8 * a) :
    slice buf a (a + packet.length) = .ok packet := by
  obtain ⟨-, h2, -, h4⟩ := buf_split h ha (by rw [bitsOf_length])
  rw [slice, if_pos ⟨by omega, h4⟩, List.drop_take]
  congr 1
  rw [show a + packet.length - a = packet.length by omega]
  exact bitsOf_inj h2

theorem bitSlice_of_append {l pre mid post : List Bool} (h : l = pre ++ mid ++ post) {s n : Nat}
    (hs : pre.length = s) (hn : mid.length = n) : bitSlice l s n = mid := by
  subst h hs hn
  rw [bitSlice, List.append_assoc, List.drop_left, List.take_left]

theorem flatMap_toBits8 (vs : List Nat) :
    vs.flatMap (toBits 8) = bitsOf (vs.map UInt8.ofNat) := by
  induction vs with
  | nil => rfl
  | cons v vs ih =>
    simp only [List.flatMap_cons, List.map_cons, bitsOf_cons, ih]
    congr 1
    rw [byteBits_eq_toBits, UInt8.toNat_ofNat', toBits_mod]

/-! ## Reading integers -/

/-- Getter of an accepted big-endian field whose bits are `toBits n v`. -/
theorem getPrim_enc {p : Prim} (hp : p.endian = .big) {bit : Nat}
    (hacc : p.accepted (bit % 8) = true) {buf : Buf} {pre post : List Bool} {v : Nat}
    (h : bitsOf buf = pre ++ toBits p.size v ++ post) {co : Nat}
    (hpre : pre.length = 8 * co + bit % 8) :
    getPrim p (bit % 8) buf co = .ok (v % 2 ^ p.size) := by
  obtain ⟨n, e⟩ := p
  dsimp only at hp h ⊢
  subst hp
  have hf : fits (bit % 8) n := (operations_isSome_iff _ _ _).mp hacc
  have hl := congrArg List.length h
  simp only [bitsOf_length, List.length_append, toBits_length] at hl
  have hnb := numBytes_bounds hf
  rw [getPrim_big hf buf co (by omega), bitSlice_of_append h hpre (toBits_length _ _),
    ofBits_toBits]

theorem setPrim_enc {p : Prim} (hp : p.endian = .big) {bit : Nat}
    (hacc : p.accepted (bit % 8) = true) {buf : Buf} {pre old post : List Bool} (v : Nat)
    (h : bitsOf buf = pre ++ old ++ post) {co : Nat}
    (hpre : pre.length = 8 * co + bit % 8) (hold : old.length = p.size) :
    ∃ new, setPrim p (bit % 8) buf co v = .ok new ∧ new.length = buf.length ∧
      bitsOf new = pre ++ toBits p.size v ++ post := by
  obtain ⟨n, e⟩ := p
  dsimp only at hp hold ⊢
  subst hp
  have hf : fits (bit % 8) n := (operations_isSome_iff _ _ _).mp hacc
  have hl := congrArg List.length h
  simp only [bitsOf_length, List.length_append] at hl
  have hnb := numBytes_bounds hf
  obtain ⟨new, h1, h2, h3⟩ := setPrim_big hf buf co v (by omega)
  refine ⟨new, h1, h2, ?_⟩
  rw [h3, h, ← hpre]
  congr 1
  · rw [List.append_assoc, List.take_left]
  · rw [show pre.length + n = (pre ++ old).length by simp [hold], List.drop_left]

/-- The bits of the arguments of a `construct_with` field. -/
abbrev encArgs (args : List Prim) (vs : List Nat) : List Bool :=
  (List.zipWith (fun p v => toBits p.size v) args vs).flatten

theorem encArgs_length {args : List Prim} {vs : List Nat} (h : vs.length = args.length) :
    (encArgs args vs).length = (args.map (·.size)).sum := by
  induction args generalizing vs with
  | nil => simp [encArgs]
  | cons p ps ih =>
    cases vs with
    | nil => simp at h
    | cons v vs =>
      have := ih (vs := vs) (by simpa using h)
      simp only [encArgs, List.zipWith_cons_cons, List.flatten_cons, List.length_append,
        toBits_length, List.map_cons, List.sum_cons] at this ⊢
      omega

theorem getArgs_enc {m : Mode} {sizes : List Nat} {buf : Buf} (hsl : SliceLen buf.length)
    (args : List Prim) (vs : List Nat) (hlen : vs.length = args.length)
    (hbig : args.all (·.endian == .big) = true) (bit : Nat)
    (hacc : acceptedArgs bit args = true) {pre post : List Bool}
    (h : bitsOf buf = pre ++ encArgs args vs ++ post)
    (hpre : pre.length = bit + 8 * sizes.sum) :
    getArgs m (sizes.map .ok) buf bit args =
      .ok (List.zipWith (fun p v => v % 2 ^ p.size) args vs) := by
  induction args generalizing vs bit pre with
  | nil => simp [getArgs]
  | cons p ps ih =>
    cases vs with
    | nil => simp at hlen
    | cons v vs =>
      simp only [List.all_cons, Bool.and_eq_true, beq_iff_eq] at hbig
      simp only [acceptedArgs, Bool.and_eq_true] at hacc
      simp only [encArgs, List.zipWith_cons_cons, List.flatten_cons] at h
      have hl := congrArg List.length h
      simp only [bitsOf_length, List.length_append, toBits_length] at hl
      have hsl' := hsl
      unfold SliceLen at hsl'
      have hco : curOff m bit (sizes.map .ok) = .ok (bit / 8 + sizes.sum) :=
        curOff_ok (by unfold usizeCard; omega)
      rw [getArgs, hco, ok_bind,
        getPrim_enc hbig.1 hacc.1 (v := v) (pre := pre) (post := encArgs ps vs ++ post)
          (by rw [h]; simp only [List.append_assoc]) (by omega), ok_bind,
        ih vs (by simpa using hlen) hbig.2 (bit + p.size) hacc.2 (pre := pre ++ toBits p.size v)
          (by rw [h]; simp only [List.append_assoc]) (by simp; omega), ok_bind]
      simp

/-! ## Reading vectors -/

theorem getPrim_u8 {buf : Buf} {co : Nat} (h : co < buf.length) :
    getPrim ⟨8, .big⟩ 0 buf co = .ok (buf[co].toNat) := by
  have hf : fits 0 8 := by decide
  have hn : numBytes 0 8 = 1 := by decide
  rw [getPrim_big hf buf co (by omega)]
  congr 1
  have hb : bitSlice (bitsOf buf) (8 * co + 0) 8 = byteBits buf[co] := by
    apply bitSlice_of_append (pre := bitsOf (buf.take co)) (post := bitsOf (buf.drop (co + 1)))
    · have : buf = buf.take co ++ [buf[co]] ++ buf.drop (co + 1) := by
        rw [List.append_assoc, List.singleton_append, ← List.drop_eq_getElem_cons h,
          List.take_append_drop]
      refine (congrArg bitsOf this).trans ?_
      simp only [bitsOf_append, bitsOf_cons, bitsOf_nil, List.append_nil]
    · rw [bitsOf_length, List.length_take]; omega
    · simp
  rw [hb, ofBits_byteBits]

theorem getElems_u8 (packet : Buf) (n co : Nat) (h : co + n = packet.length) (e : Endianness) :
    getElems ⟨8, e⟩ packet n co = .ok ((packet.drop co).map (·.toNat)) := by
  induction n generalizing co with
  | zero =>
    rw [getElems, List.drop_eq_nil_of_le (by omega)]; rfl
  | succ n ih =>
    rw [getElems, getPrim_u8 (by omega), ok_bind, ih (co + 8 / 8) (by omega), ok_bind,
      List.drop_eq_getElem_cons (i := co) (by omega)]
    rfl

theorem drop_append_left {α : Type} (a b : List α) : (a ++ b).drop a.length = b := List.drop_left ..

theorem collect_enc {m : Mode} {c : Codec} {w : Wire} (hc : Lawful m c w) (vs : List Val)
    (hv : ∀ v ∈ vs, w.valid v) (fuel : Nat) (hf : vs.length ≤ fuel)
    (hs : SliceLen (vs.flatMap w.enc).length) :
    c.collect m fuel (vs.flatMap w.enc) = .ok (vs.map w.norm) := by
  induction vs generalizing fuel with
  | nil =>
    cases fuel with
    | zero => rfl
    | succ n => simp [Codec.collect, Codec.next]
  | cons v vs ih =>
    cases fuel with
    | zero => simp at hf
    | succ n =>
      have hval := hv v (by simp)
      have hp := hc.pos v hval
      have hmin := hc.min v hval
      simp only [List.flatMap_cons] at hs ⊢
      have hlen : (w.enc v ++ vs.flatMap w.enc).length =
          (w.enc v).length + (vs.flatMap w.enc).length := List.length_append
      have hnext : c.next m (w.enc v ++ vs.flatMap w.enc) =
          .ok (some (w.enc v ++ vs.flatMap w.enc, vs.flatMap w.enc)) := by
        rw [Codec.next, if_pos ⟨by omega, by omega⟩, hc.size v _ hval hs, ok_bind,
          Nat.min_eq_left (by omega), sliceFrom, if_pos (by omega), ok_bind, List.drop_left]
      rw [Codec.collect, hnext, ok_bind]
      dsimp only
      rw [hc.dec v _ hval hs, ok_bind, if_pos (by omega),
        ih (fun x hx => hv x (by simp [hx])) n (by simpa using hf)
          (by unfold SliceLen at *; omega), ok_bind]
      rfl

theorem flatMap_length_ge {w : Wire} {m : Mode} {c : Codec} (hc : Lawful m c w) (vs : List Val)
    (hv : ∀ v ∈ vs, w.valid v) : vs.length ≤ (vs.flatMap w.enc).length := by
  induction vs with
  | nil => simp
  | cons v vs ih =>
    have := ih (fun x hx => hv x (by simp [hx]))
    have := hc.pos v (hv v (by simp))
    simp only [List.length_cons, List.flatMap_cons, List.length_append]
    omega

/-- A vector's slice of the buffer: with the exact length, or (last field) with an overlong one
and nothing behind it. -/
theorem varSlice_enc {m : Mode} {buf packet : Buf} {pre post : List Bool}
    (h : bitsOf buf = pre ++ bitsOf packet ++ post) {co n : Nat} (hpre : pre.length = 8 * co)
    (hsl : SliceLen buf.length)
    (hn : n = packet.length ∨ (post = [] ∧ n = buf.length)) :
    varSlice m buf (.ok co) (.ok n) = .ok packet := by
  have hl := congrArg List.length h
  simp only [bitsOf_length, List.length_append] at hl
  unfold SliceLen at hsl
  have hmin : min (co + n) buf.length = co + packet.length := by
    rcases hn with hn | ⟨hp, hn⟩
    · omega
    · subst hp; simp only [List.length_nil] at hl; omega
  rw [varSlice, ok_bind, ok_bind, uadd_ok (by unfold usizeCard; omega), ok_bind, hmin,
    slice_mid h hpre]

/-! ## One field -/

theorem encField_fixed_length {w : Wire} {ty : Ty} {v : Val} (hv : typed w ty v)
    (h : ty.isVec = false) : (encField w ty v).length = ty.bits := by
  cases ty <;> cases v <;> simp [Ty.isVec] at h <;> simp only [typed] at hv
  · simp [encField, Ty.bits]
  · rw [encField, Ty.bits]; exact encArgs_length hv

theorem encField_vec_length {w : Wire} {ty : Ty} {v : Val} (hv : typed w ty v)
    (h : ty.isVec = true) (hp : plainTy ty = true) :
    ∃ packet : Buf, encField w ty v = bitsOf packet := by
  cases ty <;> cases v <;> simp [Ty.isVec] at h <;> simp only [typed] at hv
  · simp only [plainTy, beq_iff_eq] at hp
    exact ⟨_, by rw [encField, hp, flatMap_toBits8]⟩
  · exact ⟨_, by rw [encField]⟩

theorem getField_enc {m : Mode} {E : Wire} {ty : Ty} {v : Val} {buf : Buf} {pre post : List Bool}
    {bit : Nat} {sizes : List Nat} {len : Res Nat}
    (hlaw : ∀ c, ty = .vecPkt c → Lawful m c E)
    (hplain : plainTy ty = true) (hacc : ty.accepted bit = true) (htyped : typed E ty v)
    (h : bitsOf buf = pre ++ encField E ty v ++ post)
    (hpre : pre.length = bit + 8 * sizes.sum) (hsl : SliceLen buf.length)
    (hlen : ty.isVec = true → bit % 8 = 0 ∧
      (len = .ok ((encField E ty v).length / 8) ∨ (post = [] ∧ len = .ok buf.length))) :
    getField m buf bit (sizes.map .ok) len ty = .ok (normField E ty v) := by
  have hl := congrArg List.length h
  simp only [bitsOf_length, List.length_append] at hl
  have hsl' := hsl
  unfold SliceLen at hsl'
  have hco : curOff m bit (sizes.map .ok) = .ok (bit / 8 + sizes.sum) :=
    curOff_ok (by unfold usizeCard; omega)
  cases ty with
  | prim p =>
    cases v <;> simp only [typed] at htyped
    rename_i n
    simp only [plainTy, beq_iff_eq] at hplain
    simp only [Ty.accepted] at hacc
    simp only [encField] at h
    rw [getField, hco, ok_bind, getPrim_enc hplain hacc h (by omega)]
    rfl
  | misc args =>
    cases v <;> simp only [typed] at htyped
    rename_i ns
    simp only [plainTy] at hplain
    simp only [Ty.accepted, Bool.and_eq_true] at hacc
    rw [getField, getArgs_enc hsl args ns htyped hplain bit hacc.2 h hpre]
    rfl
  | vecPrim p =>
    cases v <;> simp only [typed] at htyped
    rename_i ns
    simp only [plainTy, beq_iff_eq] at hplain
    obtain ⟨n, e⟩ := p
    dsimp only at hplain
    subst hplain
    obtain ⟨hb, hlen⟩ := hlen rfl
    simp only [encField, flatMap_toBits8] at h hlen
    rw [bitsOf_length, Nat.mul_div_cancel_left _ (by omega : 0 < 8)] at hlen
    have hvs : ∀ n, len = .ok n → (n = (ns.map UInt8.ofNat).length ∨ (post = [] ∧ n = buf.length)) →
        varSlice m buf (.ok (bit / 8 + sizes.sum)) (.ok n) = .ok (ns.map UInt8.ofNat) :=
      fun n _ hn => varSlice_enc h (by omega) hsl hn
    have key : varSlice m buf (.ok (bit / 8 + sizes.sum)) len = .ok (ns.map UInt8.ofNat) := by
      rcases hlen with hlen | ⟨hp, hlen⟩
      · rw [hlen]; exact hvs _ hlen (.inl rfl)
      · rw [hlen]; exact hvs _ hlen (.inr ⟨hp, rfl⟩)
    rw [getField, hco, key, ok_bind, getElems_u8 _ _ _ (by simp)]
    simp [normField]
  | vecPkt c =>
    cases v <;> simp only [typed] at htyped
    rename_i vs
    have hc := hlaw c rfl
    obtain ⟨hb, hlen⟩ := hlen rfl
    simp only [encField] at h hlen hl
    rw [bitsOf_length, Nat.mul_div_cancel_left _ (by omega : 0 < 8)] at hlen
    rw [bitsOf_length] at hl
    have key : varSlice m buf (.ok (bit / 8 + sizes.sum)) len = .ok (vs.flatMap E.enc) := by
      rcases hlen with hlen | ⟨hp, hlen⟩
      · rw [hlen]; exact varSlice_enc h (by omega) hsl (.inl rfl)
      · rw [hlen]; exact varSlice_enc h (by omega) hsl (.inr ⟨hp, rfl⟩)
    rw [getField, hco, key, ok_bind, collect_enc hc vs htyped _ (flatMap_length_ge hc vs htyped)
      (by unfold SliceLen; omega)]
    rfl

end Verif
