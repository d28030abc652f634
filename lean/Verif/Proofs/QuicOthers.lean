import Verif.Proofs.QuicSet
import Verif.Spec.QuicOthers

/-! Helper lemmas: the fields behind a field that is set. -/

namespace Verif
open Spec Spec.Quic

/-- The offset of the next field is at least `E`. -/
def Behind (E bit : Nat) (lens : List (Res Nat)) : Prop :=
  ∀ sizes : List Nat, lens = sizes.map .ok → E ≤ bit / 8 + sizes.sum

theorem Behind.bits {E bit n : Nat} {lens : List (Res Nat)} (h : Behind E bit lens) : Behind E (bit + n) lens :=
  fun sizes hs => by have := h sizes hs; omega

theorem Behind.snoc {E bit : Nat} {lens : List (Res Nat)} (h : Behind E bit lens) (l : Res Nat) :
    Behind E bit (lens ++ [l]) := fun sizes hs => by
  obtain ⟨s, t, h1, -, h3⟩ := map_ok_append hs.symm
  have := h s h1
  subst h3
  rw [List.sum_append]
  omega

theorem Behind.off {E bit o : Nat} {lens : List (Res Nat)} (h : Behind E bit lens)
    (ho : curOff .debug bit lens = .ok o) : E ≤ o := by
  obtain ⟨sizes, hs⟩ := foldlM_uadd_ok ho
  rw [hs] at ho
  rw [curOff_inv (.inl rfl) ho]
  exact h sizes hs

section
variable {a b : Buf} {E : Nat} (hl : b.length = a.length) (hd : b.drop E = a.drop E)
include hl hd

omit hl in
theorem behind_getElem {i : Nat} (hi : E ≤ i) : b[i]? = a[i]? := by
  have := congrArg (·[i - E]?) hd
  simpa [List.getElem?_drop, Nat.add_sub_cancel' hi] using this

omit hl in
theorem behind_drop {o : Nat} (ho : E ≤ o) : b.drop o = a.drop o := by
  have := congrArg (List.drop (o - E)) hd
  simpa [List.drop_drop, Nat.add_sub_cancel' ho] using this

theorem behind_sliceFrom {o : Nat} (ho : E ≤ o) : sliceFrom b o = sliceFrom a o := by
  rw [sliceFrom, sliceFrom, hl, behind_drop hd ho]

omit hl in
theorem behind_getOps (W : Nat) (ops : List GetOperation) {o : Nat} (ho : E ≤ o) (idx : Nat) :
    getOpsFrom W b o idx ops = getOpsFrom W a o idx ops := by
  induction ops generalizing idx with
  | nil => rfl
  | cons op ops ih =>
    have : index b (o + idx) = index a (o + idx) := by
      rw [index, index, behind_getElem hd (by omega)]
    rw [getOpsFrom, getOpsFrom, this, ih]

omit hl in
theorem behind_getPrim (p : Prim) (off : Nat) {o : Nat} (ho : E ≤ o) : getPrim p off b o = getPrim p off a o := by
  unfold getPrim getOps
  cases operations off p.size p.endian with
  | none => rfl
  | some ops => exact behind_getOps hd _ ops ho 0

theorem behind_varSlice {bit : Nat} {lens : List (Res Nat)} (h : Behind E bit lens) (len : Res Nat) :
    varSlice .debug b (curOff .debug bit lens) len = varSlice .debug a (curOff .debug bit lens) len := by
  unfold varSlice
  cases ho : curOff .debug bit lens with
  | error _ => rfl
  | ok o =>
    simp only [ok_bind]
    congr 1; funext n
    congr 1; funext x
    rw [slice, slice, hl, List.drop_take, List.drop_take, behind_drop hd (h.off ho)]

omit hl in
theorem behind_getArgs {lens : List (Res Nat)} (args : List Prim) {bit : Nat} (h : Behind E bit lens) :
    getArgs .debug lens b bit args = getArgs .debug lens a bit args := by
  induction args generalizing bit with
  | nil => rfl
  | cons p ps ih =>
    rw [getArgs, getArgs, ih h.bits]
    cases ho : curOff .debug bit lens with
    | error _ => rfl
    | ok o => rw [ok_bind, ok_bind, behind_getPrim hd _ _ (h.off ho)]

theorem behind_getField {bit : Nat} {lens : List (Res Nat)} (h : Behind E bit lens) (len : Res Nat) (ty : Ty) :
    getField .debug b bit lens len ty = getField .debug a bit lens len ty := by
  cases ty with
  | prim p =>
    rw [getField, getField]
    cases ho : curOff .debug bit lens with
    | error _ => rfl
    | ok o => rw [ok_bind, ok_bind, behind_getPrim hd _ _ (h.off ho)]
  | misc args => rw [getField, getField, behind_getArgs hd args h]
  | vecPrim p => rw [getField, getField, behind_varSlice hl hd h]
  | vecPkt c => rw [getField, getField, behind_varSlice hl hd h]

theorem behind_rest {bit : Nat} {lens : List (Res Nat)} (h : Behind E bit lens) :
    curOff .debug bit lens >>= sliceFrom b = curOff .debug bit lens >>= sliceFrom a := by
  cases ho : curOff .debug bit lens with
  | error _ => rfl
  | ok o => rw [ok_bind, ok_bind, behind_sliceFrom hl hd (h.off ho)]

end

/-- The length uses the field `k` at most through its number of bytes. -/
def LenExpr.ignores (e : LenExpr) (k : Nat) : Prop := ∀ m (g g' : Nat → Res Val) rest,
  (∀ i, i ≠ k → g' i = g i) →
  (∃ x y : List Nat, g k = .ok (.nums x) ∧ g' k = .ok (.nums y) ∧ y.length = x.length) →
  e m g' rest = e m g rest

/-- The states for two buffers that differ in the value of field `k` only. -/
structure Alike (k E : Nat) (st st' : St) : Prop where
  bit : st'.bit = st.bit
  lens : st'.lens = st.lens
  len : st'.vals.length = st.vals.length
  past : k < st.vals.length
  vals : ∀ i, i ≠ k → st'.vals[i]? = st.vals[i]?
  at_k : ∃ x y : List Nat, st.get k = .ok (.nums x) ∧ st'.get k = .ok (.nums y) ∧ y.length = x.length
  behind : Behind E st.bit st.lens

theorem Alike.lenExpr {k E : Nat} {st st' : St} (h : Alike k E st st') {a b : Buf} (hl : b.length = a.length)
    (hd : b.drop E = a.drop E) {e : LenExpr} (he : e.ignores k) :
    lenExpr .debug b st' e = lenExpr .debug a st e := by
  rw [Verif.lenExpr, Verif.lenExpr, h.bit, h.lens, behind_rest hl hd h.behind]
  exact he _ _ _ _ (fun i hi => by rw [St.get, St.get, h.vals i hi]) h.at_k

theorem Alike.fieldLen {k E : Nat} {st st' : St} (h : Alike k E st st') {a b : Buf} (hl : b.length = a.length)
    (hd : b.drop E = a.drop E) {f : Field} (he : ∀ e, f.len = some e → e.ignores k) :
    fieldLen .debug b st' f = fieldLen .debug a st f := by
  unfold Verif.fieldLen
  cases hf : f.len with
  | none => simp only [hl]
  | some e => exact h.lenExpr hl hd (he e hf)

theorem Alike.getField {k E : Nat} {st st' : St} (h : Alike k E st st') {a b : Buf} (hl : b.length = a.length)
    (hd : b.drop E = a.drop E) {f : Field} (he : ∀ e, f.len = some e → e.ignores k) :
    getField .debug b st'.bit st'.lens (Verif.fieldLen .debug b st' f) f.ty =
      getField .debug a st.bit st.lens (Verif.fieldLen .debug a st f) f.ty := by
  rw [h.fieldLen hl hd he, h.bit, h.lens, behind_getField hl hd h.behind]

theorem Alike.step {k E : Nat} {st st' : St} (h : Alike k E st st') {a b : Buf} (hl : b.length = a.length)
    (hd : b.drop E = a.drop E) {f : Field} (he : ∀ e, f.len = some e → e.ignores k) :
    Alike k E (st.step .debug a f) (st'.step .debug b f) := by
  have hg := h.getField hl hd he
  have hget : ∀ {s : St} (x : Res Val) (i : Nat), i < s.vals.length → (s.vals ++ [x])[i]? = s.vals[i]? :=
    fun x i hi => List.getElem?_append_left hi
  have hp := h.past
  have hlen := h.len
  refine ⟨by simp only [St.step, h.bit], ?_, by simp only [St.step, List.length_append, h.len]; rfl, ?_, ?_, ?_, ?_⟩
  · simp only [St.step]
    cases hf : f.len with
    | none => exact h.lens
    | some e => simp only [h.lens, h.lenExpr hl hd (he e hf)]
  · simp only [St.step, List.length_append]; omega
  · intro i hi
    simp only [St.step]
    by_cases hi' : i < st.vals.length
    · rw [List.getElem?_append_left (by omega), List.getElem?_append_left hi', h.vals i hi]
    · rw [List.getElem?_append_right (by omega), List.getElem?_append_right (by omega), hg, h.len]
  · obtain ⟨x, y, h1, h2, h3⟩ := h.at_k
    refine ⟨x, y, ?_, ?_, h3⟩
    · rw [← h1]; simp only [St.get, St.step, List.getElem?_append_left hp]
    · rw [← h2]; simp only [St.get, St.step, List.getElem?_append_left (show k < st'.vals.length by omega)]
  · simp only [St.step]
    cases f.len with
    | none => exact h.behind.bits
    | some e => exact (h.behind.snoc _).bits

theorem Alike.before {d : Decl} {k E : Nat} {a b : Buf} (hl : b.length = a.length)
    (hd : b.drop E = a.drop E) {i : Nat} (he : ∀ f ∈ d.fields, ∀ e, f.len = some e → e.ignores k)
    (h : Alike k E (d.before .debug a i) (d.before .debug b i)) {j : Nat} (hij : i ≤ j) (hj : j ≤ d.fields.length) :
    Alike k E (d.before .debug a j) (d.before .debug b j) := by
  induction j with
  | zero => obtain rfl : i = 0 := by omega
            exact h
  | succ j ih =>
    by_cases hi : i = j + 1
    · subst hi; exact h
    · have hf : d.fields[j]? = some d.fields[j] := List.getElem?_eq_getElem (by omega)
      rw [before_succ hf, before_succ hf]
      exact (ih (by omega) (by omega)).step hl hd (fun e hfe => he _ (List.mem_of_getElem? hf) e hfe)

/-! ## The QUIC types -/

theorem ignores_const (n k : Nat) : (lenConst n).ignores k := fun _ _ _ _ _ _ => rfl
theorem ignores_vi (k : Nat) : lenVarintLength.ignores k := fun _ _ _ _ _ _ => rfl
theorem ignores_num {i k : Nat} (f : Nat → Nat) (h : i ≠ k) : (lenNum i f).ignores k :=
  fun _ _ _ _ hg _ => by simp only [lenNum, hg i h]
theorem ignores_varint {i k : Nat} (h : i ≠ k) : (lenVarint i).ignores k :=
  fun _ _ _ _ hg _ => by simp only [lenVarint, hg i h]
theorem ignores_nvi {k : Nat} (f : Nat → Nat) (h : 0 ≠ k) : (lenNVarints f).ignores k :=
  fun _ _ _ _ hg _ => by simp only [lenNVarints, hg 0 h]
theorem ignores_nviOf {i k : Nat} (h : i ≠ k) : (lenNVarintsOf i).ignores k :=
  fun _ _ _ _ hg _ => by simp only [lenNVarintsOf, hg i h]
theorem ignores_stream {i k : Nat} (h : i ≠ k) : (lenStreamData i).ignores k :=
  fun _ _ _ _ hg _ => by simp only [lenStreamData, hg i h]
theorem ignores_frames {i j k : Nat} (h : i ≠ k) : (lenFrames i j).ignores k := fun _ g g' _ hg ⟨x, y, h1, h2, h3⟩ => by
  simp only [lenFrames, hg i h]
  by_cases hj : j = k
  · subst hj
    simp only [h1, h2, ok_bind, Val.asNums, h3]
  · rw [hg j hj]

/-- No length depends on the value of a field with a length that is not itself a length or count. -/
theorem quicType_ignores {d : Decl} (h : QuicType d) {k : Nat} {f : Field} (hf : d.fields[k]? = some f)
    (hsome : f.len.isSome = true) (hname : f.name ∉ lengthFields) :
    ∀ g ∈ d.fields, ∀ e, g.len = some e → e.ignores k := by
  have key : ∀ i, (∀ g, d.fields[i]? = some g → g.len.isSome = true → g.name ∈ lengthFields) → i ≠ k := by
    rintro i hi rfl
    exact hname (hi f hf hsome)
  clear hf hsome hname f
  rcases h with ⟨q, rfl⟩ | ⟨q, rfl⟩ <;> cases q <;>
      (repeat' first | exact List.forall_mem_nil _ | refine List.forall_mem_cons.mpr ⟨?_, ?_⟩) <;>
      intro e he <;>
      first
        | (cases he; done)
        | (cases he; exact ignores_const _ _)
        | (cases he; exact ignores_vi _)
        | (cases he; exact ignores_num _ (key _ (by intro g hg; cases hg; decide)))
        | (cases he; exact ignores_varint (key _ (by intro g hg; cases hg; decide)))
        | (cases he; exact ignores_nvi _ (key _ (by intro g hg; cases hg; decide)))
        | (cases he; exact ignores_nviOf (key _ (by intro g hg; cases hg; decide)))
        | (cases he; exact ignores_stream (key _ (by intro g hg; cases hg; decide)))
        | (cases he; exact ignores_frames (key _ (by intro g hg; cases hg; decide)))

/-- The fields before the one set. -/
theorem quic_earlier {d : Decl} (h : QuicType d) {m : Mode} {buf : Buf} (hsl : SliceLen buf.length) {k : Nat}
    {f : Field} (hf : d.fields[k]? = some f) {e : LenExpr} (he : f.len = some e) {s : Nat}
    (hs : curOff m (d.before m buf k).bit (d.before m buf k).lens = .ok s) (hle : s ≤ buf.length)
    {T : Buf} (hT : T.length = buf.length - s) {j : Nat} (hj : j < k) :
    d.get m (buf.take s ++ T) j = d.get m buf j := by
  have hkl : k < d.fields.length := (List.getElem?_eq_some_iff.mp hf).1
  rw [← before_get hj (by omega), ← before_get hj (by omega), quic_before h hsl hf he hs hle hT]

/-- The fields behind the one set, when the field keeps its length. -/
theorem quic_later {d : Decl} (h : QuicType d) {buf : Buf} (hsl : SliceLen buf.length) {k : Nat}
    {f : Field} (hf : d.fields[k]? = some f) {e : LenExpr} (he : f.len = some e) (hname : f.name ∉ lengthFields)
    {s n : Nat}
    (hs : curOff .debug (d.before .debug buf k).bit (d.before .debug buf k).lens = .ok s) (hle : s ≤ buf.length)
    {T : Buf} (hT : T.length = buf.length - s) (hov : s + n < 2 ^ 64)
    (hn : e .debug (d.before .debug buf k).get (.ok (buf.drop s)) = .ok n)
    (hn' : e .debug (d.before .debug buf k).get (.ok T) = .ok n)
    (htail : T.drop n = (buf.drop s).drop n) :
    (∀ j, k < j → d.get .debug (buf.take s ++ T) j = d.get .debug buf j) ∧
      d.packetSize .debug (buf.take s ++ T) = d.packetSize .debug buf := by
  have hkl : k < d.fields.length := (List.getElem?_eq_some_iff.mp hf).1
  have hst := quic_before h hsl hf he hs hle hT
  have hlen : (buf.take s).length = s := by rw [List.length_take]; omega
  have hl : (buf.take s ++ T).length = buf.length := by rw [List.length_append]; omega
  have hd : (buf.take s ++ T).drop (s + n) = buf.drop (s + n) := by
    rw [← List.drop_drop, List.drop_left' hlen, htail, List.drop_drop]
  have hig := quicType_ignores h hf (by rw [he]; rfl) hname
  have hg := (quic_get_eq h hsl hf he hs hle hT (T.take n)).mpr ⟨n, hn', hov, rfl⟩
  have hg0 := (quic_get_eq h hsl hf he hs hle (T := buf.drop s) (by rw [List.length_drop])
    ((buf.drop s).take n)).mpr ⟨n, hn, hov, rfl⟩
  rw [List.take_append_drop] at hg0
  have hle1 : lenExpr .debug buf (d.before .debug buf k) e = .ok n := by
    rw [lenExpr, hs, ok_bind, sliceFrom, if_pos hle, hn]
  have hle2 : lenExpr .debug (buf.take s ++ T) (d.before .debug buf k) e = .ok n := by
    rw [lenExpr, hs, ok_bind, sliceFrom, if_pos (by omega), List.drop_left' hlen, hn']
  have hal : Alike k (s + n) (d.before .debug buf (k + 1)) (d.before .debug (buf.take s ++ T) (k + 1)) := by
    refine ⟨by rw [before_bit, before_bit], ?_, ?_, ?_, ?_, ?_, ?_⟩
    · rw [before_lens_succ hf he, before_lens_succ hf he, hst, hle1, hle2]
    · rw [before_vals _ (by omega), before_vals _ (by omega), List.length_map, List.length_map]
    · rw [before_vals _ (by omega), List.length_map, List.length_range]; omega
    · intro i hi
      rw [before_vals _ (by omega), before_vals _ (by omega), List.getElem?_map, List.getElem?_map]
      by_cases hik : i < k + 1
      · rw [List.getElem?_range hik, Option.map_some, Option.map_some,
          quic_earlier h hsl hf he hs hle hT (by omega)]
      · rw [List.getElem?_eq_none (by rw [List.length_range]; omega)]; rfl
    · refine ⟨_, _, (by rw [before_get (by omega) (by omega), hg0]; rfl),
        (by rw [before_get (by omega) (by omega), hg]; rfl), ?_⟩
      rw [List.length_map, List.length_map, List.length_take, List.length_take, List.length_drop, hT]
    · intro sizes hsz
      rw [before_lens_succ hf he, hle1] at hsz
      obtain ⟨x, t, h1, h2, h3⟩ := map_ok_append hsz.symm
      rw [h1] at hs
      have := curOff_inv (.inl rfl) hs
      have ht : t = [n] := map_ok_inj (by rw [← h2]; rfl)
      subst h3 ht
      rw [before_succ hf]
      simp only [St.step, List.sum_append, List.sum_cons, List.sum_nil]
      omega
  refine ⟨fun j hj => ?_, ?_⟩
  · unfold Decl.get
    cases hfj : d.fields[j]? with
    | none => rfl
    | some g =>
      have hjl : j < d.fields.length := (List.getElem?_eq_some_iff.mp hfj).1
      exact (hal.before hl hd hig (by omega) (by omega)).getField hl hd
        (fun e he => hig _ (List.mem_of_getElem? hfj) e he)
  · have := hal.before hl hd hig (j := d.fields.length) (by omega) (by omega)
    rw [Decl.packetSize, Decl.packetSize, final_eq_before, final_eq_before]
    simp only [this.bit, this.lens]

/-! ## Without a subtraction -/

theorem quicType_fits {d : Decl} (h : QuicType d) (hnl : ¬ LongHeader d) {buf : Buf} (hsl : SliceLen buf.length) :
    FitsAt d buf := by
  rcases h with ⟨q, rfl⟩ | ⟨q, rfl⟩
  · refine quic_fits q ?_ hsl
    cases q <;> first
      | rfl
      | exact (hnl (.inl rfl)).elim
      | exact (hnl (.inr (.inl rfl))).elim
      | exact (hnl (.inr (.inr rfl))).elim
  · exact frame_fits q hsl

theorem quicType_free {d : Decl} (h : QuicType d) (hnl : ¬ LongHeader d) {k : Nat} {f : Field}
    (hf : d.fields[k]? = some f) {e : LenExpr} (he : f.len = some e) (m m' : Mode) (g : Nat → Res Val) (r : Res Buf) :
    e m g r = e m' g r := by
  have : ∀ f ∈ d.fields, ∀ e, f.len = some e → e m g r = e m' g r := by
    clear hf he e f k
    rcases h with ⟨q, rfl⟩ | ⟨q, rfl⟩ <;> cases q <;> first
      | exact (hnl (.inl rfl)).elim
      | exact (hnl (.inr (.inl rfl))).elim
      | exact (hnl (.inr (.inr rfl))).elim
      | ((repeat' first | exact List.forall_mem_nil _ | refine List.forall_mem_cons.mpr ⟨?_, ?_⟩) <;>
          intro e he <;> cases he <;> rfl)
  exact this f (List.mem_of_getElem? hf) e he

/-- What `C105_bytes_partial` and `C105_ints_partial` share: the field keeps its length. -/
theorem others_of_length {d : Decl} (hd : QuicType d) {m : Mode} (hm : m = .debug ∨ ¬ LongHeader d) {buf new : Buf} {k : Nat}
    {f : Field} {old bs : Buf}
    (hsl : SliceLen buf.length) (hf : d.fields[k]? = some f) {e : LenExpr} (he : f.len = some e)
    (hname : f.name ∉ lengthFields) (hg : d.get m buf k = .ok (bytesOf old))
    (hset : d.set m buf k (bytesOf bs) = .ok new)
    (hkeep : ∀ s n T, curOff m (d.before m buf k).bit (d.before m buf k).lens = .ok s →
      e m (d.before m buf k).get (.ok (buf.drop s)) = .ok n → old = (buf.drop s).take n → s ≤ buf.length →
      bs.length ≤ n → bs.length ≤ (buf.drop s).length →
      T = bs ++ (buf.drop s).drop bs.length → e m (d.before m buf k).get (.ok T) = .ok n) :
    (∀ j, j ≠ k → d.get m new j = d.get m buf j) ∧ d.packetSize m new = d.packetSize m buf := by
  obtain ⟨s, n, sizes, hs, hle, -, -, hn, hov, ho⟩ := quic_get_inv hd hsl hf he hg
  have heq := quic_set_eq hd hsl hf he hs hle (T := buf.drop s) (by rw [List.length_drop]) bs
  rw [List.take_append_drop, hn, ok_bind] at heq
  rw [heq] at hset
  split at hset
  case isFalse => simp at hset
  rename_i hbn
  split at hset
  case isFalse => simp at hset
  rename_i hbl
  cases hset
  have hT : (bs ++ (buf.drop s).drop bs.length).length = (buf.drop s).length := by
    rw [List.length_append, List.length_drop]; omega
  have hT' := hT
  rw [List.length_drop (l := buf)] at hT'
  have hn' := hkeep s n _ hs hn ho hle (by omega) (by omega) rfl
  have htail : (bs ++ (buf.drop s).drop bs.length).drop n = (buf.drop s).drop n := by
    rw [List.drop_append, List.drop_of_length_le (by omega), List.nil_append, List.drop_drop,
      Nat.add_sub_cancel' (by omega)]
  have hdebug : ∀ (_ : m = .debug), (∀ j, k < j → d.get m (buf.take s ++ (bs ++ (buf.drop s).drop bs.length)) j = d.get m buf j) ∧
      d.packetSize m (buf.take s ++ (bs ++ (buf.drop s).drop bs.length)) = d.packetSize m buf := by
    rintro rfl
    exact quic_later hd hsl hf he hname hs hle hT' hov hn hn' htail
  have hall : (∀ j, k < j → d.get m (buf.take s ++ (bs ++ (buf.drop s).drop bs.length)) j = d.get m buf j) ∧
      d.packetSize m (buf.take s ++ (bs ++ (buf.drop s).drop bs.length)) = d.packetSize m buf := by
    cases m with
    | debug => exact hdebug rfl
    | release =>
      have hnl : ¬ LongHeader d := by
        rcases hm with hm | hm
        · cases hm
        · exact hm
      have hfits : ∀ {b : Buf}, SliceLen b.length → FitsAt d b := fun hb => quicType_fits hd hnl hb
      have hsl' : SliceLen (buf.take s ++ (bs ++ (buf.drop s).drop bs.length)).length := by
        rw [List.length_append, hT', List.length_take, Nat.min_eq_left hle, Nat.add_sub_cancel' hle]; exact hsl
      have hst := (hfits hsl).before hsl k
      have hl := quic_later hd hsl hf he hname (by rw [hst, (hfits hsl).fit k |>.curOff]; exact hs) hle hT' hov
        (by rw [hst, quicType_free hd hnl hf he .debug .release, hn]) (by rw [hst, quicType_free hd hnl hf he .debug .release, hn']) htail
      refine ⟨fun j hj => ?_, ?_⟩
      · rw [← (hfits hsl').get hsl', ← (hfits hsl).get hsl]; exact hl.1 j hj
      · rw [← (hfits hsl').packetSize hsl', ← (hfits hsl).packetSize hsl]; exact hl.2
  refine ⟨fun j hj => ?_, hall.2⟩
  by_cases hjk : j < k
  · exact quic_earlier hd hsl hf he hs hle hT' hjk
  · exact hall.1 j (by omega)

end Verif
