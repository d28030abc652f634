import Verif.Spec.Ndp
import Verif.Proofs.Headers
import Verif.Proofs.Options
import Verif.Proofs.ModesFit

/-! Helper lemmas: options of neighbour discovery messages. -/

namespace Verif
open Spec

theorem ndpDataLength {m : Mode} {l : UInt8} (h : m = .debug → l.toNat < 32) :
    ndpOptionDataLength m l.toNat = .ok (NdpOpt.room l) := by
  have := l.toNat_lt
  unfold ndpOptionDataLength NdpOpt.room
  by_cases h32 : l.toNat < 32
  · rw [if_pos (by omega)]; congr 1; omega
  · rw [if_neg (by omega)]
    cases m with
    | debug => exact (h32 (h rfl)).elim
    | release => simp only; congr 1; omega

theorem ndpDataLength_panic {l : UInt8} (h : ¬ l.toNat < 32) : ndpOptionDataLength .debug l.toNat = panic := by
  unfold ndpOptionDataLength
  rw [if_neg (by omega)]

theorem room_le (l : UInt8) : NdpOpt.room l ≤ 246 := by
  unfold NdpOpt.room; omega

theorem bitsAt_second (t l : UInt8) (r : Buf) : bitsAt (t :: l :: r) 8 8 = l.toNat := by
  have := Props.C55_whole_bytes (t :: l :: r) 1 1
  simpa [beNat] using this

theorem bitsAt_first (t l : UInt8) (r : Buf) : bitsAt (t :: l :: r) 0 8 = t.toNat := by
  have := Props.C55_whole_bytes (t :: l :: r) 0 1
  simpa [beNat] using this

theorem ndp_lens (m : Mode) (t l : UInt8) (r : Buf) :
    (ndpOption.before m (t :: l :: r) 3).lens = [ndpOptionDataLength m l.toNat] := by
  rw [before_lens_succ (d := ndpOption) (k := 2) rfl rfl, ndp_len m _ (by simp) rfl,
    (before_fixed (d := ndpOption) (k := 2) (by decide) m _).2, bitsAt_second]
  rfl

theorem ndp_size {m : Mode} {t l : UInt8} (r : Buf) (h : m = .debug → l.toNat < 32) :
    ndpOption.codec.packetSize m (t :: l :: r) = .ok (2 + NdpOpt.room l) := by
  have hl := ndp_lens m t l r
  rw [ndpDataLength h] at hl
  have hr := room_le l
  have := packetSize_eq (d := ndpOption) (m := m) (buf := t :: l :: r) (sizes := [NdpOpt.room l]) hl
    (by simp only [show ndpOption.bits = 16 from rfl, List.sum_cons, List.sum_nil]; omega)
  show ndpOption.packetSize m _ = _
  rw [this]; rfl

theorem ndp_size_panic {t l : UInt8} (r : Buf) (h : ¬ l.toNat < 32) :
    ndpOption.codec.packetSize .debug (t :: l :: r) = panic := by
  have hl := ndp_lens .debug t l r
  rw [ndpDataLength_panic h] at hl
  show ndpOption.packetSize .debug _ = _
  rw [Decl.packetSize, final_eq_before, show ndpOption.fields.length = 3 from rfl, hl]
  rfl

theorem ndp_dec {m : Mode} {t l : UInt8} (r : Buf) (h : m = .debug → l.toNat < 32) :
    ndpOption.codec.fromPacket m (t :: l :: r) = .ok (NdpOpt.val ⟨t, l, r.take (NdpOpt.room l)⟩) := by
  have h2l : 2 ≤ (t :: l :: r).length := by simp
  have hlen := ndpDataLength h
  have hr := room_le l
  have hraw : ndpOption.getRaw m (t :: l :: r) 2 = .ok (r.take (NdpOpt.room l)) :=
    getRaw_fixed (d := ndpOption) (k := 2) rfl rfl
      (by rw [fieldLen]; exact (ndp_len m _ h2l rfl).trans (by rw [bitsAt_second]; exact hlen)) h2l
      (by rw [show bitsSum (ndpOption.fields.take 2) = 16 from rfl]; omega)
  have h2 : ndpOption.get m (t :: l :: r) 2 = .ok (.nums ((r.take (NdpOpt.room l)).map (·.toNat))) := by
    rw [bytes_get (d := ndpOption) (k := 2) rfl rfl, hraw]; rfl
  have h0 : ndpOption.get m (t :: l :: r) 0 = .ok (.nums [bitsAt (t :: l :: r) 0 8]) :=
    layoutOk_get (L := ndpOptionLayout) (by decide +kernel) (k := 0) rfl m _ h2l
  have h1 : ndpOption.get m (t :: l :: r) 1 = .ok (.num (bitsAt (t :: l :: r) 8 8)) :=
    layoutOk_get (L := ndpOptionLayout) (by decide +kernel) (k := 1) rfl m _ h2l
  rw [bitsAt_first] at h0
  rw [bitsAt_second] at h1
  show ndpOption.fromPacket m _ = _
  rw [fromPacket_mapM]
  simp only [show List.range ndpOption.fields.length = [0, 1, 2] from rfl, List.map_cons,
    List.map_nil, h0, h1, h2]
  rfl

theorem ndp_next {m : Mode} {t l : UInt8} (r : Buf) (h : m = .debug → l.toNat < 32) :
    ndpOption.codec.next m (t :: l :: r) = .ok (some (t :: l :: r, r.drop (NdpOpt.room l))) := by
  rw [next_eq, if_pos ⟨by simp, by rw [show ndpOption.codec.minSize = 2 from by decide]; simp⟩, ndp_size r h, ok_map,
    show 2 + NdpOpt.room l = NdpOpt.room l + 1 + 1 by omega]
  rfl

theorem ndp_next_stop {m : Mode} {bs : Buf} (h : bs.length < 2) : ndpOption.codec.next m bs = .ok none := by
  rw [next_eq, if_neg (by rw [show ndpOption.codec.minSize = 2 from by decide]; omega)]

theorem ndp_collect {m : Mode} {bs : Buf} {os : List NdpOpt} (h : NdpOptions m bs os) (fuel : Nat)
    (hf : bs.length ≤ fuel) : ndpOption.codec.collect m fuel bs = .ok (os.map NdpOpt.val) := by
  have hstop : ∀ fuel (bs : Buf), bs.length < 2 → ndpOption.codec.collect m fuel bs = .ok [] := by
    intro fuel bs hb
    cases fuel with
    | zero => rfl
    | succ fuel => simp only [Codec.collect, ndp_next_stop hb, ok_bind]
  induction h generalizing fuel with
  | stop h => exact hstop fuel _ h
  | @option o rest os hw hr ih =>
    obtain ⟨hc, hd⟩ := hw
    rw [show o.bytes ++ rest = o.ty :: o.length :: (o.data ++ rest) from rfl] at hf ⊢
    cases fuel with
    | zero => simp at hf
    | succ fuel =>
      simp only [List.length_cons, List.length_append] at hf
      simp only [Codec.collect, ndp_next _ hc, ok_bind, ndp_dec _ hc]
      rw [List.drop_left' hd, List.take_left' hd, if_pos (by simp; omega), ih fuel (by omega), ok_bind]
      rfl
  | @cut o hc hd =>
    rw [show o.bytes = o.ty :: o.length :: o.data from rfl] at hf ⊢
    cases fuel with
    | zero => simp at hf
    | succ fuel =>
      simp only [Codec.collect, ndp_next _ hc, ok_bind, ndp_dec _ hc]
      rw [List.drop_eq_nil_of_le (by omega), List.take_of_length_le (by omega), if_pos (by simp),
        hstop fuel [] (by simp), ok_bind]
      rfl

/-- Either the bytes are options, or collecting them panics. -/
theorem ndp_options_or_panic (m : Mode) (fuel : Nat) (bs : Buf) (hf : bs.length ≤ fuel) :
    (∃ os, NdpOptions m bs os) ∨
      (m = .debug ∧ ndpOption.codec.collect m fuel bs = panic) := by
  induction fuel generalizing bs with
  | zero => exact .inl ⟨[], .stop (by omega)⟩
  | succ fuel ih =>
    match bs, hf with
    | [], _ => exact .inl ⟨[], .stop (by simp)⟩
    | [_], _ => exact .inl ⟨[], .stop (by simp)⟩
    | t :: l :: r, hf =>
      simp only [List.length_cons] at hf
      by_cases hc : m = .debug → l.toNat < 32
      · by_cases hr : r.length < NdpOpt.room l
        · exact .inl ⟨[⟨t, l, r⟩], .cut (o := ⟨t, l, r⟩) hc hr⟩
        · have hsplit : (NdpOptions m (t :: l :: r)) =
              NdpOptions m (t :: l :: (r.take (NdpOpt.room l) ++ r.drop (NdpOpt.room l))) := by
            rw [List.take_append_drop]
          rcases ih (r.drop (NdpOpt.room l)) (by simp; omega) with ⟨os, h⟩ | ⟨hm, h⟩
          · refine .inl ⟨⟨t, l, r.take (NdpOpt.room l)⟩ :: os, ?_⟩
            rw [hsplit]
            exact .option (o := ⟨t, l, r.take (NdpOpt.room l)⟩) ⟨hc, by simp; omega⟩ h
          · refine .inr ⟨hm, ?_⟩
            simp only [Codec.collect, ndp_next _ hc, ok_bind, ndp_dec _ hc]
            rw [if_pos (by simp; omega), h]
            rfl
      · right
        have hm : m = .debug := by
          cases m with
          | debug => rfl
          | release => exact (hc fun h => nomatch h).elim
        subst hm
        have h32 : ¬ l.toNat < 32 := fun h => hc fun _ => h
        refine ⟨rfl, ?_⟩
        rw [Codec.collect, Codec.next, if_pos ⟨by simp, by rw [show ndpOption.codec.minSize = 2 from by decide]; simp⟩,
          ndp_size_panic r h32]
        rfl

theorem NdpOpt.bytes_length (o : NdpOpt) : o.bytes.length = o.data.length + 2 := rfl

theorem ndp_unique {m : Mode} {bs : Buf} {os os' : List NdpOpt} (h : NdpOptions m bs os)
    (h' : NdpOptions m bs os') : os = os' := by
  induction h generalizing os' with
  | stop h =>
    cases h' with
    | stop _ => rfl
    | option _ _ => simp [NdpOpt.bytes] at h; omega
    | cut _ _ => simp [NdpOpt.bytes] at h; omega
  | @option o rest os hw hr ih =>
    generalize hb : o.bytes ++ rest = bs at h'
    cases h' with
    | stop h => rw [← hb] at h; simp [NdpOpt.bytes] at h; omega
    | @option o' rest' os' hw' hr' =>
      simp only [NdpOpt.bytes, List.cons_append, List.cons.injEq] at hb
      obtain ⟨h1, h2, h3⟩ := hb
      have hlen : o.data.length = o'.data.length := by rw [hw.2, hw'.2, h2]
      obtain ⟨h4, h5⟩ := List.append_inj h3 hlen
      subst h5
      rw [ih hr']
      congr 1
      cases o; cases o'
      simp_all
    | @cut o' _ hd' =>
      simp only [NdpOpt.bytes, List.cons_append, List.cons.injEq] at hb
      obtain ⟨h1, h2, h3⟩ := hb
      have := congrArg List.length h3
      have := hw.2
      rw [← h2] at hd'
      simp at *
      omega
  | @cut o hc hd =>
    generalize hb : o.bytes = bs at h'
    cases h' with
    | stop h => rw [← hb] at h; simp [NdpOpt.bytes] at h; omega
    | @option o' rest' os' hw' hr' =>
      simp only [NdpOpt.bytes, List.cons_append, List.cons.injEq] at hb
      obtain ⟨h1, h2, h3⟩ := hb
      have := congrArg List.length h3
      have := hw'.2
      rw [← h2] at this
      simp at *
      omega
    | @cut o' _ hd' =>
      simp only [NdpOpt.bytes, List.cons.injEq] at hb
      obtain ⟨h1, h2, h3⟩ := hb
      cases o; cases o'
      simp_all

theorem ndp_checked {bs : Buf} {os : List NdpOpt} (h : NdpOptions .debug bs os) : NdpOptions .release bs os := by
  induction h with
  | stop h => exact .stop h
  | option hw _ ih => exact .option ⟨fun h => (nomatch h), hw.2⟩ ih
  | cut _ hd => exact .cut (fun h => nomatch h) hd

/-- Options of whole bytes in front. -/
theorem ndp_append {m : Mode} {os os' : List NdpOpt} (h : ∀ o ∈ os, o.whole m) {rest : Buf}
    (hr : NdpOptions m rest os') : NdpOptions m (os.flatMap NdpOpt.bytes ++ rest) (os ++ os') := by
  induction os with
  | nil => exact hr
  | cons o os ih =>
    rw [List.flatMap_cons, List.append_assoc]
    exact .option (h o (by simp)) (ih fun o ho => h o (by simp [ho]))

/-! ## Writing -/

theorem ndpVal_enc (m : Mode) (o : NdpOpt) : (declWire m noWire ndpOption).enc o.val = o.bytes := by
  simp only [declWire, NdpOpt.val, ndpOption, fmisc, fprim, fpayload, encFields, encField,
    List.map_cons, List.map_nil, List.zipWith_cons_cons, List.zipWith_nil_right,
    List.flatten_cons, List.flatten_nil, List.append_nil]
  rw [bytes_flatMap, ← byteBits_eq_toBits, ← byteBits_eq_toBits, ← bitsOf_cons, ← bitsOf_cons,
    packBits_bitsOf]
  rfl

theorem ndpVal_valid (m : Mode) (o : NdpOpt) (h : o.whole m) :
    (declWire m noWire ndpOption).valid o.val := by
  obtain ⟨t, l, data⟩ := o
  have hmod : l.toNat % 2 ^ 8 = l.toNat := Nat.mod_eq_of_lt l.toNat_lt
  have hlen := ndpDataLength h.1
  obtain ⟨-, h2⟩ := h
  simp only at h2 hlen
  simp only [declWire, NdpOpt.val, ndpOption, fmisc, fprim, fpayload, typedFields, typed,
    lensAgree, normField, encField, List.map_cons, List.map_nil, List.length_cons, List.length_nil,
    List.zipWith_cons_cons, List.zipWith_nil_right, hmod, true_and, and_true,
    bytes_flatMap, bitsOf_length, List.nil_append, reduceCtorEq, false_implies, implies_true,
    Option.some.injEq, forall_eq', List.cons_append]
  intro _
  simp only [env, List.getElem?_cons_succ, List.getElem?_cons_zero, ok_bind, Val.asNum]
  rw [hlen, h2, Nat.mul_div_cancel_left _ (by omega)]

theorem set_options_rest {d : Decl} {m : Mode} {buf : Buf} {k n : Nat} {f : Field} {d' : Decl}
    {vs : List Val} {bytes : Buf} (hin : Inner d') (hf : d.fields[k]? = some f)
    (hty : f.ty = .vecPkt d'.codec) (hnone : f.len = none)
    (hco : curOff m (d.before m buf k).bit (d.before m buf k).lens = .ok n)
    (hv : ∀ v ∈ vs, (declWire m noWire d').valid v)
    (hb : vs.flatMap (declWire m noWire d').enc = bytes)
    (hfit : n + bytes.length ≤ buf.length) (hsl : SliceLen buf.length) :
    d.set m buf k (.list vs) = .ok (buf.take n ++ bytes ++ buf.drop (n + bytes.length)) := by
  rw [Decl.set, hf]
  have hlen : fieldLen m buf (d.before m buf k) f = .ok buf.length := by rw [fieldLen, hnone]
  simp only [hty, hco, ok_bind, hlen]
  rw [uadd_ok (by unfold SliceLen at hsl; unfold usizeCard; omega), ok_bind]
  have hsplit : buf = buf.take n ++ (buf.drop n).take bytes.length ++ buf.drop (n + bytes.length) := by
    rw [List.append_assoc, ← List.drop_drop, List.take_append_drop, List.take_append_drop]
  have h20' : (buf.take n).length = n := by rw [List.length_take]; omega
  have hml : ((buf.drop n).take bytes.length).length = bytes.length := by
    rw [List.length_take, List.length_drop]; omega
  have := setPackets_enc (hin.lawful m noWire) vs hv (buf.take n) ((buf.drop n).take bytes.length)
    (buf.drop (n + bytes.length)) (n + buf.length) (by rw [hb, hml]) (by rw [h20', hml]; omega)
    (by rw [← hsplit]; exact hsl)
  rw [← hsplit, h20', hb] at this
  exact this

/-! ## Messages -/

/-- A message: a layout, then an empty payload, then the options. -/
structure NdpMessage (d : Decl) (L : List Slot) (n : Nat) : Prop where
  layout : layoutOk d L = true
  min : d.minSize = n
  bits : d.bits = 8 * n
  count : d.fields.length = L.length + 2
  fixed : (d.fields.take L.length).all Field.fixed = true
  head : bitsSum (d.fields.take L.length) = 8 * n
  payload : d.fields[L.length]? = some (fpayload "payload" (lenConst 0))
  options : d.fields[L.length + 1]? = some { name := "options", ty := .vecPkt ndpOption.codec }
  small : n < 2 ^ 20

section
variable {d : Decl} {L : List Slot} {n : Nat}

theorem NdpMessage.st (h : NdpMessage d L n) (m : Mode) (buf : Buf) :
    (d.before m buf (L.length + 1)).lens = [0].map .ok ∧
      bitsSum (d.fields.take (L.length + 1)) = 8 * n := by
  constructor
  · rw [before_lens_succ h.payload rfl, (before_fixed h.fixed m buf).2]; rfl
  · rw [bitsSum_take_succ h.payload, h.head]; rfl

theorem NdpMessage.curOff (h : NdpMessage d L n) (m : Mode) (buf : Buf) :
    curOff m (d.before m buf (L.length + 1)).bit (d.before m buf (L.length + 1)).lens = .ok n := by
  have hn := h.small
  rw [before_bit, (h.st m buf).1, (h.st m buf).2, curOff_ok (by unfold usizeCard; simp; omega)]
  simp

theorem NdpMessage.raw (h : NdpMessage d L n) (m : Mode) {buf : Buf} (hb : n ≤ buf.length)
    (hsl : SliceLen buf.length) : d.getRaw m buf (L.length + 1) = .ok (buf.drop n) := by
  have hn := h.small
  unfold SliceLen at hsl
  have := (getRaw_eq (m := m) (buf := buf) (sizes := [0]) h.options (h.st m buf).1 (len := buf.length)
    (by rw [fieldLen]) (by rw [(h.st m buf).2]; simp; omega)).1 (by rw [(h.st m buf).2]; simp; omega)
  rw [this, (h.st m buf).2, List.take_of_length_le (by simp)]
  simp

theorem NdpMessage.get (h : NdpMessage d L n) (m : Mode) {buf : Buf} (hb : n ≤ buf.length)
    (hsl : SliceLen buf.length) : d.get m buf (L.length + 1) =
      (.list <$> ndpOption.codec.collect m (buf.drop n).length (buf.drop n)) := by
  rw [pkt_get h.options rfl, h.raw m hb hsl, ok_bind]

theorem NdpMessage.getPayload (h : NdpMessage d L n) (m : Mode) {buf : Buf} (hb : n ≤ buf.length) :
    d.get m buf L.length = .ok (.nums []) := by
  have hn := h.small
  have := getRaw_fixed (m := m) (buf := buf) h.payload h.fixed (len := 0) (by rw [fieldLen]; rfl)
    (by rw [h.min]; exact hb) (by rw [h.head]; omega)
  rw [bytes_get h.payload rfl, this, List.take_zero]; rfl

theorem NdpMessage.gets (h : NdpMessage d L n) (m : Mode) {buf : Buf} (hb : n ≤ buf.length) :
    (List.range d.fields.length).map (d.get m buf) =
      L.map (fun s => .ok (s.read buf)) ++ [.ok (.nums []), d.get m buf (L.length + 1)] := by
  apply List.ext_getElem
  · simp [h.count]
  · intro i h1 h2
    simp only [List.length_map, List.length_range, h.count] at h1
    rw [List.getElem_map, List.getElem_range, List.getElem_append]
    simp only [List.length_map]
    split
    · rename_i hi
      rw [List.getElem_map]
      exact layoutOk_get h.layout (List.getElem?_eq_getElem hi) m buf (by rw [h.min]; exact hb)
    · rename_i hi
      have : i = L.length ∨ i = L.length + 1 := by omega
      rcases this with rfl | rfl
      · simp [h.getPayload m hb]
      · simp

theorem mapM_ok_map {α β : Type} (l : List α) (f : α → β) (t : List (Res β)) :
    (l.map (fun s => (.ok (f s) : Res β)) ++ t).mapM id = (l.map f ++ ·) <$> t.mapM id := by
  induction l with
  | nil => simp
  | cons a l ih =>
    simp only [List.map_cons, List.cons_append, List.mapM_cons, id_eq, ok_bind, ih]
    cases t.mapM id <;> rfl

theorem NdpMessage.fromPacket (h : NdpMessage d L n) (m : Mode) {buf : Buf} (hb : n ≤ buf.length) :
    d.fromPacket m buf = (fun v => .list (L.map (·.read buf) ++ [.nums [], v])) <$> d.get m buf (L.length + 1) := by
  rw [fromPacket_mapM, h.gets m hb, mapM_ok_map]
  cases d.get m buf (L.length + 1) <;> rfl

theorem zip_debug_ok {α : Type} (l : List α) (f : α → Val) (F : List Field) :
    ∃ vs, (List.zip F (l.map fun s => (.ok (f s) : Res Val))).mapM (fun x : Field × Res Val =>
      if x.1.payload then (pure (.num 0) : Res Val) else x.2) = .ok vs := by
  induction l generalizing F with
  | nil => exact ⟨[], by simp⟩
  | cons a l ih =>
    cases F with
    | nil => exact ⟨[], by simp⟩
    | cons g F =>
      obtain ⟨vs, hvs⟩ := ih F
      simp only [List.map_cons, List.zip_cons_cons, List.mapM_cons, hvs]
      split
      · exact ⟨_, rfl⟩
      · exact ⟨_, rfl⟩

theorem NdpMessage.debug (h : NdpMessage d L n) (m : Mode) {buf : Buf} (hb : n ≤ buf.length) :
    d.debug m buf = (fun _ => ()) <$> d.get m buf (L.length + 1) := by
  have hfields : d.fields = d.fields.take L.length ++ [fpayload "payload" (lenConst 0),
      { name := "options", ty := .vecPkt ndpOption.codec }] := by
    apply List.ext_getElem?
    intro i
    by_cases hi : i < L.length
    · rw [List.getElem?_append_left (by rw [List.length_take, h.count]; omega), List.getElem?_take_of_lt hi]
    · have hl : (d.fields.take L.length).length = L.length := by rw [List.length_take, h.count]; omega
      rw [List.getElem?_append_right (by omega), hl]
      by_cases h0 : i = L.length
      · subst h0; rw [h.payload]; simp
      · by_cases h1 : i = L.length + 1
        · subst h1; rw [h.options]; simp
        · rw [List.getElem?_eq_none (by rw [h.count]; omega), List.getElem?_eq_none (by simp; omega)]
  rw [Decl.debug, final_vals, h.gets m hb]
  conv => lhs; rw [hfields]
  rw [List.zip_append (by rw [List.length_take, h.count]; simp), List.mapM_append]
  obtain ⟨vs, hvs⟩ := zip_debug_ok L (·.read buf) (d.fields.take L.length)
  rw [hvs]
  cases d.get m buf (L.length + 1) <;> rfl

theorem NdpMessage.set (h : NdpMessage d L n) (m : Mode) {buf : Buf} (hsl : SliceLen buf.length)
    {os : List NdpOpt} (hw : ∀ o ∈ os, o.whole m) (hfit : n + (os.flatMap NdpOpt.bytes).length ≤ buf.length) :
    d.set m buf (L.length + 1) (.list (os.map NdpOpt.val)) = .ok (buf.take n ++ os.flatMap NdpOpt.bytes ++
      buf.drop (n + (os.flatMap NdpOpt.bytes).length)) :=
  set_options_rest ndpOption_inner h.options rfl rfl (h.curOff m buf)
    (by
      intro v hv
      obtain ⟨o, ho, rfl⟩ := List.mem_map.mp hv
      exact ndpVal_valid m o (hw o ho))
    (by
      rw [List.flatMap_map]
      congr 1
      funext o
      exact ndpVal_enc m o) hfit hsl

end

end Verif
