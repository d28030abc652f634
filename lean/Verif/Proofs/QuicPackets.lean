import Verif.Proofs.QuicFrames
import Verif.Proofs.QuicBytes

/-! Helper lemmas: QUIC packets. -/

namespace Verif
open Spec

/-! ## Raw getters after a scan -/

theorem varSlice_alive {m : Mode} {buf : Buf} {o n : Nat} (ho : o ≤ buf.length)
    (hn : o + n < 2 ^ 64) : varSlice m buf (.ok o) (.ok n) = .ok ((buf.drop o).take n) := by
  rw [varSlice, ok_bind, ok_bind, uadd_ok (by unfold usizeCard; omega), ok_bind, slice,
    if_pos ⟨by omega, Nat.min_le_right _ _⟩, List.drop_take]
  congr 1
  by_cases h : o + n ≤ buf.length
  · rw [Nat.min_eq_left h]; congr 1; omega
  · rw [Nat.min_eq_right (by omega), List.take_of_length_le (by simp), List.take_of_length_le (by simp; omega)]

theorem varSlice_beyond {m : Mode} {buf : Buf} {o : Nat} {len : Res Nat} (ho : buf.length < o)
    (hl : NH len) : varSlice m buf (.ok o) len = panic := by
  apply not_ok_panic (varSlice_NH (NH.ok _) hl)
  intro a ha
  rw [varSlice, ok_bind, bind_eq_ok] at ha
  obtain ⟨l, -, ha⟩ := ha
  rw [bind_eq_ok] at ha
  obtain ⟨b, -, ha⟩ := ha
  unfold slice at ha
  split at ha
  · omega
  · simp at ha

theorem varSlice_off_panic {m : Mode} {buf : Buf} {len : Res Nat} : varSlice m buf panic len = panic := rfl

theorem getRaw_alive {d : Decl} {m : Mode} {buf : Buf} {pre post : List Field} {f : Field}
    (hfields : d.fields = pre ++ f :: post) (hsl : SliceLen buf.length) {vals : List Val} {rest : Buf}
    (h : Alive buf (St.run m buf .init pre) vals rest) {e : LenExpr} (he : f.len = some e) {n : Nat}
    (hn : e m (env vals) (.ok rest) = .ok n) (hlt : n < 2 ^ 63) {k : Nat} (hk : k = pre.length) :
    d.getRaw m buf k = .ok (rest.take n) := by
  subst hk
  have hget : d.fields[pre.length]? = some f := by
    rw [hfields, List.getElem?_append_right (Nat.le_refl _)]; simp
  have hbef : d.before m buf pre.length = St.run m buf .init pre := by
    rw [Decl.before, hfields, List.take_left' rfl]
  rw [Decl.getRaw, hget]
  simp only [hbef, fieldLen, he]
  rw [h.lenExpr hsl, hn]
  obtain ⟨o, ho, hr, hol⟩ := h.curOff hsl m
  unfold SliceLen at hsl
  rw [ho, varSlice_alive hol (by omega), hr]

theorem get_alive {d : Decl} {m : Mode} {buf : Buf} {pre post : List Field}
    (hfields : d.fields = pre ++ post) {vals : List Val} {rest : Buf}
    (h : Alive buf (St.run m buf .init pre) vals rest) {j : Nat} {v : Val} (hj : vals[j]? = some v) :
    d.get m buf j = .ok v := by
  have hbef : d.before m buf pre.length = St.run m buf .init pre := by
    rw [Decl.before, hfields, List.take_left' rfl]
  have hv := before_vals (d := d) (m := m) (buf := buf) pre.length (by rw [hfields]; simp)
  rw [hbef, h.vals] at hv
  have := congrArg (·[j]?) hv
  simp only [List.getElem?_map, hj, Option.map_some] at this
  cases hr : (List.range pre.length)[j]? with
  | none => rw [hr] at this; simp at this
  | some i =>
    rw [hr] at this
    have hij : i = j := by
      obtain ⟨_, h2⟩ := List.getElem?_eq_some_iff.mp hr
      simpa using h2.symm
    simp only [Option.map_some, Option.some.injEq] at this
    rw [hij] at this
    exact this.symm

/-! ## Length, packet number, frames and remaining bytes -/

/-- The remaining bytes of a packet, `rest` starting at its Length field. `n` is the size of that
field, `l` its value, `c` the number of packet number bytes that are there. -/
def tailRest (m : Mode) (p : Nat) (rest : Buf) : Res Buf := do
  let n ← varintLength rest
  if n ≤ rest.length then do
    let l ← varint ((rest.take n).map (·.toNat))
    let c := min p (rest.length - n)
    if m = .debug ∧ l < c then panic
    else if n + (p + l - c) ≤ rest.length then .ok (rest.drop (n + (p + l - c)))
    else panic
  else panic

/-- The last four fields of Initial, 0-RTT and Handshake packets. -/
def tailFields (j : Nat) : List Field :=
  [fbytes "length" lenVarintLength, fbytes "packet_number" (lenPn 4),
    fbytes "frames" (lenFrames j (j + 1)), frest "remaining"]

theorem getRaw_last {d : Decl} {m : Mode} {buf : Buf} {pre : List Field} {f : Field}
    (hfields : d.fields = pre ++ [f]) (hf : f.len = none) {k : Nat} (hk : k = pre.length) :
    d.getRaw m buf k = varSlice m buf (curOff m (St.run m buf .init pre).bit (St.run m buf .init pre).lens)
      (.ok buf.length) := by
  subst hk
  have hget : d.fields[pre.length]? = some f := by
    rw [hfields, List.getElem?_append_right (Nat.le_refl _)]; simp
  have hbef : d.before m buf pre.length = St.run m buf .init pre := by
    rw [Decl.before, hfields, List.take_left' rfl]
  rw [Decl.getRaw, hget]
  simp only [hbef, fieldLen, hf]

theorem getRaw_tail {d : Decl} {m : Mode} {buf : Buf} {pre : List Field} {j : Nat}
    (hj : pre.length = j) (hfields : d.fields = pre ++ tailFields j) (hsl : SliceLen buf.length)
    {vals : List Val} {rest : Buf} (h : Alive buf (St.run m buf .init pre) vals rest)
    (hvl : vals.length = j) {x : Nat} (hx : vals[4]? = some (.num x)) (hx4 : x < 4) :
    d.getRaw m buf (j + 3) = tailRest m (x + 1) rest := by
  have hf' : d.fields = (pre ++ [fbytes "length" lenVarintLength, fbytes "packet_number" (lenPn 4),
      fbytes "frames" (lenFrames j (j + 1))]) ++ [frest "remaining"] := by
    rw [hfields, List.append_assoc]; rfl
  rw [getRaw_last hf' rfl (by simp [hj])]
  rw [run_append]
  generalize hst : St.run m buf .init pre = st at h
  obtain ⟨sizes, h1, h2, h3⟩ := h.lens
  obtain ⟨o, ho, hr, hol⟩ := h.curOff hsl m
  have hsl' := hsl
  unfold SliceLen at hsl'
  have hoe : o = st.bit / 8 + sizes.sum := by
    rw [h1, curOff_ok (by unfold usizeCard; omega)] at ho
    cases ho; rfl
  have hrl : rest.length = buf.length - o := by rw [hr, List.length_drop]
  have e1 := h.lenExpr hsl m lenVarintLength
  rw [show lenVarintLength m (env vals) (.ok rest) = varintLength rest from rfl] at e1
  show varSlice m buf (curOff m
    (((st.step m buf (fbytes "length" lenVarintLength)).step m buf (fbytes "packet_number" (lenPn 4))).step
      m buf (fbytes "frames" (lenFrames j (j + 1)))).bit
    (((st.step m buf (fbytes "length" lenVarintLength)).step m buf (fbytes "packet_number" (lenPn 4))).step
      m buf (fbytes "frames" (lenFrames j (j + 1)))).lens) (.ok buf.length) = _
  generalize hst1 : st.step m buf (fbytes "length" lenVarintLength) = st1
  generalize hst2 : st1.step m buf (fbytes "packet_number" (lenPn 4)) = st2
  have b1 : st1.bit = st.bit := by rw [← hst1]; rfl
  have b2 : st2.bit = st.bit := by rw [← hst2, ← b1]; rfl
  have l1 : st1.lens = st.lens ++ [varintLength rest] := by
    rw [← hst1, ← e1]; rfl
  have l2 : st2.lens = st1.lens ++ [lenExpr m buf st1 (lenPn 4)] := by rw [← hst2]; rfl
  show varSlice m buf (curOff m st2.bit (st2.lens ++ [lenExpr m buf st2 (lenFrames j (j + 1))]))
    (.ok buf.length) = _
  cases hv : varintLength rest with
  | error er =>
    have her : er = .panic := by
      have := varintLength_NH rest
      rw [hv] at this
      cases er with
      | panic => rfl
      | hang => exact (this rfl).elim
    subst her
    rw [l2, l1, hv, h1, List.append_assoc, List.append_assoc]
    show varSlice m buf (curOff m _ (sizes.map .ok ++ panic :: _)) _ = _
    rw [curOff_panic, varSlice_off_panic, tailRest, hv]; rfl
  | ok n =>
    have hn8 := varintLength_le hv
    rw [hv] at l1
    -- the packet number length
    have g4 : ∀ s : St, (∃ more, s.vals = vals.map .ok ++ more) → s.get 4 = .ok (.num x) := by
      rintro s ⟨more, hs⟩
      have hlt : 4 < vals.length := (List.getElem?_eq_some_iff.mp hx).1
      rw [St.get, hs, List.getElem?_append_left (by simpa using hlt), List.getElem?_map, hx]; rfl
    have v1 : st1.vals = vals.map .ok ++ [.ok (bytesVal (rest.take n))] := by
      rw [← hst1]
      show st.vals ++ [getField m buf st.bit st.lens (lenExpr m buf st lenVarintLength) (.vecPrim (u 8))] = _
      rw [h.vals, e1, hv]
      congr 2
      rw [getField, ho, varSlice_alive hol (by omega), ok_bind, getElems_u8 _ _ _ (by omega), ← hr]
      simp
    have p1 : lenExpr m buf st1 (lenPn 4) = .ok (x + 1) := by
      rw [lenExpr, lenPn, lenNum, g4 st1 ⟨_, v1⟩]; rfl
    rw [p1] at l2
    have c1 : curOff m st1.bit st1.lens = .ok (o + n) := by
      rw [b1, l1, h1, show [Except.ok n] = [n].map (Except.ok (ε := Fail)) from rfl, ← List.map_append,
        curOff_ok (by unfold usizeCard; simp; omega)]
      simp; omega
    have v2 : st2.vals = st1.vals ++ [getField m buf st1.bit st1.lens (.ok (x + 1)) (.vecPrim (u 8))] := by
      rw [← hst2, ← p1]; rfl
    have hl2 : st2.lens = (sizes ++ [n] ++ [x + 1]).map .ok := by
      rw [l2, l1, h1]; simp
    rw [hl2, b2]
    by_cases hle : n ≤ rest.length
    · have gpn : getField m buf st1.bit st1.lens (.ok (x + 1)) (.vecPrim (u 8)) =
          .ok (bytesVal ((rest.drop n).take (x + 1))) := by
        rw [getField, c1, varSlice_alive (by omega) (by omega), ok_bind, getElems_u8 _ _ _ (by omega), hr]
        simp [List.drop_drop]
      rw [gpn] at v2
      obtain ⟨v, hvi⟩ := varint_take hv hle
      have hvl' := (varint_enc hvi []).2
      have hvlt : v < 2 ^ 62 := by
        refine varint_lt hvl' (by simp; omega) ?_
        intro y hy
        obtain ⟨c, -, rfl⟩ := List.mem_map.mp hy
        exact c.toNat_lt
      have gj : st2.get j = .ok (bytesVal (rest.take n)) := by
        rw [St.get, v2, v1, List.append_assoc, List.getElem?_append_right (by simp; omega)]
        simp [hvl]
      have gj1 : st2.get (j + 1) = .ok (bytesVal ((rest.drop n).take (x + 1))) := by
        rw [St.get, v2, v1, List.append_assoc, List.getElem?_append_right (by simp; omega)]
        simp [hvl]
      have hfr : lenExpr m buf st2 (lenFrames j (j + 1)) = usub m v (min (x + 1) (rest.length - n)) := by
        rw [lenExpr, lenFrames, gj, gj1]
        simp only [ok_bind, Val.asNums, hvl']
        congr 1
        simp
      rw [hfr, tailRest, hv, ok_bind, if_pos hle, hvl', ok_bind]
      simp only
      generalize hc : min (x + 1) (rest.length - n) = c
      have hcx : c ≤ x + 1 := by omega
      have hbase : ∀ (f : Nat), curOff m st.bit ((sizes ++ [n] ++ [x + 1]).map .ok ++ [.ok f]) =
          uadd m (o + n + (x + 1)) f := by
        intro f
        have := curOff_ok (m := m) (bit := st.bit) (sizes := sizes ++ [n] ++ [x + 1])
          (by unfold usizeCard; simp; omega)
        unfold curOff at this ⊢
        rw [List.foldlM_append, this]
        simp only [ok_bind, List.foldlM_cons, List.foldlM_nil, List.sum_append, List.sum_cons, List.sum_nil]
        rw [hoe, show st.bit / 8 + (sizes.sum + (n + 0) + (x + 1 + 0)) = st.bit / 8 + sizes.sum + n + (x + 1) by omega]
        cases uadd m (st.bit / 8 + sizes.sum + n + (x + 1)) f <;> rfl
      have hfin : ∀ t, t = o + n + (x + 1) + v - c →
          varSlice m buf (.ok t) (.ok buf.length) =
            if n + (x + 1 + v - c) ≤ rest.length then .ok (rest.drop (n + (x + 1 + v - c))) else panic := by
        intro t ht
        by_cases hin : n + (x + 1 + v - c) ≤ rest.length
        · rw [if_pos hin, varSlice_alive (by omega) (by omega), List.take_of_length_le (by simp), hr,
            List.drop_drop]
          congr 2; omega
        · rw [if_neg hin, varSlice_beyond (by omega) (NH.ok _)]
      by_cases hlc : c ≤ v
      · have hu : usub m v c = .ok (v - c) := by unfold usub; rw [if_pos hlc]
        rw [if_neg (by omega), hu, hbase, uadd_ok (by unfold usizeCard; omega)]
        exact hfin _ (by omega)
      · cases m with
        | debug =>
          have hu : usub .debug v c = panic := by unfold usub; rw [if_neg hlc]
          rw [if_pos ⟨rfl, by omega⟩, hu]
          show varSlice _ buf (curOff _ _ (_ ++ panic :: [])) _ = _
          rw [curOff_panic, varSlice_off_panic]
        | release =>
          have hu : usub .release v c = .ok ((v + usizeCard - c % usizeCard) % usizeCard) := by
            unfold usub; rw [if_neg hlc]
          rw [if_neg (by simp), hu]
          rw [hbase]
          have hf : (v + usizeCard - c % usizeCard) % usizeCard = usizeCard - (c - v) := by
            rw [Nat.mod_eq_of_lt (by unfold usizeCard; omega : c < usizeCard), Nat.mod_eq_of_lt (by unfold usizeCard; omega)]
            unfold usizeCard; omega
          have ha : uadd .release (o + n + (x + 1)) (usizeCard - (c - v)) = .ok (o + n + (x + 1) + v - c) := by
            unfold uadd
            rw [if_neg (by unfold usizeCard; omega)]
            simp only
            congr 1
            unfold usizeCard; omega
          rw [hf, ha]
          exact hfin _ rfl
    · have gpn : getField m buf st1.bit st1.lens (.ok (x + 1)) (.vecPrim (u 8)) = panic := by
        rw [getField, c1, varSlice_beyond (by omega) (NH.ok _)]; rfl
      rw [gpn] at v2
      have gj1 : st2.get (j + 1) = panic := by
        rw [St.get, v2, v1, List.append_assoc, List.getElem?_append_right (by simp; omega)]
        simp [hvl]
      have gj : st2.get j = .ok (bytesVal (rest.take n)) := by
        rw [St.get, v2, v1, List.append_assoc, List.getElem?_append_right (by simp; omega)]
        simp [hvl]
      have hfr : lenExpr m buf st2 (lenFrames j (j + 1)) = panic := by
        have hnh : NH (lenExpr m buf st2 (lenFrames j (j + 1))) := by
          rw [lenExpr, lenFrames, gj, gj1]
          exact (varint_NH _).bind fun _ _ => NH.panic
        apply not_ok_panic hnh
        intro a ha
        simp only [lenExpr, lenFrames, gj1, bind_eq_ok] at ha
        obtain ⟨_, -, _, -, _, -, _, ha, -⟩ := ha
        simp at ha
      rw [hfr]
      show varSlice _ buf (curOff _ _ (_ ++ panic :: [])) _ = _
      rw [curOff_panic, varSlice_off_panic, tailRest, hv, ok_bind, if_neg hle]

end Verif
