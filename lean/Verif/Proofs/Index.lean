import Verif.Model.Index
import Verif.Proofs.ModesEq
import Verif.Spec.Encode

/-! Machine arithmetic in the indices of accessors. -/

namespace Verif
open Spec

theorem uadd_lt {m : Mode} {a b : Nat} (h : a + b < usizeCard) : uadd m a b = .ok (a + b) := by
  unfold uadd
  rw [if_pos h]

theorem index_ok_lt {buf : Buf} {i : Nat} {b : UInt8} (h : index buf i = .ok b) : i < buf.length := by
  by_cases hi : i < buf.length
  · exact hi
  · rw [index_panic (by omega)] at h; cases h

theorem getOpsFromU_eq (m : Mode) (W : Nat) {buf : Buf} (hsl : SliceLen buf.length) (co : Nat)
    (ops : List GetOperation) (idx : Nat) (h : co + idx < usizeCard) (hi : idx = 0 ∨ co + idx ≤ buf.length) :
    getOpsFromU m W buf co idx ops = getOpsFrom W buf co idx ops := by
  unfold SliceLen at hsl
  unfold usizeCard at h
  induction ops generalizing idx with
  | nil => rfl
  | cons op ops ih =>
    rw [getOpsFromU, getOpsFrom, uadd_lt h, ok_bind]
    cases hb : index buf (co + idx) with
    | error e => rfl
    | ok byte =>
      have := index_ok_lt hb
      rw [ih (idx + 1) (by omega) (by omega)]

theorem getOpsU_eq (m : Mode) (W : Nat) {buf : Buf} (hsl : SliceLen buf.length) (co : Nat)
    (h : co < usizeCard) (ops : List GetOperation) : getOpsU m W ops buf co = getOps W ops buf co := by
  unfold getOpsU
  split
  · rename_i op
    simp only [getOps, getOpsFrom, Nat.add_zero]
    cases index buf co with
    | error e => rfl
    | ok b =>
      simp only [ok_bind]
      cases op.eval W b.toNat with
      | error e => rfl
      | ok r => simp [ok_bind]
  · exact getOpsFromU_eq m W hsl co ops 0 h (.inl rfl)

theorem setOpsFromU_eq (m : Mode) (W co v : Nat) (ops : List SetOperation) (idx : Nat) (buf : Buf)
    (hsl : SliceLen buf.length) (h : co + idx < usizeCard) (hi : idx = 0 ∨ co + idx ≤ buf.length) :
    setOpsFromU m W co v idx ops buf = setOpsFrom W co v idx ops buf := by
  induction ops generalizing idx buf with
  | nil => rfl
  | cons op ops ih =>
    rw [setOpsFromU, setOpsFrom, uadd_lt h, ok_bind]
    cases hb : index buf (co + idx) with
    | error e => rfl
    | ok byte =>
      have hlt := index_ok_lt hb
      simp only [ok_bind]
      cases op.eval W byte.toNat v with
      | error e => rfl
      | ok new =>
        simp only [ok_bind]
        rw [setIndex_ok hlt, ok_bind, ok_bind]
        unfold SliceLen usizeCard at *
        exact ih _ _ (by rw [List.length_set]; exact hsl) (by omega) (by rw [List.length_set]; omega)

theorem operations_some {offset size : Nat} {e : Endianness} {ops : List GetOperation}
    (h : operations offset size e = some ops) : size ≤ 64 := by
  unfold operations at h
  split at h
  · cases h
  · omega

theorem getPrimU_eq (m : Mode) (p : Prim) (off : Nat) {buf : Buf} (hsl : SliceLen buf.length) (co : Nat)
    (h : co < usizeCard) : getPrimU m p off buf co = getPrim p off buf co := by
  unfold getPrimU getPrim
  cases operations off p.size p.endian with
  | none => rfl
  | some ops => exact getOpsU_eq m _ hsl co h ops

theorem setPrimU_eq (m : Mode) (p : Prim) (off : Nat) {buf : Buf} (hsl : SliceLen buf.length) (co v : Nat)
    (h : co < usizeCard) : setPrimU m p off buf co v = setPrim p off buf co v := by
  unfold setPrimU setPrim
  cases operations off p.size p.endian with
  | none => rfl
  | some ops => exact setOpsFromU_eq m _ co v _ 0 buf hsl h (.inl rfl)

theorem opsLoop_length {offset size nb k : Nat} : ∀ {i cur rem : Nat} {ops : List GetOperation},
    opsLoop offset size nb k i cur rem = some ops → ops.length = k := by
  induction k with
  | zero => intro i cur rem ops h; cases h; rfl
  | succ k ih =>
    intro i cur rem ops h
    simp only [opsLoop, Option.bind_eq_bind, Option.bind_eq_some_iff] at h
    obtain ⟨a, _, sl, _, sr, _, rest, hr, h⟩ := h
    cases h
    rw [List.length_cons, ih hr]

theorem operations_length {offset size : Nat} {e : Endianness} {ops : List GetOperation}
    (h : operations offset size e = some ops) : ops.length = numBytes offset size ∧ size ≠ 0 := by
  unfold operations at h
  split at h
  · cases h
  · simp only [Option.bind_eq_bind, Option.bind_eq_some_iff, Option.some.injEq] at h
    obtain ⟨ops', h1, rfl⟩ := h
    refine ⟨?_, by omega⟩
    have := opsLoop_length h1
    split
    · rw [toLittleEndian, List.length_zipWith, List.length_reverse, Nat.min_self, this]
    · exact this

theorem operations_ne {offset size : Nat} {e : Endianness} {ops : List GetOperation}
    (h : operations offset size e = some ops) : ops ≠ [] := by
  rintro rfl
  have := operations_length h
  simp only [List.length_nil, numBytes] at this
  split at this <;> omega

theorem getPrim_inside {p : Prim} {off co v : Nat} {buf : Buf} (h : getPrim p off buf co = .ok v) :
    co < buf.length ∧ p.size ≤ 64 := by
  unfold getPrim at h
  cases ho : operations off p.size p.endian with
  | none => rw [ho] at h; cases h
  | some ops =>
    rw [ho] at h
    cases ops with
    | nil => exact absurd rfl (operations_ne ho)
    | cons op ops =>
      dsimp only [getOps, getOpsFrom] at h
      obtain ⟨b, hb, -⟩ := bind_eq_ok.mp h
      exact ⟨index_ok_lt hb, operations_some ho⟩

theorem setPrim_inside {p : Prim} {off co v : Nat} {buf new : Buf} (h : setPrim p off buf co v = .ok new) :
    co < buf.length ∧ p.size ≤ 64 := by
  unfold setPrim at h
  cases ho : operations off p.size p.endian with
  | none => rw [ho] at h; cases h
  | some ops =>
    rw [ho] at h
    cases ops with
    | nil => exact absurd rfl (operations_ne ho)
    | cons op ops =>
      dsimp only [setOps, toMutator, List.map_cons, setOpsFrom] at h
      obtain ⟨b, hb, -⟩ := bind_eq_ok.mp h
      exact ⟨index_ok_lt hb, operations_some ho⟩

theorem getPrim_outside {p : Prim} {off co : Nat} {buf : Buf} (h : buf.length ≤ co) :
    getPrim p off buf co = panic := by
  unfold getPrim
  cases ho : operations off p.size p.endian with
  | none => rfl
  | some ops =>
    cases ops with
    | nil => exact absurd rfl (operations_ne ho)
    | cons op ops =>
      dsimp only [getOps, getOpsFrom]
      rw [index_panic (by omega)]
      rfl

theorem setPrim_outside {p : Prim} {off co v : Nat} {buf : Buf} (h : buf.length ≤ co) :
    setPrim p off buf co v = panic := by
  unfold setPrim
  cases ho : operations off p.size p.endian with
  | none => rfl
  | some ops =>
    cases ops with
    | nil => exact absurd rfl (operations_ne ho)
    | cons op ops =>
      dsimp only [setOps, toMutator]
      rw [List.map_cons, setOpsFrom, index_panic (by omega)]
      rfl

theorem getElemsU_eq (m : Mode) (p : Prim) {packet : Buf} (hsl : SliceLen packet.length) (n co : Nat)
    (h : co < usizeCard) : getElemsU m p packet n co = getElems p packet n co := by
  induction n generalizing co with
  | zero => rfl
  | succ n ih =>
    rw [getElemsU, getElems, getPrimU_eq m _ _ hsl co h]
    cases hv : getPrim ⟨p.size, .big⟩ 0 packet co with
    | error e => rfl
    | ok v =>
      obtain ⟨h1, h2⟩ := getPrim_inside hv
      dsimp only at h2
      unfold SliceLen at hsl
      have h3 : co + p.size / 8 < usizeCard := by unfold usizeCard; omega
      rw [ok_bind, ok_bind, uadd_lt h3, ok_bind, ih _ h3]

theorem setElemsU_eq (m : Mode) (p : Prim) (vs : List Nat) (co : Nat) (buf : Buf)
    (hsl : SliceLen buf.length) (h : co < usizeCard) : setElemsU m p co vs buf = setElems p co vs buf := by
  induction vs generalizing co buf with
  | nil => rfl
  | cons v vs ih =>
    rw [setElemsU, setElems, setPrimU_eq m _ _ hsl co v h]
    cases hv : setPrim ⟨p.size, .big⟩ 0 buf co v with
    | error e => rfl
    | ok new =>
      obtain ⟨h1, h2⟩ := setPrim_inside hv
      have hl := setPrim_length hv
      dsimp only at h2
      have h3 : co + p.size / 8 < usizeCard := by unfold SliceLen at hsl; unfold usizeCard; omega
      rw [ok_bind, ok_bind, uadd_lt h3, ok_bind, ih _ _ (by rw [hl]; exact hsl) h3]

theorem copyIntoU_eq (m : Mode) {buf : Buf} (hsl : SliceLen buf.length) (a : Nat) {new : Buf}
    (hn : SliceLen new.length) (h : a < usizeCard) : copyIntoU m buf a new = copyInto buf a new := by
  unfold SliceLen at hsl hn
  unfold usizeCard at h
  unfold copyIntoU copyInto
  by_cases hfit : a + new.length ≤ buf.length
  · rw [if_pos hfit, uadd_lt (by unfold usizeCard; omega), ok_bind]
    unfold slice
    rw [if_pos ⟨by omega, hfit⟩, ok_bind, if_pos]
    rw [List.length_drop, List.length_take]
    omega
  · rw [if_neg hfit]
    unfold uadd
    split
    · rw [ok_bind]
      unfold slice
      rw [if_neg (by omega)]
      rfl
    · rename_i hge
      cases m with
      | debug => rfl
      | release =>
        simp only [ok_bind]
        unfold slice
        rw [if_neg]
        · rfl
        · unfold usizeCard at hge ⊢
          omega

theorem uadd_card {m : Mode} {a b r : Nat} (h : uadd m a b = .ok r) : r < usizeCard := by
  unfold uadd at h
  split at h
  · cases h; assumption
  · cases m with
    | debug => cases h
    | release => cases h; exact Nat.mod_lt _ (by decide)

theorem curOff_card {m : Mode} {bit co : Nat} {lens : List (Res Nat)} (hb : bit < usizeCard)
    (h : curOff m bit lens = .ok co) : co < usizeCard := by
  unfold curOff at h
  have : ∀ (ls : List (Res Nat)) (a : Nat), a < usizeCard →
      ls.foldlM (fun a l => do uadd m a (← l)) a = .ok co → co < usizeCard := by
    intro ls
    induction ls with
    | nil => intro a ha h; cases h; exact ha
    | cons l ls ih =>
      intro a ha h
      rw [List.foldlM_cons] at h
      obtain ⟨b, hb, h⟩ := bind_eq_ok.mp h
      obtain ⟨x, -, hb⟩ := bind_eq_ok.mp hb
      exact ih b (uadd_card hb) h
  exact this lens (bit / 8) (by unfold usizeCard at *; omega) h

theorem getArgsU_eq (m : Mode) (lens : List (Res Nat)) {buf : Buf} (hsl : SliceLen buf.length)
    (args : List Prim) (bit : Nat) (hb : bit + (args.map (·.size)).sum < usizeCard) :
    getArgsU m lens buf bit args = getArgs m lens buf bit args := by
  induction args generalizing bit with
  | nil => rfl
  | cons p ps ih =>
    simp only [List.map_cons, List.sum_cons] at hb
    rw [getArgsU, getArgs]
    cases hco : curOff m bit lens with
    | error e => rfl
    | ok co =>
      rw [ok_bind, ok_bind, getPrimU_eq m p _ hsl co (curOff_card (by unfold usizeCard at *; omega) hco),
        ih (bit + p.size) (by omega)]

theorem setArgsU_eq (m : Mode) (lensOf : Buf → List (Res Nat)) (args : List Prim) (vs : List Nat) (bit : Nat)
    (buf : Buf) (hsl : SliceLen buf.length) (hb : bit + (args.map (·.size)).sum < usizeCard) :
    setArgsU m lensOf bit args vs buf = setArgs m lensOf bit args vs buf := by
  induction args generalizing bit buf vs with
  | nil => simp only [setArgsU, setArgs]
  | cons p ps ih =>
    cases vs with
    | nil => simp only [setArgsU, setArgs]
    | cons v vs =>
      simp only [List.map_cons, List.sum_cons] at hb
      rw [setArgsU, setArgs]
      cases hco : curOff m bit (lensOf buf) with
      | error e => rfl
      | ok co =>
        rw [ok_bind, ok_bind, setPrimU_eq m p _ hsl co v (curOff_card (by unfold usizeCard at *; omega) hco)]
        cases hset : setPrim p (bit % 8) buf co v with
        | error e => rfl
        | ok new =>
          rw [ok_bind, ok_bind, ih vs (bit + p.size) new (by rw [setPrim_length hset]; exact hsl) (by omega)]

theorem before_bits_le (d : Decl) (m : Mode) (buf : Buf) {k : Nat} {f : Field} (hf : d.fields[k]? = some f) :
    (d.before m buf k).bit + f.ty.bits ≤ d.bits := by
  rw [before_bit]
  exact bitsSum_field_le hf

theorem varSlice_length {m : Mode} {buf r : Buf} {co len : Res Nat} (h : varSlice m buf co len = .ok r) :
    r.length ≤ buf.length := by
  unfold varSlice at h
  obtain ⟨a, -, h⟩ := bind_eq_ok.mp h
  obtain ⟨l, -, h⟩ := bind_eq_ok.mp h
  obtain ⟨b, -, h⟩ := bind_eq_ok.mp h
  unfold slice at h
  split at h
  · cases h
    rw [List.length_drop, List.length_take]
    omega
  · cases h

theorem getU_eq (d : Decl) (m : Mode) (buf : Buf) (hsl : SliceLen buf.length) (hb : d.bits < usizeCard)
    (k : Nat) : d.getU m buf k = d.get m buf k := by
  unfold Decl.getU Decl.get
  cases hf : d.fields[k]? with
  | none => rfl
  | some f =>
    have hle := before_bits_le d m buf hf
    obtain ⟨name, ty, pay, len⟩ := f
    dsimp only at hle ⊢
    generalize d.before m buf k = st at *
    cases ty with
    | prim p =>
      dsimp only [getField]
      cases hco : curOff m st.bit st.lens with
      | error e => rfl
      | ok co => rw [ok_bind, ok_bind, getPrimU_eq m p _ hsl co (curOff_card (by omega) hco)]
    | misc args =>
      dsimp only [getField, Ty.bits] at hle ⊢
      rw [getArgsU_eq m _ hsl args _ (by omega)]
    | vecPrim p =>
      dsimp only [getField]
      cases hv : varSlice m buf (curOff m st.bit st.lens) (fieldLen m buf st ⟨name, .vecPrim p, pay, len⟩) with
      | error e => rfl
      | ok packet =>
        have := varSlice_length hv
        rw [ok_bind, ok_bind, getElemsU_eq m p (by unfold SliceLen at *; omega) _ 0 (by decide)]
    | vecPkt c => rfl

theorem setU_eq (d : Decl) (m : Mode) (buf : Buf) (hsl : SliceLen buf.length) (hb : d.bits < usizeCard)
    (k : Nat) (v : Val) (hv : ∀ ns, v = .nums ns → SliceLen ns.length) :
    d.setU m buf k v = d.set m buf k v := by
  unfold Decl.setU Decl.set
  cases hf : d.fields[k]? with
  | none => rfl
  | some f =>
    have hle := before_bits_le d m buf hf
    obtain ⟨name, ty, pay, len⟩ := f
    dsimp only at hle ⊢
    cases ty with
    | prim p =>
      cases v with
      | num v =>
        dsimp only
        cases hco : curOff m (d.before m buf k).bit (d.before m buf k).lens with
        | error e => rfl
        | ok co => rw [ok_bind, ok_bind, setPrimU_eq m p _ hsl co v (curOff_card (by omega) hco)]
      | nums vs => rfl
      | list vs => rfl
    | misc args =>
      cases v with
      | nums vs =>
        dsimp only [Ty.bits] at hle ⊢
        rw [setArgsU_eq m _ args vs _ buf hsl (by omega)]
      | num v => rfl
      | list vs => rfl
    | vecPrim p =>
      cases v with
      | nums vs =>
        dsimp only
        cases hco : curOff m (d.before m buf k).bit (d.before m buf k).lens with
        | error e => rfl
        | ok co =>
          have hc := curOff_card (by omega) hco
          rw [ok_bind, ok_bind, copyIntoU_eq m hsl co (by rw [List.length_map]; exact hv vs rfl) hc,
            setElemsU_eq m p vs co buf hsl hc]
          cases len <;> rfl
      | num v => rfl
      | list vs => rfl
    | vecPkt c =>
      cases v with
      | list vs => rfl
      | num v => rfl
      | nums vs => rfl

end Verif
