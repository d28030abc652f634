import Verif.Spec.Unwind
import Verif.Proofs.ModesEq
import Verif.Proofs.Registers

/-! # Lemmas: writes that keep the bytes when they panic -/

set_option autoImplicit false

namespace Verif
open Spec Props

theorem outcome_reading {α : Type} (buf : Buf) (r : Res α) (next : α → Left) :
    outcome (reading buf r next) = r >>= fun a => outcome (next a) := by
  cases r <;> rfl

theorem outcome_atOnce (buf : Buf) (r : Res Buf) : outcome (atOnce buf r) = r := by
  cases r <;> rfl

theorem outcome_andThen (l : Left) (next : Buf → Left) :
    outcome (andThen l next) = outcome l >>= fun b => outcome (next b) := by
  obtain ⟨b, r⟩ := l
  cases r <;> rfl

theorem outcome_ok (b : Buf) : outcome (b, .ok ()) = .ok b := rfl

theorem outcome_panic (b : Buf) : outcome (b, panic) = panic := rfl

theorem outcome_inv {l : Left} {b : Buf} (h : outcome l = .ok b) : l = (b, .ok ()) := by
  obtain ⟨b', r⟩ := l
  cases r with
  | error e => cases h
  | ok u => cases h; rfl

theorem setOps_outcome (W co v : Nat) (ops : List SetOperation) (idx : Nat) (buf : Buf) :
    outcome (setOpsLeft W co v idx ops buf) = setOpsFrom W co v idx ops buf := by
  induction ops generalizing idx buf with
  | nil => rfl
  | cons op ops ih =>
    simp only [setOpsLeft, setOpsFrom, outcome_reading, outcome_andThen, outcome_atOnce, ih]

theorem setPrim_outcome (p : Prim) (s : Nat) (buf : Buf) (co v : Nat) :
    outcome (setPrimLeft p s buf co v) = setPrim p s buf co v := by
  unfold setPrimLeft setPrim
  rw [outcome_reading]
  cases operations s p.size p.endian with
  | none => rfl
  | some ops => exact setOps_outcome _ _ _ _ _ _

theorem setArgs_outcome (m : Mode) (L : Buf → List (Res Nat)) (ps : List Prim) (vs : List Nat) (bit : Nat)
    (buf : Buf) : outcome (setArgsLeft m L bit ps vs buf) = setArgs m L bit ps vs buf := by
  induction ps generalizing bit vs buf with
  | nil => cases vs <;> rfl
  | cons p ps ih =>
    cases vs with
    | nil => rfl
    | cons v vs =>
      simp only [setArgsLeft, setArgs, outcome_reading, outcome_andThen, setPrim_outcome, ih]

theorem setElems_outcome (p : Prim) (vs : List Nat) (co : Nat) (buf : Buf) :
    outcome (setElemsLeft p co vs buf) = setElems p co vs buf := by
  induction vs generalizing co buf with
  | nil => rfl
  | cons v vs ih => simp only [setElemsLeft, setElems, outcome_andThen, setPrim_outcome, ih]

theorem setPackets_outcome {c : Codec} {pop : PopulateLeft} (hc : Leaves c pop) (m : Mode) (endOff : Nat)
    (vs : List Val) (cur : Nat) (buf : Buf) :
    outcome (setPacketsLeft m c pop endOff cur vs buf) = setPackets m c endOff cur vs buf := by
  induction vs generalizing cur buf with
  | nil => rfl
  | cons v vs ih =>
    rw [setPacketsLeft, setPackets, outcome_reading]
    refine bind_congr_ok fun sub _ => ?_
    split
    · rw [← hc.same]
      generalize pop m sub v = l
      obtain ⟨b, r⟩ := l
      cases r with
      | error e => rfl
      | ok u =>
        refine (outcome_reading (buf.take cur ++ b) (c.packetSize m b) _).trans ?_
        refine bind_congr_ok fun size _ => ?_
        rw [outcome_reading]
        refine bind_congr_ok fun cur' _ => ?_
        split
        · exact ih _ _
        · rfl
    · rfl

theorem set_outcome {d : Decl} {pop : Nat → PopulateLeft} (hd : LeavesAll d pop) (m : Mode) (buf : Buf)
    (k : Nat) (v : Val) : outcome (d.setLeft pop m buf k v) = d.set m buf k v := by
  unfold Decl.setLeft Decl.set
  cases hf : d.fields[k]? with
  | none => rfl
  | some f =>
    simp only
    cases hty : f.ty with
    | prim p =>
      cases v <;> try rfl
      simp only [outcome_reading, setPrim_outcome]
    | misc args =>
      cases v <;> try rfl
      simp only
      split
      · exact setArgs_outcome _ _ _ _ _ _
      · rfl
    | vecPrim p =>
      cases v <;> try rfl
      simp only [outcome_reading]
      refine bind_congr_ok fun co _ => ?_
      have key : ∀ ns : List Nat, outcome (if p.size = 8 then atOnce buf (copyInto buf co (ns.map UInt8.ofNat))
          else setElemsLeft p co ns buf) =
          if p.size = 8 then copyInto buf co (ns.map UInt8.ofNat) else setElems p co ns buf := by
        intro ns
        split
        · exact outcome_atOnce _ _
        · exact setElems_outcome _ _ _ _
      simp only [key]
      cases f.len with
      | none => rfl
      | some e =>
        simp only
        cases lenExpr m buf (d.before m buf k) e with
        | error x => rfl
        | ok len =>
          simp only [ok_bind]
          split <;> rfl
    | vecPkt c =>
      cases v <;> try rfl
      simp only [outcome_reading]
      refine bind_congr_ok fun co _ => bind_congr_ok fun len _ => bind_congr_ok fun e _ => ?_
      exact setPackets_outcome (hd k f c hf hty) _ _ _ _ _

theorem populateFrom_outcome {d : Decl} {pop : Nat → PopulateLeft} (hd : LeavesAll d pop) (m : Mode)
    (vs : List Val) (k : Nat) (buf : Buf) :
    outcome (d.populateFromLeft pop m k vs buf) = d.populateFrom m k vs buf := by
  induction vs generalizing k buf with
  | nil => rfl
  | cons v vs ih =>
    simp only [Decl.populateFromLeft, Decl.populateFrom, outcome_andThen, set_outcome hd, ih]

theorem populate_outcome {d : Decl} {pop : Nat → PopulateLeft} (hd : LeavesAll d pop) (m : Mode) (buf : Buf)
    (v : Val) : outcome (d.populateLeft pop m buf v) = d.populate m buf v := by
  cases v with
  | list vs =>
    simp only [Decl.populateLeft, Decl.populate]
    split
    · exact populateFrom_outcome hd _ _ _ _
    · rfl
  | _ => rfl

/-! ## Bytes before the field are kept -/

/-- The length and the bytes before `a` are the same. -/
def Kept (buf new : Buf) (a : Nat) : Prop :=
  new.length = buf.length ∧ new.take a = buf.take a

theorem Kept.refl (buf : Buf) (a : Nat) : Kept buf buf a := ⟨rfl, rfl⟩

theorem Kept.trans {x y z : Buf} {a : Nat} (h : Kept x y a) (h' : Kept y z a) : Kept x z a :=
  ⟨h'.1.trans h.1, h'.2.trans h.2⟩

theorem Kept.mono {x y : Buf} {a b : Nat} (h : Kept x y b) (ha : a ≤ b) : Kept x y a := by
  refine ⟨h.1, ?_⟩
  have := congrArg (List.take a) h.2
  rwa [List.take_take, List.take_take, Nat.min_eq_left ha] at this

theorem kept_reading {α : Type} {buf x : Buf} {r : Res α} {next : α → Left} {a : Nat}
    (hx : Kept x buf a) (h : ∀ v, r = .ok v → Kept x (next v).1 a) :
    Kept x (reading buf r next).1 a := by
  cases r with
  | error e => exact hx
  | ok v => exact h v rfl

theorem kept_andThen {x : Buf} {l : Left} {next : Buf → Left} {a : Nat}
    (hl : Kept x l.1 a) (h : Kept x (next l.1).1 a) : Kept x (andThen l next).1 a := by
  obtain ⟨y, r⟩ := l
  cases r with
  | error e => exact hl
  | ok v => exact h

theorem kept_setIndex {x buf : Buf} {i a : Nat} {v : UInt8} (hx : Kept x buf a) (hi : a ≤ i) :
    Kept x (atOnce buf (setIndex buf i v)).1 a := by
  unfold setIndex
  split
  · refine hx.trans ⟨by simp [atOnce], ?_⟩
    exact List.take_set_of_le hi
  · exact hx

theorem setOps_kept {W co v : Nat} {a : Nat} {x : Buf} (ops : List SetOperation) (idx : Nat) (buf : Buf)
    (hx : Kept x buf a) (ha : a ≤ co) : Kept x (setOpsLeft W co v idx ops buf).1 a := by
  induction ops generalizing idx buf with
  | nil => exact hx
  | cons op ops ih =>
    refine kept_reading hx fun old _ => kept_reading hx fun new _ => ?_
    have := kept_setIndex (v := UInt8.ofNat new) hx (i := co + idx) (by omega)
    exact kept_andThen this (ih _ _ this)

theorem setPrim_kept {p : Prim} {s co v : Nat} {a : Nat} {x buf : Buf} (hx : Kept x buf a) (ha : a ≤ co) :
    Kept x (setPrimLeft p s buf co v).1 a :=
  kept_reading hx fun _ _ => setOps_kept _ _ _ hx ha

theorem setArgs_kept {m : Mode} {L : Buf → List (Res Nat)} {x : Buf} (ps : List Prim) (vs : List Nat)
    (bit : Nat) (buf : Buf) (hx : Kept x buf 0) : Kept x (setArgsLeft m L bit ps vs buf).1 0 := by
  induction ps generalizing bit vs buf with
  | nil => cases vs <;> exact hx
  | cons p ps ih =>
    cases vs with
    | nil => exact hx
    | cons v vs =>
      refine kept_reading hx fun co _ => ?_
      have := setPrim_kept (p := p) (s := bit % 8) (co := co) (v := v) hx (Nat.zero_le _)
      exact kept_andThen this (ih _ _ _ this)

theorem setElems_kept {p : Prim} {a : Nat} {x : Buf} (vs : List Nat) (co : Nat) (buf : Buf) (hx : Kept x buf a)
    (ha : a ≤ co) : Kept x (setElemsLeft p co vs buf).1 a := by
  induction vs generalizing co buf with
  | nil => exact hx
  | cons v vs ih =>
    have := setPrim_kept (p := ⟨p.size, .big⟩) (s := 0) (v := v) hx ha
    exact kept_andThen this (ih _ _ this (by omega))

theorem copyInto_kept {a co : Nat} {x buf new : Buf} (hx : Kept x buf a) (ha : a ≤ co) :
    Kept x (atOnce buf (copyInto buf co new)).1 a := by
  unfold copyInto
  split
  · refine hx.trans ⟨?_, ?_⟩
    · simp only [atOnce, List.length_append, List.length_take, List.length_drop]; omega
    · simp only [atOnce]
      rw [List.append_assoc, List.take_append_of_le_length (by rw [List.length_take]; omega), List.take_take,
        Nat.min_eq_left ha]
  · exact hx

/-- `a = 0`: only the length. -/
theorem setPackets_kept {m : Mode} {c : Codec} {pop : PopulateLeft} (hc : Leaves c pop) {endOff a : Nat}
    {x : Buf} (hgrow : a = 0 ∨ SliceLen x.length ∧
      (m = .debug ∨ ∀ buf n, c.packetSize m buf = .ok n → n ≤ 2 ^ 63))
    (vs : List Val) (cur : Nat) (buf : Buf) (hx : Kept x buf a) (ha : a ≤ cur) :
    Kept x (setPacketsLeft m c pop endOff cur vs buf).1 a := by
  induction vs generalizing cur buf with
  | nil => exact hx
  | cons v vs ih =>
    refine kept_reading hx fun sub hsub => ?_
    obtain ⟨hle, rfl⟩ := sliceFrom_inv hsub
    split
    · have hl := hc.length m (buf.drop cur) v
      have h1 : Kept x (buf.take cur ++ (pop m (buf.drop cur) v).1) a := by
        refine hx.trans ⟨?_, ?_⟩
        · rw [List.length_append, hl, List.length_take, List.length_drop]; omega
        · rw [List.take_append_of_le_length (by rw [List.length_take]; omega), List.take_take,
            Nat.min_eq_left ha]
      refine kept_andThen (l := (_, _)) h1 (kept_reading h1 fun size hsize => kept_reading h1 fun cur' hcur' => ?_)
      split
      · refine ih _ _ h1 ?_
        rcases hgrow with rfl | ⟨hs, hgrow⟩
        · exact Nat.zero_le _
        · have hxl := hx.1
          unfold SliceLen at hs
          have : cur' = cur + size :=
            uadd_inv (hgrow.imp_right fun hh => by have := hh _ _ hsize; omega) hcur'
          omega
      · exact h1
    · exact hx

/-- `a = 0`: only the length. -/
theorem set_kept {d : Decl} {pop : Nat → PopulateLeft} (hd : LeavesAll d pop) {m : Mode} {buf : Buf}
    {k : Nat} {v : Val} {a : Nat}
    (hfix : ∀ f, d.fields[k]? = some f → a = 0 ∨ f.ty.isVec = true)
    (hco : ∀ co, curOff m (d.before m buf k).bit (d.before m buf k).lens = .ok co → a ≤ co)
    (hgrow : ∀ f c, d.fields[k]? = some f → f.ty = .vecPkt c →
      a = 0 ∨ SliceLen buf.length ∧ (m = .debug ∨ ∀ buf n, c.packetSize m buf = .ok n → n ≤ 2 ^ 63)) :
    Kept buf (d.setLeft pop m buf k v).1 a := by
  have hx := Kept.refl buf a
  unfold Decl.setLeft
  cases hf : d.fields[k]? with
  | none => exact hx
  | some f =>
    simp only
    cases hty : f.ty with
    | prim p =>
      cases v <;> try exact hx
      exact kept_reading hx fun co h => setPrim_kept hx (hco _ h)
    | misc args =>
      cases v <;> try exact hx
      simp only
      split
      · rcases hfix f hf with rfl | h
        · exact setArgs_kept _ _ _ _ hx
        · rw [hty] at h; cases h
      · exact hx
    | vecPrim p =>
      cases v <;> try exact hx
      refine kept_reading hx fun co h => kept_reading hx fun _ _ => ?_
      split
      · exact copyInto_kept hx (hco _ h)
      · exact setElems_kept _ _ _ hx (hco _ h)
    | vecPkt c =>
      cases v <;> try exact hx
      exact kept_reading hx fun co h => kept_reading hx fun _ _ => kept_reading hx fun e _ =>
        setPackets_kept (hd k f c hf hty) (hgrow f c hf hty) _ _ _ hx (hco _ h)

theorem set_left_length {d : Decl} {pop : Nat → PopulateLeft} (hd : LeavesAll d pop) (m : Mode) (buf : Buf)
    (k : Nat) (v : Val) : (d.setLeft pop m buf k v).1.length = buf.length :=
  (set_kept (a := 0) hd (fun _ _ => .inl rfl) (fun _ _ => Nat.zero_le _) (fun _ _ _ _ => .inl rfl)).1

theorem populateFrom_left_length {d : Decl} {pop : Nat → PopulateLeft} (hd : LeavesAll d pop) (m : Mode)
    (vs : List Val) (k : Nat) (buf : Buf) : (d.populateFromLeft pop m k vs buf).1.length = buf.length := by
  induction vs generalizing k buf with
  | nil => rfl
  | cons v vs ih =>
    have h := set_left_length hd m buf k v
    have hx : Kept buf (d.setLeft pop m buf k v).1 0 := ⟨h, by simp⟩
    exact (kept_andThen hx (next := fun b => d.populateFromLeft pop m (k + 1) vs b)
      ⟨(ih (k + 1) _).trans h, by simp⟩).1

theorem populate_left_length {d : Decl} {pop : Nat → PopulateLeft} (hd : LeavesAll d pop) (m : Mode)
    (buf : Buf) (v : Val) : (d.populateLeft pop m buf v).1.length = buf.length := by
  cases v with
  | list vs =>
    simp only [Decl.populateLeft]
    split
    · exact populateFrom_left_length hd _ _ _ _
    · rfl
  | _ => rfl

theorem leaves_codec {d : Decl} {pop : Nat → PopulateLeft} (hd : LeavesAll d pop) :
    Leaves d.codec (d.populateLeft pop) := ⟨populate_outcome hd, populate_left_length hd⟩

/-! ## The packets of the crate -/

theorem outcome_ok_iff {l : Left} : (∃ b, outcome l = .ok b) ↔ ¬ Failed l := by
  obtain ⟨b, r⟩ := l
  cases r with
  | error e =>
    exact ⟨fun ⟨b, h⟩ => (by cases h), fun h => absurd ⟨e, rfl⟩ h⟩
  | ok u => exact ⟨fun _ => fun ⟨e, h⟩ => (by cases h), fun _ => ⟨b, rfl⟩⟩

/-- The offset of a field of the crate. -/
theorem crate_offset {d : Decl} (hd : d ∈ crateDecls) {m : Mode} {buf : Buf} {k co : Nat}
    (hk : k ≤ d.fields.length) (h : curOff m (d.before m buf k).bit (d.before m buf k).lens = .ok co) :
    ∃ sizes, Sizes d m buf k sizes ∧ co = startOf d k sizes := by
  have hg := crateDecls_good d hd
  obtain ⟨sizes, hs⟩ := foldlM_uadd_ok h
  have hsm := hg.lens_small m buf k sizes hs
  have hle := bitsSum_take_le d.fields k
  have hb : d.bits = bitsSum d.fields := rfl
  have hco : curOff m (d.before m buf k).bit (d.before m buf k).lens =
      .ok (bitsSum (d.fields.take k) / 8 + sizes.sum) := by
    rw [before_bit, hs]
    exact curOff_ok (by unfold usizeCard; omega)
  have hst : startOf d k sizes = bitsSum (d.fields.take k) / 8 + sizes.sum := startOf_eq _ _ _
  refine ⟨sizes, lens_sizes hk hs (by rw [hst]; omega), ?_⟩
  rw [hco] at h
  cases h
  exact hst.symm

/-- Setters of fixed fields return. -/
theorem fixed_returns {d : Decl} (hd : d ∈ crateDecls) {pop : Nat → PopulateLeft} (hp : LeavesAll d pop)
    {m : Mode} {buf : Buf} (hsl : SliceLen buf.length) (hnew : (d.newPacket buf).isSome = true) {k : Nat}
    {f : Field} (hf : d.fields[k]? = some f) (hvec : f.ty.isVec = false) {w : Wire} {v : Val}
    (hty : typed w f.ty v) : ¬ Failed (d.setLeft pop m buf k v) := by
  have hr := crate_recordlike d hd
  obtain ⟨new, h1, -⟩ := Props.C03_declared_setter d hr.good.acc k f hf
    (fixed_before hr.good.reg hr.last hf hvec) (regular_plain hr.good.reg f (List.mem_of_getElem? hf))
    m w v hty buf hsl hnew
  exact outcome_ok_iff.mp ⟨new, (set_outcome hp m buf k v).trans h1⟩

/-- What a setter of a vector leaves in front of it. -/
theorem vec_kept {d : Decl} (hd : d ∈ crateDecls) {pop : Nat → PopulateLeft} (hp : LeavesAll d pop)
    {m : Mode} {buf : Buf} (hsl : SliceLen buf.length) {k : Nat} {f : Field} (hf : d.fields[k]? = some f)
    (hvec : f.ty.isVec = true) (v : Val) :
    (d.setLeft pop m buf k v).1 = buf ∨
    ∃ sizes, Sizes d m buf k sizes ∧ Kept buf (d.setLeft pop m buf k v).1 (startOf d k sizes) := by
  have hg := crateDecls_good d hd
  have hk := (List.getElem?_eq_some_iff.mp hf).1
  cases hc : curOff m (d.before m buf k).bit (d.before m buf k).lens with
  | error e =>
    left
    unfold Decl.setLeft
    rw [hf]
    simp only
    cases hty : f.ty with
    | prim p => rw [hty] at hvec; cases hvec
    | misc args => rw [hty] at hvec; cases hvec
    | vecPrim p => cases v <;> simp only [hc, reading]
    | vecPkt c => cases v <;> simp only [hc, reading]
  | ok co =>
    right
    obtain ⟨sizes, hs, rfl⟩ := crate_offset hd (Nat.le_of_lt hk) hc
    refine ⟨sizes, hs, set_kept hp (fun g hg' => ?_) (fun co' h => ?_) (fun g c hg' hc' => ?_)⟩
    · rw [hf] at hg'; cases hg'; exact .inr hvec
    · rw [hc] at h; cases h; exact Nat.le_refl _
    · exact .inr ⟨hsl, (hg.confined m g (List.mem_of_getElem? hg') c hc').2⟩

/-- One call that may panic. -/
theorem caught_step (d : Decl) (hd : d ∈ crateDecls) (pop : Nat → PopulateLeft) (hp : LeavesAll d pop)
    (m : Mode) (w : Wire) (c : Write) (buf : Buf) (hsl : SliceLen buf.length) (hnew : d.minSize ≤ buf.length)
    (hty : ∀ k v f, c = .set k v → d.fields[k]? = some f → isFixed f = true → typed w f.ty v) :
    (c.left d pop m buf).1.length = buf.length ∧ ∀ k f, d.fields[k]? = some f → f.ty.isVec = false →
      d.get m (c.left d pop m buf).1 k = match c with
        | .set j v => if j = k then .ok (normField w f.ty v) else d.get m buf k
        | .payload _ => d.get m buf k := by
  have hr := crate_recordlike d hd
  cases ho : outcome (c.left d pop m buf) with
  | ok new =>
    have h1 := outcome_inv ho
    have h2 : c.run d m buf = .ok new := by
      rw [← ho]
      cases c with
      | set k v => exact (set_outcome hp m buf k v).symm
      | payload bytes => exact (outcome_atOnce _ _).symm
    rw [h1]
    exact write_step d hd m w c buf new hsl hnew h2
  | error e =>
    cases c with
    | payload bytes =>
      have h1 : d.payloadMutCopy m buf bytes = .error e := by
        rw [← ho]; exact (outcome_atOnce _ _).symm
      have h2 : (Write.left d pop m buf (.payload bytes)).1 = buf := by
        simp only [Write.left, h1, atOnce]
      rw [h2]
      exact ⟨rfl, fun _ _ _ _ => rfl⟩
    | set j v =>
      have hl := set_left_length hp m buf j v
      refine ⟨hl, fun k f hf hvec => ?_⟩
      show d.get m (d.setLeft pop m buf j v).1 k = if j = k then _ else _
      have hfail : Failed (d.setLeft pop m buf j v) := by
        refine Classical.byContradiction fun h => ?_
        obtain ⟨b, hb⟩ := outcome_ok_iff.mpr h
        have ho' : outcome (d.setLeft pop m buf j v) = .error e := ho
        rw [hb] at ho'; cases ho'
      cases hg : d.fields[j]? with
      | none =>
        have hne : j ≠ k := by rintro rfl; rw [hg] at hf; cases hf
        rw [if_neg hne]
        simp only [Decl.setLeft, hg]
      | some g =>
        cases hgv : g.ty.isVec with
        | false =>
          have hfix := (fixed_take_succ hg (fixed_before hr.good.reg hr.last hg hgv)).2
          exact absurd hfail (fixed_returns hd hp hsl (newPacket_isSome.mpr hnew) hg hgv
            (hty j v g rfl hg hfix))
        | true =>
          have hne : j ≠ k := by
            rintro rfl
            rw [hg] at hf; cases hf
            rw [hgv] at hvec; cases hvec
          rw [if_neg hne]
          rcases vec_kept hd hp (m := m) hsl hg hgv v with h | ⟨sizes, -, h⟩
          · rw [h]
          · refine get_header hr hf hvec hnew hl ?_
            have hst : startOf d j sizes = bitsSum (d.fields.take j) / 8 + sizes.sum := startOf_eq _ _ _
            rw [bitsSum_fixed_part hr.last hg hgv] at hst
            have hb : d.bits = bitsSum d.fields := rfl
            have h8 := hr.good.bytes
            have := (h.mono (a := d.bits / 8) (by omega)).2
            have hbits := congrArg bitsOf this
            rw [bitsOf_take, bitsOf_take, show 8 * (d.bits / 8) = d.bits by omega] at hbits
            exact hbits

/-- A `populate` that may panic. -/
theorem caught_populate (d : Decl) (hd : d ∈ crateDecls) (pop : Nat → PopulateLeft) (hp : LeavesAll d pop)
    (m : Mode) (w : Wire) (us : List Val) (k : Nat) (buf : Buf) (hsl : SliceLen buf.length)
    (hnew : d.minSize ≤ buf.length) (hlen : k + us.length ≤ d.fields.length)
    (hty : ∀ i f v, d.fields[k + i]? = some f → us[i]? = some v → isFixed f = true → typed w f.ty v) :
    ∀ i f, d.fields[i]? = some f → f.ty.isVec = false →
      (i < k → d.get m (d.populateFromLeft pop m k us buf).1 i = d.get m buf i) ∧
      ∀ v, k ≤ i → us[i - k]? = some v →
        d.get m (d.populateFromLeft pop m k us buf).1 i = .ok (normField w f.ty v) := by
  have hr := crate_recordlike d hd
  induction us generalizing k buf with
  | nil => exact fun i f _ _ => ⟨fun _ => rfl, fun v _ h => (by simp at h)⟩
  | cons u us ih =>
    intro i f hf hvec
    simp only [List.length_cons] at hlen
    obtain ⟨h1, h2⟩ := caught_step d hd pop hp m w (.set k u) buf hsl hnew
      (fun j v g hc hg hfix => by
        cases hc
        exact hty 0 g u hg rfl hfix)
    have h3 := h2 i f hf hvec
    simp only [Write.left] at h1 h3
    rw [Decl.populateFromLeft]
    by_cases hfail : Failed (d.setLeft pop m buf k u)
    · have hl : (andThen (d.setLeft pop m buf k u) fun buf => d.populateFromLeft pop m (k + 1) us buf).1 =
          (d.setLeft pop m buf k u).1 := by
        obtain ⟨e, he⟩ := hfail
        unfold andThen
        rw [he]
      rw [hl]
      have hik : i < k := by
        refine Classical.byContradiction fun hik => ?_
        have hk : k < d.fields.length := by omega
        have hg : d.fields[k]? = some d.fields[k] := List.getElem?_eq_getElem hk
        have hall := List.all_eq_true.mp (vecsLast_before hr.last hf hvec) d.fields[k]
          (List.mem_of_getElem? (i := k) (by rw [List.getElem?_take_of_lt (by omega)]; exact hg))
        have hgv : d.fields[k].ty.isVec = false := by simpa using hall
        have hfix := (fixed_take_succ hg (fixed_before hr.good.reg hr.last hg hgv)).2
        exact fixed_returns hd hp hsl (newPacket_isSome.mpr hnew) hg hgv (hty 0 _ u hg rfl hfix) hfail
      exact ⟨fun _ => by rw [h3, if_neg (by omega)], fun v h => by omega⟩
    · obtain ⟨b, hb⟩ := outcome_ok_iff.mpr hfail
      have hb := outcome_inv hb
      have hl : (andThen (d.setLeft pop m buf k u) fun buf => d.populateFromLeft pop m (k + 1) us buf) =
          d.populateFromLeft pop m (k + 1) us b := by
        rw [hb]; rfl
      rw [hl]
      rw [hb] at h1 h3
      obtain ⟨h4, h5⟩ := ih (k + 1) b (by rw [h1]; exact hsl) (by rw [h1]; exact hnew) (by omega)
        (fun j g v hg hv => hty (j + 1) g v (by rw [← hg]; congr 1; omega) (by simpa using hv)) i f hf hvec
      refine ⟨fun hik => ?_, fun v hik hv => ?_⟩
      · rw [h4 (by omega), h3, if_neg (by omega)]
      · by_cases he : k = i
        · subst he
          rw [Nat.sub_self, List.getElem?_cons_zero] at hv
          cases hv
          rw [h4 (by omega), h3, if_pos rfl]
        · refine h5 v (by omega) ?_
          rw [← hv, show i - k = (i - (k + 1)) + 1 by omega, List.getElem?_cons_succ]

end Verif
