import Verif.Proofs.Protocols
import Verif.Proofs.ChecksumFields

/-! Option lists of TCP and IPv4 headers. -/

namespace Verif
open Spec

/-! ## Bits of the first byte -/

theorem byteBits_slice (b : UInt8) {s n : Nat} (h : s + n ≤ 8) :
    ofBits (bitSlice (byteBits b) s n) = b.toNat / 2 ^ (8 - s - n) % 2 ^ n := by
  rw [byteBits_eq_toBits, ofBits_bitSlice_toBits h]

theorem bitsAt_cons (b : UInt8) (rest : Buf) {s n : Nat} (h : s + n ≤ 8) :
    bitsAt (b :: rest) s n = b.toNat / 2 ^ (8 - s - n) % 2 ^ n := by
  rw [← byteBits_slice b h, bitsAt, bitsOf_cons]
  congr 1
  have hl : (byteBits b).length = 8 := by simp [byteBits]
  rw [bitSlice, bitSlice, List.drop_append_of_le_length (by omega),
    List.take_append_of_le_length (by rw [List.length_drop]; omega)]

/-! ## Reading one option -/

theorem bytes_get {d : Decl} {m : Mode} {buf : Buf} {k : Nat} {f : Field}
    (hf : d.fields[k]? = some f) {e : Endianness} (hty : f.ty = .vecPrim ⟨8, e⟩) :
    d.get m buf k = (d.getRaw m buf k).map fun raw => .nums (raw.map (·.toNat)) := by
  simp only [Decl.get, Decl.getRaw, hf, hty, getField]
  cases varSlice m buf (curOff m (d.before m buf k).bit (d.before m buf k).lens)
      (fieldLen m buf (d.before m buf k) f) with
  | error e => rfl
  | ok raw => simp [getElems_u8 raw raw.length 0 (by omega), Except.map]

theorem fromPacket_mapM (d : Decl) (m : Mode) (buf : Buf) :
    d.fromPacket m buf = .list <$> ((List.range d.fields.length).map (d.get m buf)).mapM id := by
  rw [Decl.fromPacket, final_vals]

/-- What an option codec does on a non-empty buffer. -/
structure OptCodec (m : Mode) (c : Codec) (solo : UInt8 → Bool) (toVal : Opt → Val) : Prop where
  min : c.minSize = 1
  soloSize : ∀ k rest, solo k = true → c.packetSize m (k :: rest) = .ok 1
  soloDec : ∀ k rest, solo k = true → c.fromPacket m (k :: rest) = .ok (toVal ⟨k, none, []⟩)
  cutSize : ∀ k, solo k = false → c.packetSize m [k] = .ok 2
  cutDec : ∀ k, solo k = false → c.fromPacket m [k] = panic
  longSize : ∀ k l rest, solo k = false →
    c.packetSize m (k :: l :: rest) = .ok (2 + (l.toNat - 2))
  longDec : ∀ k l rest, solo k = false →
    c.fromPacket m (k :: l :: rest) = .ok (toVal ⟨k, some l, rest.take (l.toNat - 2)⟩)

/-- An option declaration: fixed fields making up one byte, then the length byte (field `j`, only
for kinds that are not solo) and the data (field `j + 1`). -/
structure OptDecl (d : Decl) (j : Nat) (solo : UInt8 → Bool) : Prop where
  acc : d.accepted = true
  count : d.fields.length = j + 2
  fixed : (d.fields.take j).all Field.fixed = true
  byte : bitsSum (d.fields.take j) = 8
  bits : d.bits = 8
  lenField : ∃ f e, d.fields[j]? = some f ∧ f.len = some e ∧ f.ty = .vecPrim (u 8) ∧
    ∀ m k rest, lenExpr m (k :: rest) (d.before m (k :: rest) j) e =
      .ok (if solo k then 0 else 1)
  dataField : ∃ f e, d.fields[j + 1]? = some f ∧ f.len = some e ∧ f.ty = .vecPrim (u 8) ∧
    ∀ m buf ns, d.get m buf j = .ok (.nums ns) →
      lenExpr m buf (d.before m buf (j + 1)) e = .ok (ns.headD 0 - 2)

theorem OptDecl.lens {d : Decl} {j : Nat} {solo : UInt8 → Bool} (h : OptDecl d j solo) (m : Mode)
    (k : UInt8) (rest : Buf) :
    (d.before m (k :: rest) (j + 1)).lens = [if solo k then 0 else 1].map .ok := by
  obtain ⟨f, e, hf, he, -, hl⟩ := h.lenField
  rw [before_lens_succ hf he, (before_fixed h.fixed m _).2, hl]; rfl

theorem OptDecl.length {d : Decl} {j : Nat} {solo : UInt8 → Bool} (h : OptDecl d j solo) (m : Mode)
    (k : UInt8) (rest : Buf) :
    d.getRaw m (k :: rest) j = .ok (rest.take (if solo k then 0 else 1)) := by
  obtain ⟨f, e, hf, he, hty, hl⟩ := h.lenField
  have h8 := h.byte
  have := (getRaw_eq (m := m) (buf := k :: rest) (sizes := []) hf (before_fixed h.fixed m _).2
    (by rw [fieldLen, he]; exact hl m k rest) (by rw [h8]; split <;> simp)).1 (by rw [h8]; simp)
  rw [this, h8]
  rfl

theorem OptDecl.dataLens {d : Decl} {j : Nat} {solo : UInt8 → Bool} (h : OptDecl d j solo) (m : Mode)
    (k : UInt8) (rest : Buf) {f : Field} (hf : d.fields[j + 1]? = some f) :
    fieldLen m (k :: rest) (d.before m (k :: rest) (j + 1)) f =
      .ok (((rest.take (if solo k then 0 else 1)).map (·.toNat)).headD 0 - 2) := by
  obtain ⟨f', e, hf', he, hty, hl⟩ := h.dataField
  rw [hf] at hf'; cases hf'
  rw [fieldLen, he]
  apply hl
  obtain ⟨g, e', hg, -, hgt, -⟩ := h.lenField
  rw [bytes_get hg hgt, h.length]; rfl

theorem headD_le (l : List UInt8) : (l.map (·.toNat)).headD 0 - 2 < 256 := by
  cases l with
  | nil => decide
  | cons a l =>
    have := a.toNat_lt
    simp; omega

theorem OptDecl.data {d : Decl} {j : Nat} {solo : UInt8 → Bool} (h : OptDecl d j solo) (m : Mode)
    (k : UInt8) (rest : Buf) :
    d.getRaw m (k :: rest) (j + 1) =
      if solo k then .ok [] else
        match rest with
        | [] => panic
        | l :: rest => .ok (rest.take (l.toNat - 2)) := by
  obtain ⟨f, e, hf, he, hty, -⟩ := h.dataField
  have hlt := headD_le (rest.take (if solo k then 0 else 1))
  have hif : (if solo k then 0 else 1) ≤ 1 := by split <;> omega
  have h8 : bitsSum (d.fields.take (j + 1)) = 8 := by
    obtain ⟨g, e', hg, -, hgt, -⟩ := h.lenField
    rw [bitsSum_take_succ hg, h.byte, hgt]; rfl
  have := getRaw_eq (m := m) (buf := k :: rest) hf (h.lens m k rest) (h.dataLens m k rest hf)
    (by rw [h8]; simp only [List.sum_cons, List.sum_nil]; omega)
  rw [h8] at this
  cases hs : solo k with
  | true =>
    simp only [hs, ↓reduceIte] at this ⊢
    rw [this.1 (by simp)]
    simp
  | false =>
    simp only [hs, Bool.false_eq_true, ↓reduceIte] at this ⊢
    cases rest with
    | nil => exact this.2 (by simp)
    | cons l rest =>
      rw [this.1 (by simp)]
      rfl

theorem OptDecl.size {d : Decl} {j : Nat} {solo : UInt8 → Bool} (h : OptDecl d j solo) (m : Mode)
    (k : UInt8) (rest : Buf) :
    d.packetSize m (k :: rest) = .ok (1 + (if solo k then 0 else 1) +
      (((rest.take (if solo k then 0 else 1)).map (·.toNat)).headD 0 - 2)) := by
  obtain ⟨f, e, hf, he, hty, -⟩ := h.dataField
  have hlt := headD_le (rest.take (if solo k then 0 else 1))
  have hif : (if solo k then 0 else 1) ≤ 1 := by split <;> omega
  have hd := h.dataLens m k rest hf
  rw [fieldLen, he] at hd
  dsimp only at hd
  rw [packetSize_eq (sizes := [if solo k then 0 else 1,
    ((rest.take (if solo k then 0 else 1)).map (·.toNat)).headD 0 - 2])]
  · rw [h.bits]; congr 1; simp; omega
  · rw [h.count, before_lens_succ hf he, h.lens, hd]; rfl
  · rw [h.bits]; simp only [List.sum_cons, List.sum_nil]; omega

/-! ## Reading a list of options -/

theorem OptParse.unique {solo : UInt8 → Bool} {raw : Buf} {os os' : List Opt}
    (h : OptParse solo raw os) (h' : OptParse solo raw os') : os = os' := by
  induction h generalizing os' with
  | nil => cases h'; rfl
  | solo hs _ ih =>
    cases h' with
    | solo _ h2 => rw [ih h2]
    | long hn _ => rw [hs] at hn; cases hn
  | long hn _ ih =>
    cases h' with
    | solo hs _ => rw [hs] at hn; cases hn
    | long _ h2 => rw [ih h2]

/-- Collecting options either reads the whole list or panics, and the latter exactly when the list
ends inside an option header. -/
theorem collect_opts {m : Mode} {c : Codec} {solo : UInt8 → Bool} {toVal : Opt → Val}
    (hc : OptCodec m c solo toVal) (fuel : Nat) (raw : Buf) (h : raw.length ≤ fuel) :
    (∃ os, OptParse solo raw os ∧ c.collect m fuel raw = .ok (os.map toVal)) ∨
      ((∀ os, ¬ OptParse solo raw os) ∧ c.collect m fuel raw = panic) := by
  induction fuel generalizing raw with
  | zero =>
    have : raw = [] := List.length_eq_zero_iff.mp (by omega)
    subst this
    exact .inl ⟨[], .nil, rfl⟩
  | succ fuel ih =>
    match raw, h with
    | [], _ =>
      refine .inl ⟨[], .nil, ?_⟩
      simp only [Codec.collect]
      rw [next_eq, if_neg (by simp)]; rfl
    | k :: rest, h =>
      have hmin : (k :: rest).length > 0 ∧ c.minSize ≤ (k :: rest).length := by
        rw [hc.min]; simp
      simp only [Codec.collect]
      rw [next_eq, if_pos hmin]
      cases hs : solo k with
      | true =>
        rw [hc.soloSize k rest hs]
        simp only [ok_map, ok_bind, hc.soloDec k rest hs, List.drop_succ_cons, List.drop_zero]
        rw [if_pos (by simp)]
        rcases ih rest (by simpa using h) with ⟨os, h1, h2⟩ | ⟨h1, h2⟩
        · exact .inl ⟨⟨k, none, []⟩ :: os, .solo hs h1, by rw [h2]; rfl⟩
        · refine .inr ⟨fun os ho => ?_, by rw [h2]; rfl⟩
          cases ho with
          | solo _ h3 => exact h1 _ h3
          | long hn _ => rw [hs] at hn; cases hn
      | false =>
        match rest, h with
        | [], _ =>
          rw [hc.cutSize k hs]
          simp only [ok_map, ok_bind, hc.cutDec k hs, panic_bind]
          refine .inr ⟨fun os ho => ?_, trivial⟩
          cases ho with
          | solo h3 _ => rw [hs] at h3; cases h3
        | l :: rest, h =>
          rw [hc.longSize k l rest hs]
          simp only [ok_map, ok_bind, hc.longDec k l rest hs]
          have hd : (k :: l :: rest).drop (2 + (l.toNat - 2)) = rest.drop (l.toNat - 2) := by
            rw [Nat.add_comm]; rfl
          rw [hd, if_pos (by simp; omega)]
          rcases ih (rest.drop (l.toNat - 2)) (by simp at h ⊢; omega) with ⟨os, h1, h2⟩ | ⟨h1, h2⟩
          · exact .inl ⟨_ :: os, .long hs h1, by rw [h2]; rfl⟩
          · refine .inr ⟨fun os ho => ?_, by rw [h2]; rfl⟩
            cases ho with
            | solo h3 _ => rw [hs] at h3; cases h3
            | long _ h3 => exact h1 _ h3

/-! ## The two option types -/

theorem tcpOption_get0 (m : Mode) (k : UInt8) (rest : Buf) :
    tcpOption.get m (k :: rest) 0 = .ok (.nums [k.toNat]) := by
  have := layoutOk_get (d := tcpOption) (L := tcpOptionLayout) (by decide +kernel) (k := 0) rfl m
    (k :: rest) (by simp [show tcpOption.minSize = 1 from rfl])
  rw [this]
  simp only [Slot.read, intsAt, bitsAt_cons k rest (s := 0) (n := 8) (by omega)]
  rw [show (8 - 0 - 8) = 0 from rfl, Nat.pow_zero, Nat.div_one, Nat.mod_eq_of_lt k.toNat_lt]

theorem tcpOption_decl : OptDecl tcpOption 1 tcpSolo where
  acc := by decide
  count := rfl
  fixed := rfl
  byte := rfl
  bits := rfl
  lenField := by
    refine ⟨_, _, rfl, rfl, rfl, fun m k rest => ?_⟩
    rw [lenExpr, before_get (by decide) (by decide), tcpOption_get0]
    simp only [ok_bind, Val.asTuple1, tcpOptionLength, tcpSolo]
    congr 1
    by_cases h0 : k.toNat = 0
    · simp [h0]
    · by_cases h1 : k.toNat = 1
      · simp [h1]
      · have : ¬ k.toNat < 2 := by omega
        simp [h0, h1, this]
  dataField := by
    refine ⟨_, _, rfl, rfl, rfl, fun m buf ns h => ?_⟩
    rw [lenExpr, before_get (by decide) (by decide), h]
    simp only [ok_bind, Val.asNums, tcpOptionPayloadLength]
    congr 1
    cases ns with
    | nil => rfl
    | cons n ns => simp; omega

theorem tcpOption_optCodec (m : Mode) : OptCodec m tcpOption.codec tcpSolo Opt.tcpVal := by
  have hd := tcpOption_decl
  have dec : ∀ k rest, tcpOption.fromPacket m (k :: rest) =
      (tcpOption.getRaw m (k :: rest) 2).map fun data =>
        .list [.nums [k.toNat], .nums ((rest.take (if tcpSolo k then 0 else 1)).map (·.toNat)),
          .nums (data.map (·.toNat))] := by
    intro k rest
    rw [fromPacket_mapM]
    have h1 : tcpOption.get m (k :: rest) 1 =
        .ok (.nums ((rest.take (if tcpSolo k then 0 else 1)).map (·.toNat))) := by
      rw [bytes_get (d := tcpOption) (k := 1) rfl rfl, hd.length]; rfl
    have h2 := bytes_get (d := tcpOption) (m := m) (buf := k :: rest) (k := 2) rfl rfl
    simp only [show List.range tcpOption.fields.length = [0, 1, 2] from rfl, List.map_cons,
      List.map_nil, List.mapM_cons, List.mapM_nil, id, tcpOption_get0, h1, h2]
    cases tcpOption.getRaw m (k :: rest) 2 <;> rfl
  refine ⟨rfl, ?_, ?_, ?_, ?_, ?_, ?_⟩
  · intro k rest h; show tcpOption.packetSize m _ = _; rw [hd.size, h]; rfl
  · intro k rest h; show tcpOption.fromPacket m _ = _; rw [dec, hd.data, h]; rfl
  · intro k h; show tcpOption.packetSize m _ = _; rw [hd.size, h]; rfl
  · intro k h; show tcpOption.fromPacket m _ = _; rw [dec, hd.data, h]; rfl
  · intro k l rest h; show tcpOption.packetSize m _ = _; rw [hd.size, h]; rfl
  · intro k l rest h; show tcpOption.fromPacket m _ = _; rw [dec, hd.data, h]; rfl

theorem ipv4Option_get (m : Mode) (k : UInt8) (rest : Buf) :
    ipv4Option.get m (k :: rest) 0 = .ok (.num (k.toNat / 128)) ∧
    ipv4Option.get m (k :: rest) 1 = .ok (.num (k.toNat / 32 % 4)) ∧
    ipv4Option.get m (k :: rest) 2 = .ok (.nums [k.toNat % 32]) := by
  have hl : layoutOk ipv4Option ipv4OptionLayout = true := by decide +kernel
  have hm : ipv4Option.minSize ≤ (k :: rest).length := by simp [show ipv4Option.minSize = 1 from rfl]
  have hk := k.toNat_lt
  refine ⟨?_, ?_, ?_⟩
  · rw [layoutOk_get hl (k := 0) rfl m _ hm]
    simp only [Slot.read, bitsAt_cons k rest (s := 0) (n := 1) (by omega)]
    congr 2
    show k.toNat / 128 % 2 = _
    omega
  · rw [layoutOk_get hl (k := 1) rfl m _ hm]
    simp only [Slot.read, bitsAt_cons k rest (s := 1) (n := 2) (by omega)]
  · rw [layoutOk_get hl (k := 2) rfl m _ hm]
    simp only [Slot.read, intsAt, bitsAt_cons k rest (s := 3) (n := 5) (by omega)]
    rw [show 8 - 3 - 5 = 0 from rfl, Nat.pow_zero, Nat.div_one]

theorem ipv4Option_decl : OptDecl ipv4Option 3 ipv4Solo where
  acc := by decide
  count := rfl
  fixed := rfl
  byte := rfl
  bits := rfl
  lenField := by
    refine ⟨_, _, rfl, rfl, rfl, fun m k rest => ?_⟩
    rw [lenExpr, before_get (by decide) (by decide), (ipv4Option_get m k rest).2.2]
    simp only [ok_bind, Val.asTuple1, ipv4OptionLength, ipv4Solo]
    congr 1
    by_cases h0 : k.toNat % 32 = 0
    · simp [h0]
    · by_cases h1 : k.toNat % 32 = 1
      · simp [h1]
      · have : ¬ k.toNat % 32 < 2 := by omega
        simp [h0, h1, this]
  dataField := by
    refine ⟨_, _, rfl, rfl, rfl, fun m buf ns h => ?_⟩
    rw [lenExpr, before_get (by decide) (by decide), h]
    simp only [ok_bind, Val.asNums, ipv4OptionPayloadLength]
    cases ns <;> rfl

theorem ipv4Option_optCodec (m : Mode) : OptCodec m ipv4Option.codec ipv4Solo Opt.ipv4Val := by
  have hd := ipv4Option_decl
  have dec : ∀ k rest, ipv4Option.fromPacket m (k :: rest) =
      (ipv4Option.getRaw m (k :: rest) 4).map fun data =>
        .list [.num (k.toNat / 128), .num (k.toNat / 32 % 4), .nums [k.toNat % 32],
          .nums ((rest.take (if ipv4Solo k then 0 else 1)).map (·.toNat)),
          .nums (data.map (·.toNat))] := by
    intro k rest
    rw [fromPacket_mapM]
    have h1 : ipv4Option.get m (k :: rest) 3 =
        .ok (.nums ((rest.take (if ipv4Solo k then 0 else 1)).map (·.toNat))) := by
      rw [bytes_get (d := ipv4Option) (k := 3) rfl rfl, hd.length]; rfl
    have h2 := bytes_get (d := ipv4Option) (m := m) (buf := k :: rest) (k := 4) rfl rfl
    have h3 := ipv4Option_get m k rest
    simp only [show List.range ipv4Option.fields.length = [0, 1, 2, 3, 4] from rfl, List.map_cons,
      List.map_nil, List.mapM_cons, List.mapM_nil, id, h3, h1, h2]
    cases ipv4Option.getRaw m (k :: rest) 4 <;> rfl
  refine ⟨rfl, ?_, ?_, ?_, ?_, ?_, ?_⟩
  · intro k rest h; show ipv4Option.packetSize m _ = _; rw [hd.size, h]; rfl
  · intro k rest h; show ipv4Option.fromPacket m _ = _; rw [dec, hd.data, h]; rfl
  · intro k h; show ipv4Option.packetSize m _ = _; rw [hd.size, h]; rfl
  · intro k h; show ipv4Option.fromPacket m _ = _; rw [dec, hd.data, h]; rfl
  · intro k l rest h; show ipv4Option.packetSize m _ = _; rw [hd.size, h]; rfl
  · intro k l rest h; show ipv4Option.fromPacket m _ = _; rw [dec, hd.data, h]; rfl

/-! ## Iterating and formatting options -/

theorem items_opts {m : Mode} {c : Codec} {solo : UInt8 → Bool} {toVal : Opt → Val}
    (hc : OptCodec m c solo toVal) (fuel : Nat) (raw : Buf) :
    ∃ ps, c.items m fuel raw = .ok ps ∧ ∀ p ∈ ps, 1 ≤ p.length := by
  induction fuel generalizing raw with
  | zero => exact ⟨[], rfl, by simp⟩
  | succ fuel ih =>
    simp only [Codec.items]
    rw [next_eq]
    match raw with
    | [] => exact ⟨[], by rw [if_neg (by simp)]; rfl, by simp⟩
    | k :: rest =>
      rw [if_pos (by rw [hc.min]; simp)]
      have step : ∀ n, c.packetSize m (k :: rest) = .ok (1 + n) →
          ∃ ps, (do
            match ← (fun n => some (k :: rest, (k :: rest).drop n)) <$> c.packetSize m (k :: rest) with
            | none => Except.ok []
            | some (p, rest') =>
              if rest'.length < (k :: rest).length then do
                let vs ← c.items m fuel rest'
                Except.ok (p :: vs)
              else Except.error .hang : Res (List Buf)) = .ok ps ∧ ∀ p ∈ ps, 1 ≤ p.length := by
        intro n hn
        rw [hn]
        simp only [ok_map, ok_bind]
        rw [if_pos (by simp; omega)]
        obtain ⟨ps, h1, h2⟩ := ih ((k :: rest).drop (1 + n))
        refine ⟨(k :: rest) :: ps, by rw [h1]; rfl, ?_⟩
        intro p hp
        rcases List.mem_cons.mp hp with rfl | hp
        · simp
        · exact h2 p hp
      cases hs : solo k with
      | true => exact step 0 (hc.soloSize k rest hs)
      | false =>
        match rest with
        | [] => exact step 1 (hc.cutSize k hs)
        | l :: rest => exact step (1 + (l.toNat - 2)) (by rw [hc.longSize k l rest hs]; congr 1; omega)

theorem pkt_get {d : Decl} {m : Mode} {buf : Buf} {k : Nat} {f : Field}
    (hf : d.fields[k]? = some f) {c : Codec} (hty : f.ty = .vecPkt c) :
    d.get m buf k = (d.getRaw m buf k >>= fun raw => .list <$> c.collect m raw.length raw) := by
  simp only [Decl.get, Decl.getRaw, hf, hty, getField]

/-! ## Well-formed options -/

theorem Opt.parse_bytes {solo : UInt8 → Bool} (os : List Opt) (h : ∀ o ∈ os, o.wf solo) :
    OptParse solo (os.flatMap Opt.bytes) os := by
  induction os with
  | nil => exact .nil
  | cons o os ih =>
    have ho := h o (by simp)
    have ih' := ih fun x hx => h x (by simp [hx])
    obtain ⟨k, len, data⟩ := o
    simp only [Opt.wf] at ho
    cases hs : solo k with
    | true =>
      simp only [hs, ↓reduceIte] at ho
      obtain ⟨rfl, rfl⟩ := ho
      exact .solo hs ih'
    | false =>
      simp only [hs, Bool.false_eq_true, ↓reduceIte] at ho
      obtain ⟨l, rfl, hl⟩ := ho
      have := OptParse.long (solo := solo) (k := k) (l := l) (rest := data ++ os.flatMap Opt.bytes)
        (os := os) hs (by
          rw [show l.toNat - 2 = data.length by omega, List.drop_left]; exact ih')
      rw [show l.toNat - 2 = data.length by omega, List.take_left] at this
      simpa [List.flatMap_cons, Opt.bytes] using this

theorem map_ofNat_toNat (l : Buf) : (l.map (·.toNat)).map UInt8.ofNat = l := by
  induction l with
  | nil => rfl
  | cons a l ih => rw [List.map_cons, List.map_cons, ih, UInt8.ofNat_toNat]

theorem bytes_flatMap (l : Buf) : (l.map (·.toNat)).flatMap (toBits 8) = bitsOf l := by
  rw [flatMap_toBits8, map_ofNat_toNat]

theorem packBits_bitsOf (l : Buf) : packBits (bitsOf l) = l := by
  apply bitsOf_inj
  rw [bitsOf_packBits (by rw [bitsOf_length]; omega)]

theorem map_mod_toNat (l : Buf) : (l.map (·.toNat)).map (· % 2 ^ 8) = l.map (·.toNat) := by
  rw [List.map_map]
  apply List.map_congr_left
  intro a _
  exact Nat.mod_eq_of_lt a.toNat_lt

/-- A wire format without elements. -/
abbrev noWire : Nat → Wire := fun _ => ⟨fun _ => [], id, fun _ => False⟩

theorem tcpVal_enc (m : Mode) (o : Opt) : (declWire m noWire tcpOption).enc o.tcpVal = o.bytes := by
  simp only [declWire, Opt.tcpVal, tcpOption, fmisc, fbytes, fpayload, encFields, encField,
    List.map_cons, List.map_nil, List.zipWith_cons_cons, List.zipWith_nil_right,
    List.flatten_cons, List.flatten_nil, List.append_nil]
  rw [bytes_flatMap, bytes_flatMap, ← byteBits_eq_toBits, ← bitsOf_append, ← bitsOf_cons,
    packBits_bitsOf]
  rfl

theorem toNat_lenList (o : Option UInt8) : o.toList.map (·.toNat) = (o.map (·.toNat)).toList := by
  cases o <;> rfl

theorem tcpVal_valid (m : Mode) (o : Opt) (h : o.wf tcpSolo) :
    (declWire m noWire tcpOption).valid o.tcpVal := by
  obtain ⟨k, len, data⟩ := o
  have hk := k.toNat_lt
  have hmod : k.toNat % 2 ^ 8 = k.toNat := Nat.mod_eq_of_lt hk
  simp only [declWire, Opt.tcpVal, tcpOption, fmisc, fbytes, fpayload, typedFields, typed,
    lensAgree, normField, encField, List.map_cons, List.map_nil, List.length_cons, List.length_nil,
    List.zipWith_cons_cons, List.zipWith_nil_right, hmod, true_and, and_true, map_mod_toNat,
    bytes_flatMap, bitsOf_length, List.nil_append, reduceCtorEq, false_implies, implies_true,
    Option.some.injEq, forall_eq', List.cons_append]
  simp only [Opt.wf, tcpSolo] at h
  by_cases hs : k.toNat < 2
  · simp only [hs, decide_true, ↓reduceIte] at h
    obtain ⟨rfl, rfl⟩ := h
    refine ⟨fun _ => ?_, fun _ => rfl⟩
    simp only [env, List.getElem?_cons_zero, ok_bind, Val.asTuple1, tcpOptionLength]
    congr 1
    have : k.toNat = 0 ∨ k.toNat = 1 := by omega
    rcases this with h | h <;> simp [h]
  · simp only [hs, decide_false, Bool.false_eq_true, ↓reduceIte] at h
    obtain ⟨l, rfl, hl⟩ := h
    refine ⟨fun _ => ?_, fun _ => ?_⟩
    · simp only [env, List.getElem?_cons_zero, ok_bind, Val.asTuple1, tcpOptionLength]
      rw [if_neg (by omega), if_neg (by omega)]
      simp
    · simp only [env, List.getElem?_cons_succ, List.getElem?_cons_zero, ok_bind, Val.asNums,
        Option.toList_some, List.map_cons, List.map_nil, tcpOptionPayloadLength]
      rw [if_pos (by omega)]
      congr 1; omega

theorem ipv4_kind_bits (k : UInt8) :
    toBits 1 (k.toNat / 128) ++ (toBits 2 (k.toNat / 32 % 4) ++ toBits 5 (k.toNat % 32)) =
      byteBits k := by
  have key : ∀ i < 256, toBits 1 (i / 128) ++ (toBits 2 (i / 32 % 4) ++ toBits 5 (i % 32)) =
      toBits 8 i := by decide +kernel
  rw [byteBits_eq_toBits]
  exact key _ k.toNat_lt

theorem ipv4Val_enc (m : Mode) (o : Opt) :
    (declWire m noWire ipv4Option).enc o.ipv4Val = o.bytes := by
  simp only [declWire, Opt.ipv4Val, ipv4Option, fprim, fmisc, fbytes, fpayload, encFields, encField,
    List.map_cons, List.map_nil, List.zipWith_cons_cons, List.zipWith_nil_right,
    List.flatten_cons, List.flatten_nil, List.append_nil]
  rw [bytes_flatMap, bytes_flatMap]
  have := ipv4_kind_bits o.kind
  simp only [← List.append_assoc] at this ⊢
  rw [this, List.append_assoc, ← bitsOf_append, ← bitsOf_cons, packBits_bitsOf]
  rfl

theorem ipv4Val_valid (m : Mode) (o : Opt) (h : o.wf ipv4Solo) :
    (declWire m noWire ipv4Option).valid o.ipv4Val := by
  obtain ⟨k, len, data⟩ := o
  have hk := k.toNat_lt
  have hmod : k.toNat % 32 % 2 ^ 5 = k.toNat % 32 := Nat.mod_eq_of_lt (by omega)
  simp only [declWire, Opt.ipv4Val, ipv4Option, fprim, fmisc, fbytes, fpayload, typedFields, typed,
    lensAgree, normField, encField, List.map_cons, List.map_nil, List.length_cons, List.length_nil,
    List.zipWith_cons_cons, List.zipWith_nil_right, hmod, true_and, and_true, map_mod_toNat,
    bytes_flatMap, bitsOf_length, List.nil_append, reduceCtorEq, false_implies, implies_true,
    Option.some.injEq, forall_eq', List.cons_append]
  simp only [Opt.wf, ipv4Solo] at h
  by_cases hs : k.toNat % 32 < 2
  · simp only [hs, decide_true, ↓reduceIte] at h
    obtain ⟨rfl, rfl⟩ := h
    refine ⟨fun _ => ?_, fun _ => rfl⟩
    simp only [env, List.getElem?_cons_succ, List.getElem?_cons_zero, ok_bind, Val.asTuple1,
      ipv4OptionLength]
    congr 1
    have : k.toNat % 32 = 0 ∨ k.toNat % 32 = 1 := by omega
    rcases this with h | h <;> simp [h]
  · simp only [hs, decide_false, Bool.false_eq_true, ↓reduceIte] at h
    obtain ⟨l, rfl, hl⟩ := h
    refine ⟨fun _ => ?_, fun _ => ?_⟩
    · simp only [env, List.getElem?_cons_succ, List.getElem?_cons_zero, ok_bind, Val.asTuple1,
        ipv4OptionLength]
      rw [if_neg (by omega), if_neg (by omega)]
      simp
    · simp only [env, List.getElem?_cons_succ, List.getElem?_cons_zero, ok_bind, Val.asNums,
        Option.toList_some, List.map_cons, List.map_nil, ipv4OptionPayloadLength]
      congr 1; omega

/-! ## Writing options -/

theorem bitsAt_prefix (a b : Buf) {s n : Nat} (h : s + n ≤ 8 * a.length) :
    bitsAt (a ++ b) s n = bitsAt a s n := by
  rw [bitsAt, bitsAt, bitsOf_append]
  congr 1
  have hl := bitsOf_length a
  rw [bitSlice, bitSlice, List.drop_append_of_le_length (by omega),
    List.take_append_of_le_length (by rw [List.length_drop]; omega)]

/-- The options setter of a header with 20 fixed bytes. -/
theorem set_options {d : Decl} {m : Mode} {buf : Buf} {k area : Nat} {f : Field} {d' : Decl}
    {vs : List Val} {bytes : Buf} (hin : Inner d') (hf : d.fields[k]? = some f)
    (hty : f.ty = .vecPkt d'.codec) (hfix : (d.fields.take k).all Field.fixed = true)
    (h20 : bitsSum (d.fields.take k) = 160)
    (hlen : fieldLen m buf (d.before m buf k) f = .ok area) (harea : area < 2 ^ 20)
    (hv : ∀ v ∈ vs, (declWire m noWire d').valid v)
    (hb : vs.flatMap (declWire m noWire d').enc = bytes) (hsz : bytes.length ≤ area)
    (hfit : 20 + bytes.length ≤ buf.length) (hsl : SliceLen buf.length) :
    d.set m buf k (.list vs) = .ok (buf.take 20 ++ bytes ++ buf.drop (20 + bytes.length)) := by
  have hbf := before_fixed hfix m buf
  have hco : curOff m (d.before m buf k).bit (d.before m buf k).lens = .ok 20 := by
    rw [hbf.1, hbf.2, h20]; rfl
  rw [Decl.set, hf]
  simp only [hty, hco, ok_bind, hlen]
  rw [uadd_ok (by unfold usizeCard; omega), ok_bind]
  have hsplit : buf = buf.take 20 ++ (buf.drop 20).take bytes.length ++ buf.drop (20 + bytes.length) := by
    rw [List.append_assoc, ← List.drop_drop, List.take_append_drop, List.take_append_drop]
  have h20' : (buf.take 20).length = 20 := by rw [List.length_take]; omega
  have hml : ((buf.drop 20).take bytes.length).length = bytes.length := by
    rw [List.length_take, List.length_drop]; omega
  have := setPackets_enc (hin.lawful m noWire) vs hv (buf.take 20) ((buf.drop 20).take bytes.length)
    (buf.drop (20 + bytes.length)) (20 + area) (by rw [hb, hml]) (by rw [h20', hml]; omega)
    (by rw [← hsplit]; exact hsl)
  rw [← hsplit, h20', hb] at this
  exact this

theorem octets32_length (acks : List Nat) : (acks.flatMap octets32).length = 4 * acks.length := by
  induction acks with
  | nil => rfl
  | cons a as ih => simp only [List.flatMap_cons, List.length_append, ih, octets32, List.length_cons,
      List.length_nil]; omega

end Verif
