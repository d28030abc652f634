import Verif.Proofs.Crate
import Verif.Props.Generated

/-!
# Vector fields, iterators, storage (C02, C03, C14 - C16, C19 - C21, C53, C54, C56, C57)
-/

namespace Verif.Props
open Spec

/-! ## C02, C03, C54 for whole declarations -/

/-- **C03** for a field of a declaration (`construct_with` fields included): setting a fixed-size
field that only fixed-size fields precede replaces exactly its bits by the digits of the value. -/
theorem C03_declared_setter (d : Decl) (hacc : d.accepted = true) (k : Nat) (f : Field)
    (hf : d.fields[k]? = some f) (hfix : (d.fields.take (k + 1)).all isFixed = true)
    (hbig : plainTy f.ty = true) (m : Mode) (w : Wire) (v : Val) (hv : typed w f.ty v) (buf : Buf)
    (hsl : SliceLen buf.length) (hnew : (d.newPacket buf).isSome = true) :
    ∃ new, d.set m buf k v = .ok new ∧ new.length = buf.length ∧
      bitsOf new = (bitsOf buf).take (fixedBits (d.fields.take k)) ++ encField w f.ty v ++
        (bitsOf buf).drop (fixedBits (d.fields.take k) + (intWidths f.ty).sum) := by
  have hb := new_bits hnew
  have hle := bitsSum_field_le hf
  have hw : (intWidths f.ty).sum = f.ty.bits := by cases f.ty <;> simp [intWidths, Ty.bits]
  rw [fixedBits_eq, hw]
  exact set_fixed_big (accepted_fields hacc) hf hfix hbig m hv buf hsl (by omega)

example := C03_declared_setter ethernet (by decide) 2 (fmisc "ethertype" [16]) rfl (by decide) (by decide)
  .debug (noInner 0) (.nums [0x86DD]) rfl (List.replicate 14 0) (by decide) (by decide)

/-- **C02** for a field of a declaration: after `set_<field>(v)`, `get_<field>()` returns `v` with
its integers reduced to their widths. -/
theorem C02_declared_set_then_get (d : Decl) (hacc : d.accepted = true) (k : Nat) (f : Field)
    (hf : d.fields[k]? = some f) (hfix : (d.fields.take (k + 1)).all isFixed = true)
    (hbig : plainTy f.ty = true) (m : Mode) (w : Wire) (v : Val) (hv : typed w f.ty v) (buf : Buf)
    (hsl : SliceLen buf.length) (hnew : (d.newPacket buf).isSome = true) :
    ∃ new, d.set m buf k v = .ok new ∧ d.get m new k = .ok (normField w f.ty v) := by
  obtain ⟨new, h1, h2, h3⟩ := C03_declared_setter d hacc k f hf hfix hbig m w v hv buf hsl hnew
  refine ⟨new, h1, ?_⟩
  have hb := new_bits hnew
  have hle := bitsSum_field_le hf
  have hnew' : (d.newPacket new).isSome = true := by
    rw [(C06_new_iff d new).1, h2]; exact (C06_new_iff d buf).1.mp hnew
  rw [C07_fixed_getter_value d hacc k f hf hfix hbig m new hnew', h3]
  have hvec : f.ty.isVec = false := by
    have := (fixed_take_succ hf hfix).2
    simp only [Field.fixed, Bool.and_eq_true, Bool.not_eq_true'] at this; exact this.1
  rw [decode_splice hv hvec (by rw [List.length_take, bitsOf_length, fixedBits_eq]; omega)]

example := C02_declared_set_then_get ethernet (by decide) 2 (fmisc "ethertype" [16]) rfl (by decide)
  (by decide) .debug (noInner 0) (.nums [0x86DD]) rfl (List.replicate 14 0) (by decide) (by decide)

/-- **C54** for two fields of a declaration: their setters commute. -/
theorem C54_declared_setters_commute (d : Decl) (hacc : d.accepted = true) (j k : Nat) (hjk : j < k)
    (f g : Field) (hf : d.fields[j]? = some f) (hg : d.fields[k]? = some g)
    (hfix : (d.fields.take (k + 1)).all isFixed = true)
    (hbf : plainTy f.ty = true) (hbg : plainTy g.ty = true) (m : Mode) (w w' : Wire) (v v' : Val)
    (hv : typed w f.ty v) (hv' : typed w' g.ty v') (buf : Buf)
    (hsl : SliceLen buf.length) (hnew : (d.newPacket buf).isSome = true) :
    (d.set m buf j v >>= fun b => d.set m b k v') = (d.set m buf k v' >>= fun b => d.set m b j v) := by
  have hb := new_bits hnew
  have hfixj : (d.fields.take (j + 1)).all isFixed = true := by
    have : d.fields.take (j + 1) = (d.fields.take (k + 1)).take (j + 1) := by
      rw [List.take_take, Nat.min_eq_left (by omega)]
    rw [this, List.all_eq_true]
    intro x hx
    exact List.all_eq_true.mp hfix x (List.mem_of_mem_take hx)
  have hle := bitsSum_field_le hf
  have hle' := bitsSum_field_le hg
  have hPj := bitsSum_take_succ hf
  have hord : bitsSum (d.fields.take (j + 1)) ≤ bitsSum (d.fields.take k) := by
    have : d.fields.take (j + 1) = (d.fields.take k).take (j + 1) := by
      rw [List.take_take, Nat.min_eq_left (by omega)]
    rw [this]; exact bitsSum_take_le _ _
  have ha := accepted_fields hacc
  have hvf : f.ty.isVec = false := by
    have := (fixed_take_succ hf hfixj).2
    simp only [Field.fixed, Bool.and_eq_true, Bool.not_eq_true'] at this; exact this.1
  have hvg : g.ty.isVec = false := by
    have := (fixed_take_succ hg hfix).2
    simp only [Field.fixed, Bool.and_eq_true, Bool.not_eq_true'] at this; exact this.1
  have hlf := encField_fixed_length hv hvf
  have hlg := encField_fixed_length hv' hvg
  obtain ⟨a, a1, a2, a3⟩ := set_fixed_big ha hf hfixj hbf m hv buf hsl (by omega)
  obtain ⟨b, b1, b2, b3⟩ := set_fixed_big ha hg hfix hbg m hv' buf hsl (by omega)
  obtain ⟨c, c1, c2, c3⟩ := set_fixed_big ha hg hfix hbg m hv' a (by rw [a2]; exact hsl) (by omega)
  obtain ⟨e, e1, e2, e3⟩ := set_fixed_big ha hf hfixj hbf m hv b (by rw [b2]; exact hsl) (by omega)
  rw [a1, b1, ok_bind, ok_bind, c1, e1]
  congr 1
  apply bitsOf_inj
  rw [← hlf] at a3 e3
  rw [← hlg] at b3 c3
  change bitsOf a = splice _ _ _ at a3
  change bitsOf b = splice _ _ _ at b3
  change bitsOf c = splice _ _ _ at c3
  change bitsOf e = splice _ _ _ at e3
  rw [c3, e3, a3, b3]
  exact splice_comm _ _ _ _ _ (by omega) (by rw [bitsOf_length]; omega)

example := C54_declared_setters_commute ethernet (by decide) 0 2 (by decide)
  (fmisc "destination" [8, 8, 8, 8, 8, 8]) (fmisc "ethertype" [16]) rfl rfl (by decide) (by decide)
  (by decide) .debug (noInner 0) (noInner 0) (.nums [1, 2, 3, 4, 5, 6]) (.nums [0x86DD]) rfl rfl
  (List.replicate 14 0) (by decide) (by decide)

/-- **C54**, declared fields: setting one does not change what the getter of another returns. -/
theorem C54_declared_other_getter (d : Decl) (hacc : d.accepted = true) (j k : Nat) (hjk : j ≠ k)
    (f g : Field) (hf : d.fields[j]? = some f) (hg : d.fields[k]? = some g)
    (hfixj : (d.fields.take (j + 1)).all isFixed = true)
    (hfixk : (d.fields.take (k + 1)).all isFixed = true)
    (hbf : plainTy f.ty = true) (hbg : plainTy g.ty = true) (m : Mode) (w : Wire) (v : Val)
    (hv : typed w f.ty v) (buf : Buf)
    (hsl : SliceLen buf.length) (hnew : (d.newPacket buf).isSome = true) :
    ∃ new, d.set m buf j v = .ok new ∧ d.get m new k = d.get m buf k := by
  have hb := new_bits hnew
  have hle := bitsSum_field_le hf
  have hle' := bitsSum_field_le hg
  have hPj := bitsSum_take_succ hf
  have hPk := bitsSum_take_succ hg
  have hmono : ∀ a b, a ≤ b → bitsSum (d.fields.take a) ≤ bitsSum (d.fields.take b) := by
    intro a b hab
    have : d.fields.take a = (d.fields.take b).take a := by
      rw [List.take_take, Nat.min_eq_left (by omega)]
    rw [this]; exact bitsSum_take_le _ _
  have ha := accepted_fields hacc
  have hvf : f.ty.isVec = false := by
    have := (fixed_take_succ hf hfixj).2
    simp only [Field.fixed, Bool.and_eq_true, Bool.not_eq_true'] at this; exact this.1
  have hvg : g.ty.isVec = false := by
    have := (fixed_take_succ hg hfixk).2
    simp only [Field.fixed, Bool.and_eq_true, Bool.not_eq_true'] at this; exact this.1
  have hlf := encField_fixed_length hv hvf
  obtain ⟨a, a1, a2, a3⟩ := set_fixed_big ha hf hfixj hbf m hv buf hsl (by omega)
  refine ⟨a, a1, ?_⟩
  rw [get_fixed_big ha hg hfixk hbg m a (by omega), get_fixed_big ha hg hfixk hbg m buf (by omega)]
  have hbits : ∀ i, i < bitsSum (d.fields.take j) ∨ bitsSum (d.fields.take j) + f.ty.bits ≤ i →
      (bitsOf a)[i]? = (bitsOf buf)[i]? := by
    intro i hi
    rw [← hlf] at a3
    change bitsOf a = splice _ _ _ at a3
    rw [a3, splice_getElem? _ _ _ (by rw [bitsOf_length]; omega), if_neg (by omega)]
  have hsl' : ∀ s n, bitsSum (d.fields.take k) ≤ s → s + n ≤ bitsSum (d.fields.take k) + g.ty.bits →
      bitSlice (bitsOf a) s n = bitSlice (bitsOf buf) s n := by
    intro s n hs hn
    unfold bitSlice
    apply List.ext_getElem?
    intro i
    by_cases hi : i < n
    · rw [List.getElem?_take_of_lt hi, List.getElem?_take_of_lt hi, List.getElem?_drop,
        List.getElem?_drop]
      apply hbits
      rcases Nat.lt_or_gt_of_ne hjk with h | h
      · have := hmono (j + 1) k h; omega
      · have := hmono (k + 1) j h; omega
    · rw [List.getElem?_eq_none (by simp; omega), List.getElem?_eq_none (by simp; omega)]
  congr 1
  cases hty : g.ty with
  | prim p =>
    rw [hty] at hsl'
    simp only [Ty.bits] at hsl'
    simp only [decodeFixed]
    rw [hsl' _ _ (Nat.le_refl _) (Nat.le_refl _)]
  | misc args =>
    rw [hty] at hsl'
    simp only [decodeFixed, Val.nums.injEq]
    simp only [Ty.bits] at hsl'
    generalize bitsSum (d.fields.take k) = P at hsl'
    have : ∀ (ns : List Nat) (s : Nat), P ≤ s → s + ns.sum ≤ P + (args.map (·.size)).sum →
        decodeInts (bitsOf a) s ns = decodeInts (bitsOf buf) s ns := by
      intro ns
      induction ns with
      | nil => intro s _ _; rfl
      | cons n ns ih =>
        intro s hs hn
        simp only [List.sum_cons] at hn
        rw [decodeInts, decodeInts, hsl' s n hs (by omega), ih (s + n) (by omega) (by omega)]
    exact this _ _ (Nat.le_refl _) (Nat.le_refl _)
  | vecPrim p => rw [hty] at hvg; simp [Ty.isVec] at hvg
  | vecPkt c => rw [hty] at hvg; simp [Ty.isVec] at hvg

/-- Concrete case: the ethertype and the destination of an Ethernet header. -/
example : ethernet.accepted = true ∧ (ethernet.fields.take 3).all isFixed = true ∧
    (ethernet.newPacket (List.replicate 14 0)).isSome = true ∧
    plainTy (fmisc "ethertype" [16]).ty = true ∧
    (do (← ethernet.set .debug (List.replicate 14 0) 2 (.nums [0x800]) |> fun x => x).drop 12 |> pure)
      = (.ok [8, 0] : Res Buf) := by decide

/-! ## C14 -/

/-- Full statement of **C14**: for structs of the usual shape (C13), the associated function
`packet_size(&s)` is the number of bytes of the encoding. -/
def C14_statement : Prop :=
  ∀ (d : Decl) (m : Mode) (E : Nat → Wire) (vs : List Val), regular d = true → LawfulElems m E d →
    typedFields E 0 d.fields vs → lensAgree m E 0 [] d.fields vs → fixedBits d.fields % 8 = 0 →
    8 * d.staticSize vs = (encFields E 0 d.fields vs).length

/-- A TCP struct with one 4-byte option (MSS 1460), data offset 6. -/
def tcpMss : List Val := [.num 1, .num 2, .num 3, .num 4, .num 6, .num 0, .num 2, .num 5, .num 0, .num 0,
  .list [.list [.nums [2], .nums [4], .nums [5, 180]]], .nums []]

/-- Wire format of the elements of `Vec<TcpOption>`, `Vec<Ipv4Option>`, ... fields. -/
def innerWire (m : Mode) (d : Decl) : Nat → Wire := fun _ => declWire m noInner d

/-- C14 is false: the four bytes of a TCP option count as one. -/
theorem C14_false : ¬ C14_statement := by
  intro h
  have h1 := h tcp .debug (innerWire .debug tcpOption) tcpMss (by decide) ?_ ?_ ?_ (by decide)
  · revert h1
    decide +kernel
  · intro i f c hf hc
    match i, hf with
    | 0, hf | 1, hf | 2, hf | 3, hf | 4, hf | 5, hf | 6, hf | 7, hf | 8, hf | 9, hf | 11, hf =>
      cases hf; cases hc
    | 10, hf => cases hf; cases hc; exact tcpOption_inner.lawful _ _
    | n + 12, hf => simp [tcp] at hf
  · simp [typedFields, typed, tcp, tcpMss, fprim, fpayloadRest, innerWire, declWire, tcpOption, fmisc,
      fbytes, fpayload, lensAgree, env, normField, Val.asTuple1, Val.asNums, tcpOptionLength,
      tcpOptionPayloadLength, encField]
  · simp only [lensAgree, tcp, tcpMss, fprim, fpayloadRest, true_and, and_true, reduceCtorEq,
      false_implies, implies_true]
    intro e he rest
    cases he
    rfl

/-- **C14**, the part that holds: structs without nested packet vectors. Missing: `Vec<packet>`
fields, whose elements are counted instead of their bytes (`C14_false`). -/
theorem C14_static_size_partial (d : Decl) (E : Nat → Wire) (vs : List Val)
    (hreg : regular d = true) (hflat : ∀ f ∈ d.fields, ∀ c, f.ty ≠ .vecPkt c)
    (htyped : typedFields E 0 d.fields vs) (hbytes : fixedBits d.fields % 8 = 0) :
    8 * d.staticSize vs = (encFields E 0 d.fields vs).length := by
  rw [enc_length_bytes E 0 d.fields vs htyped hflat]
  · rw [fixedBits_eq] at hbytes
    rw [Decl.staticSize, show d.bits = bitsSum d.fields from rfl]
    omega
  · intro f hf p hp
    obtain ⟨k, hk, rfl⟩ := List.getElem_of_mem hf
    have hr := regularFields_drop hreg k
    rw [drop_of_getElem? (List.getElem?_eq_getElem hk)] at hr
    simp only [regularFields, Bool.and_eq_true] at hr
    have := hr.1.1.1
    rw [hp] at this
    simpa [plainTy] using this

example := C14_static_size_partial udp noInner [.num 1, .num 2, .num 10, .num 0, .nums [7, 7]] (by decide)
  (by intro f hf c; simp only [udp, List.mem_cons, List.not_mem_nil, or_false] at hf
      rcases hf with rfl | rfl | rfl | rfl | rfl <;> exact Ty.noConfusion)
  (by simp [udp, typedFields, typed, fprim, fpayloadRest]) (by decide)

/-- **C14**, exactly: the function is off by the bytes of the nested packets minus their number. -/
theorem C14_exact (d : Decl) (E : Nat → Wire) (vs : List Val) (hreg : regular d = true)
    (htyped : typedFields E 0 d.fields vs) (hbytes : fixedBits d.fields % 8 = 0) :
    8 * (d.staticSize vs + nestedBytes E 0 d.fields vs) =
      (encFields E 0 d.fields vs).length + 8 * nestedCount d.fields vs := by
  rw [enc_length_nested E 0 d.fields vs htyped]
  · rw [fixedBits_eq] at hbytes
    rw [Decl.staticSize, show d.bits = bitsSum d.fields from rfl]
    omega
  · intro f hf p hp
    obtain ⟨k, hk, rfl⟩ := List.getElem_of_mem hf
    have hr := regularFields_drop hreg k
    rw [drop_of_getElem? (List.getElem?_eq_getElem hk)] at hr
    simp only [regularFields, Bool.and_eq_true] at hr
    have := hr.1.1.1
    rw [hp] at this
    simpa [plainTy] using this

example : tcp.staticSize tcpMss = 21 ∧ nestedCount tcp.fields tcpMss = 1 ∧
    nestedBytes (innerWire .debug tcpOption) 0 tcp.fields tcpMss = 4 := by decide +kernel

example : tcpOption.staticSize [.nums [2], .nums [4], .nums [5, 180]] = 4 ∧
    (encFields noInner 0 tcpOption.fields [.nums [2], .nums [4], .nums [5, 180]]).length = 32 := by decide

/-! ## C15, C16 -/

/-- Full statement of **C15**: iterating never runs forever. -/
def C15_statement : Prop :=
  ∀ (d : Decl) (m : Mode) (buf : Buf), d.accepted = true →
    d.codec.items m buf.length buf ≠ .error .hang

/-- C15 is false for a declaration with a single 4-bit field: its packet size is 0 bytes. -/
theorem C15_false : ¬ C15_statement := by
  intro h
  exact absurd (h ⟨[fprim "x" 4]⟩ .debug [0] (by decide)) (by decide)

/-- It is also false, in builds without overflow checks, for a byte-aligned declaration whose
64-bit length field makes the size wrap around to 0. -/
theorem C15_false_wrap : ∃ (d : Decl) (buf : Buf), d.accepted = true ∧ fixedBits d.fields = 64 ∧
    d.codec.items .release buf.length buf = .error .hang := by
  refine ⟨⟨[fprim "n" 64, fpayload "p" (lenNum 0 id)]⟩, [255, 255, 255, 255, 255, 255, 255, 248], ?_⟩
  decide

/-- **C15**, the part that holds. If a declaration has at least eight bits of fixed fields, its
sizes do not wrap, and length expressions and inner packets return or panic, then iterating ends,
with at most one packet per byte. Missing: the cases of `C15_false` and `C15_false_wrap`. -/
theorem C15_terminates_partial (d : Decl) (m : Mode) (hends : endFields m d.fields)
    (hnw : NoWrap m d) (hpos : 8 ≤ fixedBits d.fields) (buf : Buf) :
    d.codec.items m buf.length buf ≠ .error .hang ∧
    (∀ ps, d.codec.items m buf.length buf = .ok ps → ps.length ≤ buf.length) ∧
    (∀ p rest, d.codec.next m buf = .ok (some (p, rest)) → p = buf ∧ rest.length < buf.length) := by
  rw [fixedBits_eq] at hpos
  have he := codec_ends hends hnw hpos
  refine ⟨items_not_hang he.pos he.size _ _, fun ps h => items_length _ _ _ h, ?_⟩
  intro p rest h
  rw [next_eq] at h
  split at h
  · rename_i hc
    obtain ⟨n, hn, hp⟩ := map_eq_ok h
    simp only [Option.some.injEq, Prod.mk.injEq] at hp
    obtain ⟨rfl, rfl⟩ := hp
    have := he.pos _ n hn
    exact ⟨rfl, by rw [List.length_drop]; omega⟩
  · cases h

example := C15_terminates_partial tcp .release ((crateDecls_good tcp (by simp [crateDecls])).ends .release)
  ((crateDecls_good tcp (by simp [crateDecls])).noWrap .release) (by decide) (List.replicate 60 0xFF)

/-- **C15** for all packet types of the crate outside QUIC, in both build modes. -/
theorem C15_crate (d : Decl) (hd : d ∈ crateDecls) (m : Mode) (buf : Buf) :
    d.codec.items m buf.length buf ≠ .error .hang ∧
    (∀ ps, d.codec.items m buf.length buf = .ok ps → ps.length ≤ buf.length) ∧
    (∀ p rest, d.codec.next m buf = .ok (some (p, rest)) → p = buf ∧ rest.length < buf.length) :=
  C15_terminates_partial d m ((crateDecls_good d hd).ends m) ((crateDecls_good d hd).noWrap m)
    (by rw [fixedBits_eq]; exact (crateDecls_good d hd).pos) buf

example := C15_crate tcpOption (by simp [crateDecls]) .release [2, 0, 2, 4]

/-- **C15**: no getter, no `from_packet` and no `packet_size` of a crate packet type runs forever
(the getters of option lists iterate). -/
theorem C15_crate_getters_end (d : Decl) (hd : d ∈ crateDecls) (m : Mode) (buf : Buf) :
    (∀ k, d.get m buf k ≠ .error .hang) ∧ d.fromPacket m buf ≠ .error .hang ∧
      d.packetSize m buf ≠ .error .hang := by
  have hg := crateDecls_good d hd
  have hc := codec_ends (hg.ends m) (hg.noWrap m) hg.pos
  refine ⟨fun k => ?_, hc.dec buf, hc.size buf⟩
  rw [Decl.get]
  cases hf : d.fields[k]? with
  | none => exact NH.panic
  | some f =>
    have hr := (run_NH (m := m) (buf := buf) (d.fields.take k)
      (fun g hg' => hg.ends m g (List.mem_of_mem_take hg')) .init (by simp [St.init])
      (by simp [St.init]))
    have hr' : ∀ l ∈ (d.before m buf k).lens, NH l := hr.1
    refine getField_NH hr' ?_ ((hg.ends m f (List.mem_of_getElem? hf)).2)
    unfold fieldLen
    cases he : f.len with
    | none => exact NH.ok _
    | some e =>
      refine (hg.ends m f (List.mem_of_getElem? hf)).1 e he _ _ _ ?_
        ((curOff_NH hr').bind fun _ _ => sliceFrom_NH _ _)
      intro i
      rw [St.get]
      cases hi : (d.before m buf k).vals[i]? with
      | none => exact NH.panic
      | some x => exact hr.2 x (List.mem_of_getElem? hi)

example := C15_crate_getters_end tcp (by simp [crateDecls]) .release (List.replicate 60 0xFF)

/-- **C16**. Whenever an iteration returns, the packets tile the buffer: the first starts at its
beginning, each next one exactly where the previous ends by its `packet_size()`, and it stops only
when fewer bytes than the minimum packet size (or none) are left. -/
theorem C16_iterators_tile (d : Decl) (m : Mode) (buf : Buf) (ps : List Buf)
    (h : d.codec.items m buf.length buf = .ok ps) :
    Tiles (d.packetSize m) d.minSize buf ps :=
  items_tiles _ _ _ (Nat.le_refl _) h

/-- Two TCP options and an incomplete rest cannot be iterated past the complete ones. -/
example : tcpOption.codec.items .debug 7 [1, 2, 4, 5, 180, 3, 3] =
    .ok [[1, 2, 4, 5, 180, 3, 3], [2, 4, 5, 180, 3, 3], [3, 3]] := by decide

/-! ## C19 -/

/-- Full statement of **C19**: the getter of a `Vec<uNbe>` field returns the big-endian numbers in
the field. -/
def C19_statement : Prop :=
  ∀ (d : Decl) (m : Mode) (buf : Buf) (k : Nat) (f : Field) (j : Nat) (raw : Buf),
    d.accepted = true → d.fields[k]? = some f → f.ty = .vecPrim ⟨8 * j, .big⟩ → 2 ≤ j → j ≤ 8 →
    d.getRaw m buf k = .ok raw → raw.length % j = 0 →
    d.get m buf k = .ok (.nums (words j raw))

/-- C19 is false already for a single `u16be`. -/
theorem C19_false : ¬ C19_statement := by
  intro h
  have := h ⟨[{ name := "v", ty := .vecPrim ⟨16, .big⟩ }]⟩ .debug [0x12, 0x34] 0 _ 2 [0x12, 0x34]
    (by decide) rfl rfl (by decide) (by decide) (by decide) (by decide)
  revert this
  decide

/-- **C19**, what the code does: the getter returns (an empty vector) exactly when the field is
empty; for every non-empty field it panics. Missing: everything but the empty field. -/
theorem C19_exact_partial (d : Decl) (m : Mode) (buf : Buf) (k : Nat) (f : Field) (j : Nat)
    (hf : d.fields[k]? = some f) (hty : f.ty = .vecPrim ⟨8 * j, .big⟩) (hj : 2 ≤ j) (v : Val) :
    d.get m buf k = .ok v ↔ d.getRaw m buf k = .ok [] ∧ v = .nums [] := by
  simp only [Decl.get, Decl.getRaw, hf, hty, getField]
  cases varSlice m buf (curOff m (d.before m buf k).bit (d.before m buf k).lens)
      (fieldLen m buf (d.before m buf k) f) with
  | error e => simp
  | ok raw =>
    rw [ok_bind]
    constructor
    · intro h
      obtain ⟨ns, hn, rfl⟩ := map_eq_ok h
      obtain ⟨rfl, rfl⟩ := (getElems_wide (p := ⟨8 * j, .big⟩) (by dsimp only; omega) raw ns).mp hn
      exact ⟨rfl, rfl⟩
    · rintro ⟨h, rfl⟩
      cases h
      rfl

example := C19_exact_partial ⟨[{ name := "v", ty := .vecPrim ⟨16, .big⟩ }]⟩ .debug [0x12, 0x34] 0 _ 2 rfl rfl
  (by decide) (.nums [0x1234])

/-! ## C20 -/

/-- Full statement of **C20**: setting a variable-length field with declared length (value `len`,
at the offset given by the earlier fields) changes no byte outside it. -/
def C20_statement : Prop :=
  ∀ (d : Decl) (m : Mode) (buf new : Buf) (k : Nat) (f : Field) (e : LenExpr) (v : Val)
    (sizes : List Nat) (len : Nat), d.accepted = true → SliceLen buf.length →
    d.fields[k]? = some f → f.ty.isVec = true → f.len = some e →
    Sizes d m buf k sizes → evalLength d m buf k sizes e = .ok len → startOf d k sizes + len < 2 ^ 64 →
    d.set m buf k v = .ok new →
    new.length = buf.length ∧ ∀ i, i < startOf d k sizes ∨ startOf d k sizes + len ≤ i →
      new[i]? = buf[i]?

/-- C20 is false: a two-byte `Vec<u16be>` field accepts two elements and overwrites the two bytes
after it. -/
theorem C20_false : ¬ C20_statement := by
  intro h
  have := h ⟨[{ name := "v", ty := .vecPrim ⟨16, .big⟩, len := some (lenConst 2) }, frest "r"]⟩ .debug
    [0, 0, 0, 0] [0x11, 0x11, 0x22, 0x22] 0 _ _ (.nums [0x1111, 0x2222]) [] 2 (by decide) (by decide)
    rfl rfl rfl .nil rfl (by decide) (by decide)
  have := this.2 2 (.inr (by decide))
  revert this
  decide

/-- **C20** for byte vectors, any declaration. Missing from the full claim: `Vec<uNbe>` with wider
elements. -/
theorem C20_bytes_partial (d : Decl) (m : Mode) (buf new : Buf) (k : Nat) (f : Field) (e : LenExpr)
    (en : Endianness) (v : Val) (sizes : List Nat) (len : Nat)
    (hf : d.fields[k]? = some f) (hty : f.ty = .vecPrim ⟨8, en⟩) (he : f.len = some e)
    (hsizes : Sizes d m buf k sizes) (hlen : evalLength d m buf k sizes e = .ok len)
    (hov : startOf d k sizes < 2 ^ 64) (hset : d.set m buf k v = .ok new) :
    (∃ ns, v = .nums ns ∧ ns.length ≤ len ∧
      (new.drop (startOf d k sizes)).take ns.length = ns.map UInt8.ofNat) ∧
    new.length = buf.length ∧ ∀ i, i < startOf d k sizes ∨ startOf d k sizes + len ≤ i →
      new[i]? = buf[i]? := by
  have hkl : k < d.fields.length := (List.getElem?_eq_some_iff.mp hf).1
  have hsizes := sizes_lens hsizes hov
  rw [← lenExpr_eq (by omega) hsizes hov] at hlen
  rw [startOf_eq] at *
  have hco : curOff m (d.before m buf k).bit (d.before m buf k).lens =
      .ok (bitsSum (d.fields.take k) / 8 + sizes.sum) := by
    rw [before_bit, hsizes]; exact curOff_ok (by unfold usizeCard; omega)
  cases v with
  | num _ => simp [Decl.set, hf, hty] at hset
  | list _ => simp [Decl.set, hf, hty] at hset
  | nums ns =>
    rw [Decl.set, hf] at hset
    simp only [hty, he, hco, hlen, ok_bind] at hset
    by_cases hle : ns.length ≤ len
    · rw [if_pos hle] at hset
      simp only [↓reduceIte] at hset
      obtain ⟨h1, h2, h3, h4, h5⟩ := copyInto_inv hset
      rw [List.length_map] at *
      refine ⟨⟨ns, rfl, hle, h4⟩, h2, fun i hi => getElem?_of_take_drop h3 h5 (by omega)⟩
    · rw [if_neg hle] at hset
      simp at hset

example := C20_bytes_partial sample .debug [0, 0, 2, 7, 8, 9] [0, 0, 2, 5, 6, 9] 3 _ _ .big (.nums [5, 6]) [] 2
  rfl rfl rfl (.plain (.plain (.plain .nil rfl rfl) rfl rfl) rfl rfl) (by decide) (by decide) (by decide)

/-- **C20** for vectors of inner packets, any outer declaration: inner packet types must keep their
own writes inside their size (`C20_inner_confined`). -/
theorem C20_packets_partial (d : Decl) (m : Mode) (buf new : Buf) (k : Nat) (f : Field) (e : LenExpr)
    (c : Codec) (v : Val) (sizes : List Nat) (len : Nat) (hsl : SliceLen buf.length)
    (hf : d.fields[k]? = some f) (hty : f.ty = .vecPkt c) (he : f.len = some e)
    (hinner : ConfinedC m c)
    (hsizes : Sizes d m buf k sizes) (hlen : evalLength d m buf k sizes e = .ok len)
    (hov : startOf d k sizes + len < 2 ^ 64) (hset : d.set m buf k v = .ok new) :
    new.length = buf.length ∧ ∀ i, i < startOf d k sizes ∨ startOf d k sizes + len ≤ i →
      new[i]? = buf[i]? := by
  have hkl : k < d.fields.length := (List.getElem?_eq_some_iff.mp hf).1
  have hsizes := sizes_lens hsizes (by omega)
  have hlen : fieldLen m buf (d.before m buf k) f = .ok len := by
    rw [fieldLen, he]; dsimp only; rw [lenExpr_eq (by omega) hsizes (by omega)]; exact hlen
  rw [startOf_eq] at *
  have hco : curOff m (d.before m buf k).bit (d.before m buf k).lens =
      .ok (bitsSum (d.fields.take k) / 8 + sizes.sum) := by
    rw [before_bit, hsizes]; exact curOff_ok (by unfold usizeCard; omega)
  cases v with
  | num _ => simp [Decl.set, hf, hty] at hset
  | nums _ => simp [Decl.set, hf, hty] at hset
  | list vs =>
    rw [Decl.set, hf] at hset
    simp only [hty, hco, hlen, ok_bind, uadd_ok hov] at hset
    obtain ⟨h1, h2, h3⟩ := setPackets_within hinner vs hsl hset
    exact ⟨h1, fun i hi => getElem?_of_take_drop h2 h3 hi⟩

/-- A packet type of the usual shape, all lengths declared, keeps `populate` inside its size: it
can be an inner packet type of `C20_packets_partial`. -/
theorem C20_inner_confined (d : Decl) (m : Mode) (hreg : regular d = true)
    (hclosed : closed d = true) (hbytes : fixedBits d.fields % 8 = 0) (hloc : localLens d.fields)
    (hnw : NoWrap m d) (hinner : ∀ f ∈ d.fields, ∀ c, f.ty = .vecPkt c → ConfinedC m c) :
    ConfinedC m d.codec := by
  rw [fixedBits_eq] at hbytes
  exact confined_codec hreg hloc hnw hinner hclosed hbytes

example : ConfinedC .debug tcpOption.codec := C20_inner_confined tcpOption .debug (by decide) (by decide)
  (by decide) tcpOption_inner.loc (tcpOption_inner.noWrap .debug)
  (fun f hf c h => absurd h (tcpOption_inner.flat f hf c))

/-- **C20** for the crate: every setter of a vector with declared length, of every packet type
outside QUIC, in both build modes, for every value and buffer. -/
theorem C20_crate (d : Decl) (hd : d ∈ crateDecls) (m : Mode) (buf new : Buf) (k : Nat) (f : Field)
    (v : Val) (hsl : SliceLen buf.length) (hf : d.fields[k]? = some f) (hvec : f.ty.isVec = true)
    (hsome : f.len.isSome = true) (hset : d.set m buf k v = .ok new) :
    ∃ (sizes : List Nat) (len : Nat), Sizes d m buf k sizes ∧ HasLength d m buf k sizes f len ∧
      new.length = buf.length ∧ ∀ i, i < startOf d k sizes ∨ startOf d k sizes + len ≤ i →
        new[i]? = buf[i]? := by
  have hg := crateDecls_good d hd
  obtain ⟨sizes, sz, h1, -, h3, h4⟩ :=
    set_within hg.reg hg.local (hg.noWrap m) (hg.confined m) hsl hf hset
  obtain ⟨e, he⟩ := Option.isSome_iff_exists.mp hsome
  have hkl : k < d.fields.length := (List.getElem?_eq_some_iff.mp hf).1
  have hov : startOf d k sizes < 2 ^ 64 := by
    have := (hg.lens_small m) buf k sizes h1
    have hb : bitsSum (d.fields.take k) ≤ d.bits := bitsSum_take_le _ _
    rw [startOf_eq]; omega
  refine ⟨sizes, sz, lens_sizes (by omega) h1 hov,
    (fieldLen_iff (by omega) h1 hov).mp (by rw [fieldLen, he]; exact h3 e he), h4.1, fun i hi => ?_⟩
  have hb0 := isVec_bits hvec
  have hr := regularFields_drop hg.reg k
  rw [drop_of_getElem? hf] at hr
  simp only [regularFields, Bool.and_eq_true] at hr
  have hal := hr.1.2
  rw [if_pos hvec] at hal
  simp only [Bool.and_eq_true, beq_iff_eq, Nat.zero_add] at hal
  rw [startOf_eq] at hi
  rw [hb0] at h4
  have hP : 8 * (bitsSum (d.fields.take k) / 8 + sizes.sum) = bitsSum (d.fields.take k) + 8 * sizes.sum := by
    have := hal.1; omega
  refine getElem?_of_take_drop (co := bitsSum (d.fields.take k) / 8 + sizes.sum)
    (e := bitsSum (d.fields.take k) / 8 + sizes.sum + sz) ?_ ?_ hi
  · apply bitsOf_inj
    rw [bitsOf_take, bitsOf_take, hP]
    exact h4.2.1
  · apply bitsOf_inj
    rw [bitsOf_drop, bitsOf_drop, Nat.mul_add, hP]
    exact h4.2.2

/-- Setting an MSS option in a TCP header with room for four option bytes. -/
example : ∃ new, tcp.set .debug (List.replicate 12 0 ++ [0x60] ++ List.replicate 12 0) 10
      (.list [.list [.nums [2], .nums [4], .nums [5, 180]]]) = .ok new ∧
    new = List.replicate 12 0 ++ [0x60] ++ List.replicate 7 0 ++ [2, 4, 5, 180, 0] := ⟨_, rfl, by decide⟩

/-! ## C56 -/

/-- Full statement of **C56**: setting a variable-length field keeps every bit declared before. -/
def C56_statement : Prop :=
  ∀ (d : Decl) (m : Mode) (buf new : Buf) (k : Nat) (f : Field) (v : Val) (sizes : List Nat),
    d.accepted = true → SliceLen buf.length → d.fields[k]? = some f → f.ty.isVec = true →
    (∀ c, f.ty = .vecPkt c → ConfinedC m c) →
    Sizes d m buf k sizes → startOf d k sizes < 2 ^ 64 → d.set m buf k v = .ok new →
    ∀ i, i < fixedBits (d.fields.take k) + 8 * sizes.sum → (bitsOf new)[i]? = (bitsOf buf)[i]?

/-- C56 is false: after a `u4` field a vector starts in the same byte. -/
theorem C56_false : ¬ C56_statement := by
  intro h
  have := h ⟨[fprim "x" 4, frest "v"]⟩ .debug [0xF0] [0x0F] 1 _ (.nums [0x0F]) []
    (by decide) (by decide) rfl rfl (by intro c hc; cases hc) (.plain .nil rfl rfl) (by decide) (by decide) 0 (by decide)
  revert this
  decide

/-- **C56**, the part that holds: a vector that starts on a byte boundary. Missing: vectors after
bits that do not fill a byte (`C56_false`). -/
theorem C56_no_overlap_partial (d : Decl) (m : Mode) (buf new : Buf) (k : Nat) (f : Field) (v : Val)
    (sizes : List Nat) (hacc : d.accepted = true) (hsl : SliceLen buf.length)
    (hf : d.fields[k]? = some f) (hvec : f.ty.isVec = true)
    (hinner : ∀ c, f.ty = .vecPkt c → ConfinedC m c)
    (hsizes : Sizes d m buf k sizes) (hov : startOf d k sizes < 2 ^ 64)
    (haligned : fixedBits (d.fields.take k) % 8 = 0) (hset : d.set m buf k v = .ok new) :
    ∀ i, i < fixedBits (d.fields.take k) + 8 * sizes.sum → (bitsOf new)[i]? = (bitsOf buf)[i]? := by
  have hkl : k < d.fields.length := (List.getElem?_eq_some_iff.mp hf).1
  have hsizes := sizes_lens hsizes hov
  rw [startOf_eq] at hov
  rw [fixedBits_eq] at *
  have hco : curOff m (d.before m buf k).bit (d.before m buf k).lens =
      .ok (bitsSum (d.fields.take k) / 8 + sizes.sum) := by
    rw [before_bit, hsizes]; exact curOff_ok (by unfold usizeCard; omega)
  have hP : 8 * (bitsSum (d.fields.take k) / 8 + sizes.sum) = bitsSum (d.fields.take k) + 8 * sizes.sum := by
    omega
  have key : (bitsOf new).take (8 * (bitsSum (d.fields.take k) / 8 + sizes.sum)) =
      (bitsOf buf).take (8 * (bitsSum (d.fields.take k) / 8 + sizes.sum)) := by
    have ha := acceptedFields_get (accepted_fields hacc) hf
    rw [Decl.set, hf] at hset
    dsimp only at hset
    rw [hco] at hset
    generalize bitsSum (d.fields.take k) / 8 + sizes.sum = co at hset
    cases hty : f.ty with
    | prim p => rw [hty] at hvec; simp [Ty.isVec] at hvec
    | misc args => rw [hty] at hvec; simp [Ty.isVec] at hvec
    | vecPrim p =>
      rw [hty] at hset ha
      simp only [Ty.accepted, Bool.and_eq_true] at ha
      cases v <;> simp only [ok_bind] at hset <;> first | (simp at hset; done) | skip
      rename_i ns
      have hset : (if p.size = 8 then copyInto buf co (ns.map UInt8.ofNat) else setElems p co ns buf)
          = .ok new := by
        cases hl : f.len with
        | none => rw [hl] at hset; exact hset
        | some e =>
          rw [hl] at hset
          dsimp only at hset
          rw [bind_eq_ok] at hset
          obtain ⟨len, -, hset⟩ := hset
          by_cases hle : ns.length ≤ len
          · rw [if_pos hle] at hset; exact hset
          · rw [if_neg hle] at hset; simp at hset
      split at hset
      · obtain ⟨h1, h2, h3, h4, h5⟩ := copyInto_inv hset
        rw [← bitsOf_take, ← bitsOf_take, h3]
      · exact (setElems_within ha.2 ns hset).2
    | vecPkt c =>
      rw [hty] at hset
      cases v <;> simp only [ok_bind] at hset <;> first | (simp at hset; done) | skip
      rename_i vs
      rw [bind_eq_ok] at hset
      obtain ⟨len, -, hset⟩ := hset
      rw [bind_eq_ok] at hset
      obtain ⟨endOff, -, hset⟩ := hset
      obtain ⟨-, h2, -⟩ := setPackets_within (hinner c hty) vs hsl hset
      rw [← bitsOf_take, ← bitsOf_take, h2]
  intro i hi
  have := congrArg (·[i]?) key
  simpa only [List.getElem?_take_of_lt (show i < 8 * (bitsSum (d.fields.take k) / 8 + sizes.sum) by omega)]
    using this

example : ∃ new, sample.set .debug [0xAB, 0xCD, 2, 0, 0, 9] 3 (.nums [7, 8]) = .ok new ∧
    new = [0xAB, 0xCD, 2, 7, 8, 9] := ⟨_, rfl, by decide⟩

/-! ## C21, C53, C57 -/

/-- **C21**. `dst.clone_from(&src)` panics exactly when `dst` is shorter; otherwise `dst` starts with
the bytes of `src` and keeps its other bytes and its length. -/
theorem C21_clone_from (dst src : Buf) :
    (cloneFrom dst src = panic ↔ dst.length < src.length) ∧
    (src.length ≤ dst.length → ∃ new, cloneFrom dst src = .ok new ∧ new.take src.length = src ∧
      new.drop src.length = dst.drop src.length ∧ new.length = dst.length) := by
  unfold cloneFrom
  constructor
  · split
    · rename_i h
      simp only [ok_ne_panic, false_iff]; omega
    · rename_i h
      simp only [true_iff]; omega
  · intro h
    refine ⟨_, if_pos h, by simp, by simp, ?_⟩
    simp only [List.length_append, List.length_drop]; omega

example : cloneFrom [1, 2, 3] [9, 8] = .ok [9, 8, 3] ∧ cloneFrom [1] [9, 8] = panic := by decide

/-- **C53**. All four conversions keep the bytes, so every accessor, being a function of them,
returns the same. -/
theorem C53_to_immutable (p : MutPacketData) (q : PacketData) :
    (mutToImmutable p).asSlice = p.asSlice ∧ (mutConsumeToImmutable p).asSlice = p.asSlice ∧
    (pktToImmutable q).asSlice = q.asSlice ∧ (pktConsumeToImmutable q).asSlice = q.asSlice := by
  refine ⟨?_, ?_, ?_, ?_⟩ <;> first | (cases p <;> rfl) | (cases q <;> rfl)

example := C53_to_immutable (.borrowed [1, 2]) (.owned [3])

/-- **C53**, accessors. -/
theorem C53_accessors (d : Decl) (m : Mode) (p : MutPacketData) (k : Nat) :
    d.get m (mutToImmutable p).asSlice k = d.get m p.asSlice k ∧
    d.payload m (mutToImmutable p).asSlice = d.payload m p.asSlice ∧
    d.get m (mutConsumeToImmutable p).asSlice k = d.get m p.asSlice k ∧
    d.payload m (mutConsumeToImmutable p).asSlice = d.payload m p.asSlice := by
  have h := C53_to_immutable p (.owned [])
  rw [h.1, h.2.1]
  exact ⟨rfl, rfl, rfl, rfl⟩

example := C53_accessors udp .debug (.owned [0, 53, 0, 53, 0, 8, 0, 0]) 1

/-- Full statement of **C57**: equality of packets is equality of bytes. -/
def C57_statement : Prop :=
  (∀ p q : PacketData, p.eq q = true ↔ p.asSlice = q.asSlice) ∧
  (∀ p q : MutPacketData, p.eq q = true ↔ p.asSlice = q.asSlice)

/-- C57 is false: an owning and a borrowing packet with the same bytes are unequal. -/
theorem C57_false : ¬ C57_statement := by
  intro h
  have := (h.1 (.owned [1]) (.borrowed [1])).mpr rfl
  revert this
  decide

/-- **C57**, the part that holds: equal packets have equal bytes, and packets created the same way
(both by `new`, or both by `owned`) are equal exactly when their bytes are. Missing: one `new`, one
`owned`. -/
theorem C57_same_kind_partial (d : Decl) (a b : Buf) (p q : PacketData) (p' q' : MutPacketData)
    (h : (d.newPacket a = some p ∧ d.newPacket b = some q) ∨
      (d.ownedPacket a = some p ∧ d.ownedPacket b = some q))
    (h' : (d.newMutPacket a = some p' ∧ d.newMutPacket b = some q') ∨
      (d.ownedMutPacket a = some p' ∧ d.ownedMutPacket b = some q')) :
    (p.eq q = true ↔ a = b) ∧ (p'.eq q' = true ↔ a = b) := by
  have e1 : (p = .borrowed a ∧ q = .borrowed b) ∨ (p = .owned a ∧ q = .owned b) := by
    rcases h with ⟨h1, h2⟩ | ⟨h1, h2⟩
    · simp only [Decl.newPacket] at h1 h2
      split at h1 <;> cases h1
      split at h2 <;> cases h2
      exact .inl ⟨rfl, rfl⟩
    · simp only [Decl.ownedPacket] at h1 h2
      split at h1 <;> cases h1
      split at h2 <;> cases h2
      exact .inr ⟨rfl, rfl⟩
  have e2 : (p' = .borrowed a ∧ q' = .borrowed b) ∨ (p' = .owned a ∧ q' = .owned b) := by
    rcases h' with ⟨h1, h2⟩ | ⟨h1, h2⟩
    · simp only [Decl.newMutPacket] at h1 h2
      split at h1 <;> cases h1
      split at h2 <;> cases h2
      exact .inl ⟨rfl, rfl⟩
    · simp only [Decl.ownedMutPacket] at h1 h2
      split at h1 <;> cases h1
      split at h2 <;> cases h2
      exact .inr ⟨rfl, rfl⟩
  constructor
  · rcases e1 with ⟨rfl, rfl⟩ | ⟨rfl, rfl⟩ <;> simp [PacketData.eq]
  · rcases e2 with ⟨rfl, rfl⟩ | ⟨rfl, rfl⟩ <;> simp [MutPacketData.eq]

example := C57_same_kind_partial udp (List.replicate 8 0) (List.replicate 8 1) _ _ _ _
  (.inl ⟨rfl, rfl⟩) (.inr ⟨rfl, rfl⟩)

/-- **C57**: equality implies equal bytes for all packets. -/
theorem C57_eq_bytes (p q : PacketData) (p' q' : MutPacketData) :
    (p.eq q = true → p.asSlice = q.asSlice) ∧ (p'.eq q' = true → p'.asSlice = q'.asSlice) := by
  constructor
  · cases p <;> cases q <;> simp [PacketData.eq, PacketData.asSlice]
  · cases p' <;> cases q' <;> simp [MutPacketData.eq, MutPacketData.asSlice]

example : udp.newPacket [0,0,0,0,0,0,0,0] = some (.borrowed [0,0,0,0,0,0,0,0]) ∧
    udp.ownedPacket [0,0,0,0,0,0,0,0] = some (.owned [0,0,0,0,0,0,0,0]) := by decide

end Verif.Props
