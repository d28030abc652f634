import Verif.Proofs.Constants
import Verif.Model.Types

/-! # C90: fields with user-defined types. C91: constants -/

namespace Verif.Props
open Spec

/-! ## C90 -/

/-- **C90**: a field that is not an integer or a vector names exactly one type of the crate with a
constructor; `#[construct_with]` lists as many integers as the constructor takes and as the type is
turned into, and they are the same Rust integer types. -/
theorem C90_types (e : String × List RawField × Decl) (he : e ∈ crateSources) (k : Nat) (rf : RawField)
    (f : Field) (ps : List Prim) (hr : e.2.1[k]? = some rf) (hf : e.2.2.fields[k]? = some f)
    (ht : f.ty = .misc ps) :
    ∃ t ∈ fieldTypes, t.name.toList = rf.ty ∧ (∀ t' ∈ fieldTypes, t'.name.toList = rf.ty → t' = t) ∧
      (∃ items, Meta.list (some "construct_with") items ∈ rf.attrs ∧
        items.map (fun i => i.bind rustWidth) = t.args.map (fun a => rustWidth a.toList)) ∧
      t.tuple.map (fun a => rustWidth a.toList) = t.args.map (fun a => rustWidth a.toList) ∧
      ∀ a ∈ t.args, (rustWidth a.toList).isSome = true := by
  obtain ⟨-, ⟨t, h1, h2, h3, h4, h5, h6, -⟩, -⟩ := typedField he hr hf ht
  exact ⟨t, h1, h2, h3, h4, h5, h6⟩

example := C90_types ("ethernet::Ethernet", Source.srcEthernet, ethernet) (by simp [crateSources]) 2 _ _ _ rfl
  rfl rfl

/-- The value is read back after it has been set: the setter and the getter of field `k`, whose type is
a struct around one integer. -/
def ReadsBack (d : Decl) (k : Nat) (v : Nat) : Prop :=
  ∀ (m : Mode) (buf : Buf), SliceLen buf.length → (d.newPacket buf).isSome = true →
    ∃ new, d.setAs Newtype.toPrimitive m buf k v = .ok new ∧
      d.getAs Newtype.ofPrimitive m new k = .ok v

/-- **C90**, full statement: every value of the type of a field is read back after it has been set. -/
def C90_statement : Prop :=
  ∀ e ∈ crateSources, ∀ k rf f p, e.2.1[k]? = some rf → e.2.2.fields[k]? = some f → f.ty = .misc [p] →
    ∀ t ∈ fieldTypes, t.name.toList = rf.ty → ∀ a w, t.args = [a] → rustWidth a.toList = some w →
      ∀ v, v < 2 ^ w → ReadsBack e.2.2 k v

/-- **C90** for the code: the setter keeps as many low bits of the value as the field has. -/
theorem C90_round_trip_partial (e : String × List RawField × Decl) (he : e ∈ crateSources) (k : Nat)
    (rf : RawField) (f : Field) (p : Prim) (hr : e.2.1[k]? = some rf) (hf : e.2.2.fields[k]? = some f)
    (ht : f.ty = .misc [p]) (m : Mode) (buf : Buf) (hsl : SliceLen buf.length)
    (hnew : (e.2.2.newPacket buf).isSome = true) (v : Nat) :
    ∃ new, e.2.2.setAs Newtype.toPrimitive m buf k v = .ok new ∧
      e.2.2.getAs Newtype.ofPrimitive m new k = .ok (v % 2 ^ p.size) := by
  obtain ⟨⟨h1, h2⟩, -⟩ := typedField he hr hf ht
  obtain ⟨new, a1, a2⟩ := C02_declared_set_then_get e.2.2 (C65_crate_accepted e he) k f hf h2 h1 m
    ⟨fun _ => [], id, fun _ => True⟩ (.nums [v]) (by rw [ht]; rfl) buf hsl hnew
  refine ⟨new, a1, ?_⟩
  rw [ht] at a2
  simp [Decl.getAs, a2, normField, Newtype.ofPrimitive, ok_bind]

example : (ipv4Option.setAs Newtype.toPrimitive .debug [0xE0, 0] 2 0x94).toOption = some [0xF4, 0] ∧
    (ipv4Option.getAs Newtype.ofPrimitive .debug [0xF4, 0] 2).toOption = some 0x14 := by decide +kernel

/-- **C90**: all values of the type are read back exactly when the field is as wide as the type. -/
theorem C90_reads_back_iff (e : String × List RawField × Decl) (he : e ∈ crateSources) (k : Nat)
    (rf : RawField) (f : Field) (p : Prim) (hr : e.2.1[k]? = some rf) (hf : e.2.2.fields[k]? = some f)
    (ht : f.ty = .misc [p]) (t : FieldType) (htm : t ∈ fieldTypes) (hn : t.name.toList = rf.ty)
    (a : String) (w : Nat) (ha : t.args = [a]) (hw : rustWidth a.toList = some w) :
    (∀ v, v < 2 ^ w → ReadsBack e.2.2 k v) ↔ p.size = w := by
  obtain ⟨-, ⟨t', -, -, h3, -, -, -, -, h8⟩, -⟩ := typedField he hr hf ht
  obtain rfl := h3 t htm hn
  have hle : p.size ≤ w := by
    obtain ⟨w', h1, h2⟩ := h8 (p, a) (by simp [ha])
    rw [hw] at h1; cases h1; exact h2
  constructor
  · intro h
    rcases Nat.lt_or_ge p.size w with hlt | hge
    · have hv := Nat.pow_lt_pow_right (a := 2) (by omega) hlt
      have hm : (e.2.2.newPacket (List.replicate e.2.2.minSize 0)).isSome = true := by
        simp [Decl.newPacket]
      have hs : SliceLen (List.replicate e.2.2.minSize (0 : UInt8)).length := by
        have : (crateSources.all fun e => decide (e.2.2.minSize < 2 ^ 20)) = true := by decide +kernel
        have := of_decide_eq_true (List.all_eq_true.mp this e he)
        rw [List.length_replicate]
        unfold SliceLen; omega
      obtain ⟨new, a1, a2⟩ := h _ hv .debug _ hs hm
      obtain ⟨new', b1, b2⟩ := C90_round_trip_partial e he k rf f p hr hf ht .debug _ hs hm (2 ^ p.size)
      rw [a1] at b1; cases b1
      rw [a2, Nat.mod_self] at b2
      have := Nat.two_pow_pos p.size
      injection b2 with b2; omega
    · omega
  · rintro rfl v hv m buf hsl hnew
    obtain ⟨new, b1, b2⟩ := C90_round_trip_partial e he k rf f p hr hf ht m buf hsl hnew v
    rw [Nat.mod_eq_of_lt hv] at b2
    exact ⟨new, b1, b2⟩

/-- All ethertypes are read back. -/
example : ∀ v, v < 2 ^ 16 → ReadsBack ethernet 2 v :=
  (C90_reads_back_iff ("ethernet::Ethernet", Source.srcEthernet, ethernet) (by simp [crateSources]) 2 _ _ _
    rfl rfl rfl ⟨"ethernet", "EtherType", ["u16"], ["u16"]⟩ (by decide +kernel) rfl _ 16 rfl (by decide +kernel)).mpr rfl

/-- The fields of a struct that are narrower than their types: name, bits of the field, bits of the
type. -/
def narrower (fs : List RawField) (d : Decl) : List (String × Nat × Nat) :=
  (fs.zip d.fields).flatMap fun x => match x.2.ty with
    | .misc [p] => (fieldTypes.filter fun t => t.name.toList == x.1.ty).flatMap fun t => match t.args with
      | [a] => match rustWidth a.toList with
        | some w => if p.size = w then [] else [(x.2.name, p.size, w)]
        | none => []
      | _ => []
    | _ => []

/-- **C90**: the fields narrower than their types, in the order of `crateSources`. -/
theorem C90_narrow :
    (crateSources.flatMap fun e => (narrower e.2.1 e.2.2).map fun x => (e.1, x)) = [
      ("vlan::Vlan", "priority_code_point", 3, 8),
      ("ipv4::Ipv4Option", "number", 5, 8),
      ("quic::VersionNegotiation", "header_form", 1, 8),
      ("quic::Initial", "header_form", 1, 8),
      ("quic::Initial", "fixed_bit", 1, 8),
      ("quic::Initial", "long_packet_type", 2, 8),
      ("quic::ZeroRtt", "header_form", 1, 8),
      ("quic::ZeroRtt", "fixed_bit", 1, 8),
      ("quic::ZeroRtt", "long_packet_type", 2, 8),
      ("quic::Handshake", "header_form", 1, 8),
      ("quic::Handshake", "fixed_bit", 1, 8),
      ("quic::Handshake", "long_packet_type", 2, 8),
      ("quic::Retry", "header_form", 1, 8),
      ("quic::Retry", "fixed_bit", 1, 8),
      ("quic::Retry", "long_packet_type", 2, 8)] := by
  decide +kernel

/-- **C90** is false: IPv4 option number 0x94 (the type octet of router alert) comes back as 20. -/
theorem C90_false : ¬ C90_statement := by
  intro h
  have he : ("ipv4::Ipv4Option", Source.srcIpv4Option, ipv4Option) ∈ crateSources := by simp [crateSources]
  have h1 := h _ he 2 _ _ ⟨5, .big⟩ rfl rfl rfl ⟨"ipv4", "Ipv4OptionNumber", ["u8"], ["u8"]⟩
    (by simp [fieldTypes]) (by decide +kernel) "u8" 8 rfl (by decide +kernel) 0x94 (by decide) .debug
    [0, 0] (by decide) (by decide +kernel)
  obtain ⟨new, a1, a2⟩ := h1
  obtain ⟨new', b1, b2⟩ := C90_round_trip_partial _ he 2 _ _ ⟨5, .big⟩ rfl rfl rfl .debug [0, 0]
    (by decide) (by decide +kernel) 0x94
  rw [a1] at b1; cases b1
  rw [a2] at b2
  cases b2

/-- **C90**: the constants of the crate are read back, whatever the width of the field. -/
theorem C90_constants (e : String × List RawField × Decl) (he : e ∈ crateSources) (k : Nat)
    (rf : RawField) (f : Field) (p : Prim) (hr : e.2.1[k]? = some rf) (hf : e.2.2.fields[k]? = some f)
    (ht : f.ty = .misc [p]) (c : Const) (hc : c ∈ allConstants) (hty : c.ty.toList = rf.ty) :
    ReadsBack e.2.2 k c.value := by
  intro m buf hsl hnew
  obtain ⟨new, b1, b2⟩ := C90_round_trip_partial e he k rf f p hr hf ht m buf hsl hnew c.value
  have := (typedField he hr hf ht).2.2 rfl c hc hty p (by simp)
  rw [Nat.mod_eq_of_lt this] at b2
  exact ⟨new, b1, b2⟩

example : (⟨"ipv4::Ipv4OptionNumbers", "RTRALT", "Ipv4OptionNumber", 20⟩ : Const) ∈ allConstants ∧
    "Ipv4OptionNumber".toList = (Source.field "number" [Source.constructWith ["u5"]] "Ipv4OptionNumber").ty := by
  decide +kernel

/-! ## C91 -/

/-- **C91** for flags: a flag constant selects, in the value of the flags field, exactly the bit that
the protocol assigns to the flag; and setting the flag by `set_flags(get_flags() | FLAG)` sets this bit
of the packet and changes nothing else. -/
theorem C91_flags (f : Flag) (hf : f ∈ flags) :
    ∃ c ∈ constants, c.mod = f.mod ∧ c.name = f.name ∧
      ∀ (m : Mode) (buf : Buf), SliceLen buf.length → (f.decl.newPacket buf).isSome = true →
        ∃ v, f.decl.get m buf f.no = .ok (.num v) ∧
          (v &&& c.value ≠ 0 ↔ (bitsOf buf)[f.bit]? = some true) ∧
          ∃ new, f.decl.set m buf f.no (.num (v ||| c.value)) = .ok new ∧
            bitsOf new = (bitsOf buf).set f.bit true := by
  have key : (flags.all fun f => constants.any fun c => c.mod == f.mod && c.name == f.name && flagOk f c) =
      true := by decide +kernel
  obtain ⟨c, hc, h⟩ := List.any_eq_true.mp (List.all_eq_true.mp key f hf)
  simp only [Bool.and_eq_true, beq_iff_eq] at h
  obtain ⟨⟨h1, h2⟩, h3⟩ := h
  refine ⟨c, hc, h1, h2, fun m buf hsl hnew => ?_⟩
  unfold flagOk at h3
  rw [Bool.and_eq_true] at h3
  obtain ⟨hacc, h3⟩ := h3
  split at h3
  · rename_i g hg
    split at h3
    · rename_i p hp
      simp only [Bool.and_eq_true, decide_eq_true_eq, beq_iff_eq] at h3
      obtain ⟨⟨⟨⟨a1, a2⟩, a3⟩, a4⟩, a5⟩ := h3
      have a1' : plainTy g.ty = true := a1
      have hget := C07_fixed_getter_value f.decl hacc f.no g hg a2 a1' m buf hnew
      rw [hp] at hget
      have hroom := new_bits hnew
      have hle := bitsSum_field_le hg
      have hfull : fixedBits (f.decl.fields.take f.no) + p.size ≤ (bitsOf buf).length := by
        rw [bitsOf_length, fixedBits_eq]
        have : g.ty.bits = p.size := by rw [hp]; rfl
        omega
      refine ⟨_, hget, ?_, ?_⟩
      · rw [a5, and_two_pow_ne, ofBits_testBit]
        have hlen : (bitSlice (bitsOf buf) (fixedBits (f.decl.fields.take f.no)) p.size).length = p.size := by
          simp only [bitSlice, List.length_take, List.length_drop]; omega
        have hi : (bitSlice (bitsOf buf) (fixedBits (f.decl.fields.take f.no)) p.size)[p.size - 1 -
            (fixedBits (f.decl.fields.take f.no) + p.size - 1 - f.bit)]? = (bitsOf buf)[f.bit]? := by
          rw [bitSlice, List.getElem?_take_of_lt (by omega), List.getElem?_drop]
          congr 1; omega
        rw [hlen, List.getD_eq_getElem?_getD, hi, Bool.and_eq_true, decide_eq_true_eq]
        have hb : f.bit < (bitsOf buf).length := by omega
        rw [List.getElem?_eq_getElem hb]
        constructor
        · rintro ⟨-, h⟩; exact congrArg some h
        · intro h; injection h with h; exact ⟨by omega, h⟩
      · obtain ⟨new, b1, -, b3⟩ := C03_declared_setter f.decl hacc f.no g hg a2 a1' m
          ⟨fun _ => [], id, fun _ => True⟩
          (.num (ofBits (bitSlice (bitsOf buf) (fixedBits (f.decl.fields.take f.no)) p.size) ||| c.value))
          (by rw [hp]; trivial) buf hsl hnew
        refine ⟨new, b1, ?_⟩
        rw [b3, hp, a5]
        exact bits_set_mid _ _ _ _ _ (by simpa [intWidths] using hfull) a3 a4 rfl
    · cases h3
  · cases h3

example : (tcp.set .debug (List.replicate 20 0) 6 (.num (0 ||| 2))).toOption =
    some (List.replicate 13 0 ++ [2] ++ List.replicate 6 0) := by decide +kernel

/-- **C91**: the flags listed are all the flag constants of the crate. -/
theorem C91_flags_complete (c : Const) (hc : c ∈ constants) (hty : ∀ t ∈ fieldTypes, t.name ≠ c.ty) :
    ∃ f ∈ flags, f.mod = c.mod ∧ f.name = c.name := by
  have key : (constants.all fun c => (fieldTypes.any fun t => t.name == c.ty) ||
      flags.any fun f => f.mod == c.mod && f.name == c.name) = true := by decide +kernel
  have := List.all_eq_true.mp key c hc
  rcases Bool.or_eq_true _ _ |>.mp this with h | h
  · obtain ⟨t, ht, h⟩ := List.any_eq_true.mp h
    exact absurd (eq_of_beq h) (hty t ht)
  · obtain ⟨f, hf, h⟩ := List.any_eq_true.mp h
    simp only [Bool.and_eq_true, beq_iff_eq] at h
    exact ⟨f, hf, h.1, h.2⟩

example : (⟨"tcp::TcpFlags", "SYN", "u9be", 2⟩ : Const) ∈ constants ∧ ∀ t ∈ fieldTypes, t.name ≠ "u9be" := by
  decide +kernel

/-- **C91** for numbers: the constants of the types of header fields are the assigned numbers. -/
theorem C91_numbers (mod name : String) (v : Nat) :
    (∃ ty, (∃ t ∈ fieldTypes, t.name = ty) ∧ (⟨mod, name, ty, v⟩ : Const) ∈ constants) ↔
      ∃ r ∈ registries, r.1 = mod ∧ (name, v) ∈ r.2 := by
  have k1 : (constants.all fun c => !(fieldTypes.any fun t => t.name == c.ty) ||
      registries.any fun r => r.1 == c.mod && r.2.any fun x => x == (c.name, c.value)) = true := by
    decide +kernel
  have k2 : (registries.all fun r => r.2.all fun x => constants.any fun c =>
      c.mod == r.1 && c.name == x.1 && c.value == x.2 && fieldTypes.any fun t => t.name == c.ty) = true := by
    decide +kernel
  constructor
  · rintro ⟨ty, ⟨t, ht, rfl⟩, hc⟩
    have := List.all_eq_true.mp k1 _ hc
    have hany : (fieldTypes.any fun t' => t'.name == t.name) = true := List.any_eq_true.mpr ⟨t, ht, by simp⟩
    simp only [hany, Bool.not_true, Bool.false_or] at this
    obtain ⟨r, hr, h⟩ := List.any_eq_true.mp this
    simp only [Bool.and_eq_true, beq_iff_eq, List.any_eq_true] at h
    obtain ⟨h1, x, hx, rfl⟩ := h
    exact ⟨r, hr, h1, hx⟩
  · rintro ⟨r, hr, rfl, hx⟩
    have := List.all_eq_true.mp (List.all_eq_true.mp k2 r hr) _ hx
    obtain ⟨c, hc, h⟩ := List.any_eq_true.mp this
    simp only [Bool.and_eq_true, beq_iff_eq, List.any_eq_true] at h
    obtain ⟨⟨⟨h1, h2⟩, h3⟩, t, ht, h4⟩ := h
    exact ⟨c.ty, ⟨t, ht, h4⟩, by rw [← h1, ← h2, ← h3]; exact hc⟩

example : (⟨"tcp::TcpOptionNumbers", "TIMESTAMPS", "TcpOptionNumber", 8⟩ : Const) ∈ constants ∧
    constants.length = 150 := by decide +kernel

/-- **C91**: where the constants are and which type they have: each module has constants of one type,
which is an integer type or a field type defined in the same file; and no two constants of a module have
the same name. -/
theorem C91_modules :
    (∀ c ∈ allConstants, (c.mod, c.ty) ∈ constModules) ∧
    (∀ r ∈ constModules, ∃ c ∈ allConstants, c.mod = r.1 ∧ c.ty = r.2) ∧
    (∀ r ∈ constModules, (∃ w, (r.2, w) ∈ builtinTypes ++ typeAliases) ∨
      ∃ t ∈ fieldTypes, t.name = r.2 ∧ ∃ rest, r.1.toList = t.mod.toList ++ "::".toList ++ rest) ∧
    (allConstants.map fun c => (c.mod, c.name)).Nodup := by
  have k1 : (allConstants.all fun c => constModules.any (· == (c.mod, c.ty))) = true := by decide +kernel
  have k2 : (constModules.all fun r => allConstants.any fun c => c.mod == r.1 && c.ty == r.2) = true := by
    decide +kernel
  have k3 : (constModules.all fun r => ((builtinTypes ++ typeAliases).any fun t => t.1 == r.2) ||
      fieldTypes.any fun t => t.name == r.2 && (t.mod.toList ++ "::".toList).isPrefixOf r.1.toList) = true := by
    decide +kernel
  refine ⟨fun c hc => ?_, fun r hr => ?_, fun r hr => ?_, by decide +kernel⟩
  · obtain ⟨r, hr, h⟩ := List.any_eq_true.mp (List.all_eq_true.mp k1 c hc)
    exact eq_of_beq h ▸ hr
  · obtain ⟨c, hc, h⟩ := List.any_eq_true.mp (List.all_eq_true.mp k2 r hr)
    simp only [Bool.and_eq_true, beq_iff_eq] at h
    exact ⟨c, hc, h⟩
  · rcases Bool.or_eq_true _ _ |>.mp (List.all_eq_true.mp k3 r hr) with h | h
    · obtain ⟨t, ht, h⟩ := List.any_eq_true.mp h
      exact .inl ⟨t.2, by rw [← eq_of_beq h]; exact ht⟩
    · obtain ⟨t, ht, h⟩ := List.any_eq_true.mp h
      simp only [Bool.and_eq_true, beq_iff_eq] at h
      obtain ⟨rest, hrest⟩ := List.isPrefixOf_iff_prefix.mp h.2
      exact .inr ⟨t, ht, h.1, rest, hrest.symm⟩

example : (⟨"ip::IpNextHeaderProtocols", "Tcp", "IpNextHeaderProtocol", 6⟩ : Const) ∈ allConstants ∧
    allConstants.length = 320 := by decide +kernel

end Verif.Props
