import Verif.Proofs.CodeFacts
import Verif.Proofs.Fields
import Verif.Props.Types
import Verif.Props.Fields

/-!
# C78: the text of the generated integer accessors

The bodies of integer getters and setters are strings built by the macro. `genGetOps` and `genSetOps`
build the same strings; `runGetter` and `runSetter` read them as Rust source and run them.
-/

namespace Verif
open CodeText Spec

/-- C78: for every field the macro accepts, the text of its getter is a Rust block that type-checks, and
running it gives what `getPrim` gives, in every buffer and in both build modes. -/
theorem C78_getter (ty : String) (w n : Nat) (e : Endianness) (spec : EndiannessSpecified)
    (hty : (ty, w) ∈ typeNames) (hparse : parseTy ty.toList = some (n, e, spec))
    (s : Nat) (ops : List GetOperation) (hops : operations s n e = some ops)
    (name : String) (hname : name ∈ bufferNames) (m : Mode) (buf : Buf) (co : Nat) (hco : co + 9 ≤ 2 ^ 64) :
    runGetter m ty.toList (genGetOps name.toList ty.toList ops) buf co = getPrim ⟨n, e⟩ s buf co := by
  obtain ⟨P, hP⟩ := nameOk_buffer hname
  obtain ⟨ht, hw⟩ := typeName_facts _ hty
  obtain ⟨f1, f2, f3, _⟩ := ops_facts hops
  obtain ⟨n', e', spec', hp', _, hst⟩ := C69_names ty w hty
  rw [hparse] at hp'
  cases hp'
  unfold getPrim
  simp only [hops, hst]
  exact run_getter m hP hw w (hst ▸ (width_ge n).1) ht ops f3 (by omega) f2 buf co (by omega)

example : ("u13be", 16) ∈ typeNames ∧ parseTy "u13be".toList = some (13, .big, .yes) ∧
    (operations 3 13 .big).map (fun ops => String.ofList (genGetOps "self.packet".toList "u13be".toList ops)) =
      some "{let b0 = (((self.packet[co + 0] as u13be) & 0x1f) << 8) as u13be;\nlet b1 = ((self.packet[co + 1] as u13be)) as u13be;\n\nb0 | b1\n}" ∧
    runGetter .debug "u13be".toList (genGetOps "self.packet".toList "u13be".toList
      [⟨0x1f, 8, 0⟩, ⟨0xff, 0, 0⟩]) [0xff, 0x12] 0 = .ok 0x1f12 := by decide +kernel

/-- C78: likewise the text of the setter, for every value of the argument's type. -/
theorem C78_setter (ty : String) (w n : Nat) (e : Endianness) (spec : EndiannessSpecified)
    (hty : (ty, w) ∈ typeNames) (hparse : parseTy ty.toList = some (n, e, spec))
    (s : Nat) (ops : List GetOperation) (hops : operations s n e = some ops)
    (name : String) (hname : name ∈ bufferNames) (m : Mode) (buf : Buf) (co v : Nat)
    (hv : v < 2 ^ w) (hco : co + 9 ≤ 2 ^ 64) :
    runSetter m ty.toList (genSetOps name.toList (toMutator ops)) buf co v = setPrim ⟨n, e⟩ s buf co v := by
  obtain ⟨P, hP⟩ := nameOk_buffer hname
  obtain ⟨ht, hw⟩ := typeName_facts _ hty
  obtain ⟨f1, f2, _, f4⟩ := ops_facts hops
  obtain ⟨n', e', spec', hp', _, hst⟩ := C69_names ty w hty
  rw [hparse] at hp'
  cases hp'
  have hl : (toMutator ops).length = ops.length := by simp [toMutator]
  unfold setPrim
  simp only [hops, hst]
  exact run_setter m hP w ht (toMutator ops) f4 (by omega) buf co v hv (by omega)

example : (operations 3 13 .big).map (fun ops =>
      String.ofList (genSetOps "self.packet".toList (toMutator ops))) =
      some "{self.packet[co + 0] = ((self.packet[co + 0] & 0xe0) | ((val & 0x1f00) >> 8) as u8) as u8;\nself.packet[co + 1] = (val) as u8;\n}" ∧
    (operations 3 13 .big).map (fun ops => runSetter .debug "u13be".toList
      (genSetOps "self.packet".toList (toMutator ops)) [0xff, 0x12] 0 0x0345) =
      some (.ok [0xe3, 0x45]) := by decide +kernel

/-- C78, from text to bits: for a big-endian type the text of the getter, run as Rust, returns the number
written in the field's bits. -/
theorem C78_getter_bits (ty : String) (w n : Nat) (spec : EndiannessSpecified)
    (hty : (ty, w) ∈ typeNames) (hparse : parseTy ty.toList = some (n, .big, spec))
    (s : Nat) (hacc : Prim.accepted ⟨n, .big⟩ s = true)
    (name : String) (hname : name ∈ bufferNames) (m : Mode) (buf : Buf) (hlen : buf.length < 2 ^ 63)
    (co : Nat) (hbuf : InBuffer buf co s n) :
    ∃ ops, operations s n .big = some ops ∧
      runGetter m ty.toList (genGetOps name.toList ty.toList ops) buf co =
        .ok (ofBits (bitSlice (bitsOf buf) (8 * co + s) n)) := by
  have hacc' := hacc
  unfold Prim.accepted at hacc'
  obtain ⟨ops, hops⟩ := Option.isSome_iff_exists.mp hacc'
  refine ⟨ops, hops, ?_⟩
  unfold InBuffer at hbuf
  rw [C78_getter ty w n .big spec hty hparse s ops hops name hname m buf co (by omega)]
  exact Props.C01_big_endian_getter n s co buf hacc hbuf

example : ("u13be", 16) ∈ typeNames ∧ parseTy "u13be".toList = some (13, .big, .yes) ∧
    (operations 3 13 .big).isSome = true := by decide +kernel

/-- C78, from text to bits: the text of the setter, run as Rust, replaces the field's bits by the lowest
bits of the argument and nothing else. -/
theorem C78_setter_bits (ty : String) (w n : Nat) (spec : EndiannessSpecified)
    (hty : (ty, w) ∈ typeNames) (hparse : parseTy ty.toList = some (n, .big, spec))
    (s : Nat) (hacc : Prim.accepted ⟨n, .big⟩ s = true)
    (name : String) (hname : name ∈ bufferNames) (m : Mode) (buf : Buf) (hlen : buf.length < 2 ^ 63)
    (co v : Nat) (hv : v < 2 ^ w) (hbuf : InBuffer buf co s n) :
    ∃ ops new, operations s n .big = some ops ∧
      runSetter m ty.toList (genSetOps name.toList (toMutator ops)) buf co v = .ok new ∧
      bitsOf new = (bitsOf buf).take (8 * co + s) ++ toBits n v ++ (bitsOf buf).drop (8 * co + s + n) := by
  have hacc' := hacc
  unfold Prim.accepted at hacc'
  obtain ⟨ops, hops⟩ := Option.isSome_iff_exists.mp hacc'
  obtain ⟨new, h1, _, h3⟩ := setter_effect n s co v buf hacc hbuf
  refine ⟨ops, new, hops, ?_, h3⟩
  unfold InBuffer at hbuf
  rw [C78_setter ty w n .big spec hty hparse s ops hops name hname m buf co v hv (by omega), h1]

example : ("u9be", 16) ∈ typeNames ∧ parseTy "u9be".toList = some (9, .big, .yes) ∧
    Prim.accepted ⟨9, .big⟩ 7 = true ∧ InBuffer [0x50, 0x12] 0 7 9 ∧
    (operations 7 9 .big).map (fun ops => runGetter .release "u9be".toList
      (genGetOps "_self.packet".toList "u9be".toList ops) [0x51, 0x12] 0) = some (.ok 0x112) := by
  decide +kernel

/-- C78: exactly which setters contain a literal too large for its type. The lint
`overflowing_literals` would reject it in written code; `rustc` truncates it. They are those of the
little-endian and host-endian 16-bit and 32-bit fields that start at bit 5, 6 or 7 of a byte. -/
theorem C78_literals (ty : String) (w n : Nat) (e : Endianness) (spec : EndiannessSpecified)
    (hty : (ty, w) ∈ typeNames) (hparse : parseTy ty.toList = some (n, e, spec))
    (s : Nat) (ops : List GetOperation) (hops : operations s n e = some ops)
    (name : String) (hname : name ∈ bufferNames) :
    TooWide w (genSetOps name.toList (toMutator ops)) ↔ e ≠ .big ∧ (n = 16 ∨ n = 32) ∧ 5 ≤ s := by
  obtain ⟨P, hP⟩ := nameOk_buffer hname
  obtain ⟨f1, _, _, f4⟩ := ops_facts hops
  have hl : (toMutator ops).length = ops.length := by simp [toMutator]
  have hb := parse_setter hP (toMutator ops) (fun op ho => (f4 op ho).1) (by omega)
  have hs := (operations_range hops).1
  have k := List.all_eq_true.mp literals_table _ hty
  simp only [hparse] at k
  have k := List.all_eq_true.mp k s (by simp; omega)
  simp only [hops] at k
  have k := eq_of_beq k
  rw [← decide_eq_true_iff (p := e ≠ .big ∧ (n = 16 ∨ n = 32) ∧ 5 ≤ s), ← k, List.any_eq_true]
  unfold TooWide
  rw [hb]
  constructor
  · rintro ⟨b, hb', x, hx, hle⟩
    cases hb'
    rw [blockMasks_set] at hx
    obtain ⟨op, ho, hx⟩ := List.mem_flatMap.mp hx
    refine ⟨op, ho, ?_⟩
    split at hx
    · rename_i hne
      rw [List.mem_singleton] at hx
      subst hx
      exact decide_eq_true ⟨hne, hle⟩
    · cases hx
  · rintro ⟨op, ho, hd⟩
    obtain ⟨hne, hle⟩ := of_decide_eq_true hd
    refine ⟨_, rfl, op.valueMask, ?_, hle⟩
    rw [blockMasks_set]
    refine List.mem_flatMap.mpr ⟨op, ho, ?_⟩
    rw [if_pos hne]
    exact List.mem_singleton.mpr rfl

example : ("u16le", 16) ∈ typeNames ∧ parseTy "u16le".toList = some (16, .little, .yes) ∧
    (operations 5 16 .little).map (fun ops => String.ofList (genSetOps "self.packet".toList (toMutator ops))) =
      some "{self.packet[co + 0] = ((self.packet[co + 0] & 0xf8) | ((val & 0x7)) as u8) as u8;\nself.packet[co + 1] = ((val & 0x1fe0) >> 5) as u8;\nself.packet[co + 2] = ((self.packet[co + 2] & 0x7) | ((val & 0x3e000) >> 10) as u8) as u8;\n}" := by
  decide +kernel

end Verif
