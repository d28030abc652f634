import Verif.Spec.Descend
import Verif.Props.Payloads
import Verif.Props.Headers

/-!
# C134: readers of nested headers never panic

The reader is in `Spec/Descend`.
-/

set_option autoImplicit false

namespace Verif.Props
open Verif Verif.Spec

theorem inside_piece {n a k : Nat} {frame : Buf} (h1 : n ≤ frame.length) (h2 : n ≤ a) :
    Inside n frame ((frame.drop a).take k) :=
  ⟨frame.take a, (frame.drop a).drop k, by rw [List.append_assoc, List.take_append_drop, List.take_append_drop], by rw [List.length_take]; omega⟩

theorem readable_table : ∀ d ∈ readable, d.accepted = true ∧ (headerFields d).all (plainTy ·.ty) = true ∧
    fixedBits d.fields = 8 * d.minSize ∧ 2 ≤ d.minSize := by
  decide +kernel

/-- The payload of a header is a piece of the buffer behind its fields, in all builds. -/
theorem readable_payload (d : Decl) (hd : d ∈ readable) (buf : Buf) (hsl : SliceLen buf.length)
    (h : d.minSize ≤ buf.length) : ∃ a k, d.minSize ≤ a ∧ ∀ m, d.payload m buf = .ok ((buf.drop a).take k) := by
  have hopen : ∀ n, (d, n) ∈ openPayloads → d.minSize ≤ n →
      ∃ a k, d.minSize ≤ a ∧ ∀ m, d.payload m buf = .ok ((buf.drop a).take k) := fun n hn hm =>
    ⟨n, buf.length, hm, fun m => by
      rw [C09_open_payloads d n hn m buf hsl, List.take_of_length_le (by rw [List.length_drop]; omega)]⟩
  have hempty : d ∈ emptyPayloads → ∃ a k, d.minSize ≤ a ∧ ∀ m, d.payload m buf = .ok ((buf.drop a).take k) := fun hn =>
    ⟨d.minSize, 0, Nat.le_refl _, fun m => by rw [C09_empty_payloads d hn m buf, List.take_zero]⟩
  simp only [readable, List.mem_cons, List.not_mem_nil, or_false] at hd
  rcases hd with rfl | rfl | rfl | rfl | rfl | rfl | rfl | rfl | rfl | rfl | rfl | rfl | rfl | rfl |
    rfl | rfl | rfl | rfl | rfl | rfl | rfl
  · exact hopen 14 (by simp [openPayloads]) (by decide)
  · exact hopen 4 (by simp [openPayloads]) (by decide)
  · exact hempty (by simp [emptyPayloads])
  · exact ⟨_, _, Nat.le_max_left 20 _, fun m => C09_ipv4 m buf h⟩
  · exact ⟨40, _, by decide, fun m => C09_ipv6 m buf h⟩
  · exact ⟨2, _, by decide, fun m => C09_extension m buf h⟩
  · exact ⟨4, _, by decide, fun m => C09_routing m buf h⟩
  · exact hempty (by simp [emptyPayloads])
  · exact hopen 8 (by simp [openPayloads]) (by decide)
  · refine ⟨max 20 (4 * bitsAt buf 96 4), buf.length, Nat.le_max_left 20 _, fun m => ?_⟩
    rw [C09_tcp m buf hsl h, List.take_of_length_le (by rw [List.length_drop]; omega)]
  · exact hopen 4 (by simp [openPayloads]) (by decide)
  · exact hopen 8 (by simp [openPayloads]) (by decide)
  · exact hopen 8 (by simp [openPayloads]) (by decide)
  · exact hopen 8 (by simp [openPayloads]) (by decide)
  · exact hopen 8 (by simp [openPayloads]) (by decide)
  · exact hopen 4 (by simp [openPayloads]) (by decide)
  all_goals exact hempty (by simp [emptyPayloads])

theorem headerFields_get {d : Decl} {k : Nat} {f : Field} (h : (headerFields d)[k]? = some f) :
    d.fields[k]? = some f ∧ (d.fields.take (k + 1)).all isFixed = true := by
  unfold headerFields at h
  obtain ⟨t, ht⟩ := List.takeWhile_prefix (l := d.fields) (fun f : Field => !f.ty.isVec && f.len.isNone)
  have hk := (List.getElem?_eq_some_iff.mp h).1
  constructor
  · rw [← ht, List.getElem?_append_left hk, h]
  · rw [← ht, List.take_append_of_le_length (by omega), List.all_eq_true]
    intro x hx
    have := List.mem_of_mem_take hx
    exact (List.all_eq_true.mp List.all_takeWhile) x this

/-- The getters of the header fields, called in turn. -/
theorem readHeader_ok {d : Decl} (hacc : d.accepted = true) (hplain : (headerFields d).all (plainTy ·.ty) = true) {buf : Buf} (hnew : (d.newPacket buf).isSome = true) (n k : Nat)
    (hn : k + n = (headerFields d).length) : ∃ vs : List Val, vs.length = n ∧
      (∀ (i : Nat) (f : Field), (headerFields d)[k + i]? = some f →
        vs[i]? = some (decodeFixed (bitsOf buf) (fixedBits (d.fields.take (k + i))) f.ty)) ∧
      ∀ m, readHeader m d buf n k = .ok vs := by
  induction n generalizing k with
  | zero =>
    refine ⟨[], rfl, ?_, fun _ => rfl⟩
    intro i f hf
    have := (List.getElem?_eq_some_iff.mp hf).1
    omega
  | succ n ih =>
    obtain ⟨vs, hl, hv, hr⟩ := ih (k + 1) (by omega)
    have hk : k < (headerFields d).length := by omega
    obtain ⟨h1, h2⟩ := headerFields_get (List.getElem?_eq_getElem hk)
    have hp : plainTy (headerFields d)[k].ty = true := List.all_eq_true.mp hplain _ (List.getElem_mem hk)
    refine ⟨decodeFixed (bitsOf buf) (fixedBits (d.fields.take k)) (headerFields d)[k].ty :: vs, by simp [hl], ?_, ?_⟩
    · intro i f hf
      cases i with
      | zero =>
        rw [Nat.add_zero, List.getElem?_eq_getElem hk] at hf
        cases hf
        rfl
      | succ i =>
        rw [show k + (i + 1) = k + 1 + i by omega] at hf ⊢
        rw [List.getElem?_cons_succ]
        exact hv i f hf
    · intro m
      rw [readHeader, C07_fixed_getter_value d hacc k _ h1 h2 hp m buf hnew, ok_bind, hr m, ok_bind]

theorem descend_ok {pick : List Level → Option Decl} (hpick : ∀ seen d, pick seen = some d → d ∈ readable) (fuel : Nat)
    (seen : List Level) (buf : Buf) (hf : buf.length < fuel) (hsl : SliceLen buf.length) :
    ∃ ls rest, (∀ m, descend m pick fuel seen buf = .ok (seen ++ ls)) ∧ Nested buf ls rest ∧ 2 * ls.length ≤ buf.length ∧
      (∀ (i : Nat) (l : Level), ls[i]? = some l → pick (seen ++ ls.take i) = some l.d) ∧
      ∀ d, pick (seen ++ ls) = some d → 8 * rest.length < fixedBits d.fields := by
  induction fuel generalizing seen buf with
  | zero => omega
  | succ fuel ih =>
    cases hp : pick seen with
    | none =>
      refine ⟨[], buf, fun m => by simp only [descend, hp, List.append_nil], rfl, by simp, by simp, ?_⟩
      rw [List.append_nil, hp]
      intro d h
      cases h
    | some d =>
      have hd := hpick _ _ hp
      obtain ⟨hacc, hplain, hbits, h2⟩ := readable_table d hd
      cases hn : d.newPacket buf with
      | none =>
        refine ⟨[], buf, fun m => by simp only [descend, hp, hn, List.append_nil], rfl, by simp, by simp, ?_⟩
        rw [List.append_nil, hp]
        intro d' h
        cases h
        unfold Decl.newPacket at hn
        split at hn
        · cases hn
        · omega
      | some x =>
        have hnew : (d.newPacket buf).isSome = true := by rw [hn]; rfl
        have hmin := new_len hnew
        obtain ⟨vs, v1, v2, v3⟩ := readHeader_ok hacc hplain hnew (headerFields d).length 0 (by omega)
        obtain ⟨a, k, ha, hpay⟩ := readable_payload d hd buf hsl hmin
        have hlen : ((buf.drop a).take k).length ≤ buf.length - a := by
          rw [List.length_take, List.length_drop]; omega
        obtain ⟨ls, rest, i1, i2, i3, i4, i5⟩ := ih (seen ++ [⟨d, buf, vs⟩]) ((buf.drop a).take k) (by omega)
          (by unfold SliceLen at hsl ⊢; omega)
        refine ⟨⟨d, buf, vs⟩ :: ls, rest, ?_, ⟨rfl, by simp only; omega, v1, ?_, _, ?_, i2⟩, ?_, ?_, ?_⟩
        · intro m
          simp only [descend, hp, hn, v3 m, hpay m, ok_bind, i1 m, List.append_assoc, List.singleton_append]
        · intro j f hj
          have := v2 j f (by rw [Nat.zero_add]; exact hj)
          rwa [Nat.zero_add] at this
        · exact inside_piece (by simp only; omega) (by simp only; omega)
        · rw [List.length_cons]; omega
        · intro i l hi
          cases i with
          | zero =>
            rw [List.getElem?_cons_zero] at hi
            cases hi
            rw [List.take_zero, List.append_nil, hp]
          | succ i =>
            rw [List.getElem?_cons_succ] at hi
            have := i4 i l hi
            rwa [List.append_assoc, List.singleton_append] at this
        · intro d' hd'
          rw [List.append_assoc, List.singleton_append] at i5
          exact i5 d' hd'

/-- **C134** Whatever a reader picks among 21 packet types of the crate, and whatever the bytes, it ends without a panic,
with the same result in both builds. The headers lie inside each other and hold the numbers at their bits; there are at
most half as many as bytes. It ended because it wanted to or because too few bytes were left for the next header. -/
theorem C134_reader (pick : List Level → Option Decl) (hpick : ∀ seen d, pick seen = some d → d ∈ readable) (frame : Buf)
    (hsl : SliceLen frame.length) :
    ∃ ls rest, (∀ m, readFrame m pick frame = .ok ls) ∧ Nested frame ls rest ∧ 2 * ls.length ≤ frame.length ∧
      (∀ (i : Nat) (l : Level), ls[i]? = some l → pick (ls.take i) = some l.d) ∧
      ∀ d, pick ls = some d → 8 * rest.length < fixedBits d.fields := by
  obtain ⟨ls, rest, h1, h2, h3, h4, h5⟩ := descend_ok hpick (frame.length + 1) [] frame (by omega) hsl
  exact ⟨ls, rest, h1, h2, h3, h4, h5⟩

theorem monitor_readable (seen : List Level) (d : Decl) (h : monitor seen = some d) : d ∈ readable := by
  have key : d = ethernet ∨ d = vlan ∨ d = ipv4 ∨ d = ipv6 ∨ d = icmp ∨ d = tcp ∨ d = udp ∨ d = icmpv6 := by
    unfold monitor at h
    repeat' split at h
    all_goals first | (cases h; simp) | cases h
  rcases key with rfl | rfl | rfl | rfl | rfl | rfl | rfl | rfl <;> simp [readable]

/-- A frame with a VLAN tag, IPv4 and UDP. -/
def taggedFrame : Buf := List.replicate 12 7 ++ [0x81, 0, 0, 5, 8, 0] ++ [69, 0, 0, 30, 0, 7, 64, 0, 64, 17, 0, 0] ++
  [10, 0, 0, 1, 10, 0, 0, 2] ++ [1, 187, 17, 81, 0, 10, 0, 0, 1, 2]

example := C134_reader monitor monitor_readable taggedFrame (by unfold SliceLen; decide)

/-- The monitor finds four headers in it; cut off inside the UDP header, three. -/
example : (readFrame .debug monitor taggedFrame).toOption.map (·.map (·.d.fields.length)) = some [4, 5, 15, 5] ∧
    (readFrame .debug monitor (taggedFrame.take 45)).toOption.map (·.map (·.d.fields.length)) = some [4, 5, 15] := by
  decide +kernel

/-- **C134** The packet types cannot be all of the crate: a reader that looks for a GRE header panics if its routing bit
is set. -/
theorem C134_gre (m : Mode) (frame : Buf) (h : 4 ≤ frame.length) (hr : bitsAt frame 1 1 = 1) :
    readFrame m (fun seen => if seen.isEmpty then some gre else none) frame = panic := by
  have hnew : (gre.newPacket frame).isSome = true := by
    unfold Decl.newPacket
    rw [if_pos (show frame.length ≥ gre.minSize from h)]
    rfl
  obtain ⟨x, hx⟩ := Option.isSome_iff_exists.mp hnew
  obtain ⟨vs, -, -, hv⟩ := readHeader_ok (d := gre) (by decide) (by decide) hnew (headerFields gre).length 0 (by omega)
  obtain ⟨-, -, hp, -⟩ := C37_routing_panics m frame h hr
  simp only [readFrame, descend, List.isEmpty_nil, if_true, hx, hv m, hp, ok_bind]
  rfl

example := C134_gre .debug [0x40, 0, 0, 0] (by decide) (by decide)

end Verif.Props
