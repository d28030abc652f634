import Verif.Proofs.UnwindAfter

/-!
# C122: how far a `set_options` that panics has written

`C122_false` shows that it can write over the payload. Not further than one option, though.
-/

set_option autoImplicit false

namespace Verif.Props
open Spec

/-- `populate` of an IPv4 option. -/
def ipv4OptionLeft : Nat → PopulateLeft := fun _ => ipv4Option.populateLeft noPackets

/-- IPv4, whose options are packets of their own. -/
theorem ipv4_leaves : LeavesAll ipv4 ipv4OptionLeft := by
  refine C122_nested ipv4 ipv4OptionLeft fun k f c hf hc => ⟨ipv4Option, noPackets, flat_leaves ?_, ?_, rfl⟩
  · intro f hf c
    simp only [ipv4Option, List.mem_cons, List.not_mem_nil, or_false] at hf
    rcases hf with rfl | rfl | rfl | rfl | rfl <;> intro h <;> cases h
  · have hf := List.mem_of_getElem? hf
    simp only [ipv4, List.mem_cons, List.not_mem_nil, or_false] at hf
    rcases hf with rfl | rfl | rfl | rfl | rfl | rfl | rfl | rfl | rfl | rfl | rfl | rfl | rfl | rfl | rfl <;> cases hc
    rfl

theorem options_start {d : Decl} (hd : d ∈ crateDecls) {pop : Nat → PopulateLeft} (hp : LeavesAll d pop)
    {m : Mode} {buf : Buf} (hsl : SliceLen buf.length) {k : Nat} {f : Field} (hf : d.fields[k]? = some f)
    (hvec : f.ty.isVec = true) (h20 : fixedBits (d.fields.take k) / 8 = 20) (v : Val) :
    (d.setLeft pop m buf k v).1.take 20 = buf.take 20 := by
  rcases vec_kept hd hp hsl hf hvec v (m := m) with h | ⟨sizes, -, h⟩
  · rw [h]
  · exact (h.mono (by rw [startOf, h20]; omega)).2

/-- **C122, a further part that holds**: `set_options` of a TCP or IPv4 packet, however it ends, leaves
every byte of the fixed header as it was, and every byte that lies further behind the end of the options
than the longest of the given options. The end of the options is four times the data offset (the header
length), but not before byte 20. -/
theorem C122_options_partial (m : Mode) (buf : Buf) (hsl : SliceLen buf.length) (vs : List Val) (n off : Nat)
    (hn : ∀ v ∈ vs, optionBytes v ≤ n) :
    (tcp.get m buf 4 = .ok (.num off) →
      (tcp.setLeft tcpOptionLeft m buf 10 (.list vs)).1.take 20 = buf.take 20 ∧
      (tcp.setLeft tcpOptionLeft m buf 10 (.list vs)).1.drop (max 20 (4 * off) + n) =
        buf.drop (max 20 (4 * off) + n)) ∧
    (ipv4.get m buf 1 = .ok (.num off) →
      (ipv4.setLeft ipv4OptionLeft m buf 13 (.list vs)).1.take 20 = buf.take 20 ∧
      (ipv4.setLeft ipv4OptionLeft m buf 13 (.list vs)).1.drop (max 20 (4 * off) + n) =
        buf.drop (max 20 (4 * off) + n)) := by
  constructor
  · intro hoff
    have h16 : off < 2 ^ 4 := getInt_lt (d := tcp) rfl rfl hoff
    refine ⟨options_start (by simp [crateDecls]) tcp_leaves hsl rfl rfl rfl _, ?_⟩
    have := options_after (d := tcp) (pop := tcpOptionLeft) (k := 10) rfl rfl rfl rfl rfl (by decide) hoff
      (n := n) (vs := vs) (fun v hv buf => (tcpOption_after m v buf).mono (hn v hv))
      (by unfold tcpOptionsLength; split <;> omega)
    have h : 20 + tcpOptionsLength off = max 20 (4 * off) := by unfold tcpOptionsLength; split <;> omega
    rw [← h]
    exact this.2
  · intro hoff
    have h16 : off < 2 ^ 4 := getInt_lt (d := ipv4) rfl rfl hoff
    refine ⟨options_start (by simp [crateDecls]) ipv4_leaves hsl rfl rfl rfl _, ?_⟩
    have := options_after (d := ipv4) (pop := ipv4OptionLeft) (k := 13) rfl rfl rfl rfl rfl (by decide) hoff
      (n := n) (vs := vs) (fun v hv buf => (ipv4Option_after m v buf).mono (hn v hv))
      (by unfold ipv4OptionsLength; omega)
    have h : 20 + ipv4OptionsLength off = max 20 (4 * off) := by unfold ipv4OptionsLength; omega
    rw [← h]
    exact this.2

/-- A TCP packet with room for four bytes of options. Of the two options of four and three bytes the second
one begins in the field and ends in the payload; the setter panics and has overwritten three bytes of the
payload. The bound allows for four. -/
example : tcp.get .debug (List.replicate 12 0 ++ [0x60] ++ List.replicate 11 0 ++ [9, 9, 9, 9, 9]) 4 =
      .ok (.num 6) ∧
    optionBytes (.list [.nums [2], .nums [4], .nums [5, 180]]) = 4 ∧
    tcp.setLeft tcpOptionLeft .debug (List.replicate 12 0 ++ [0x60] ++ List.replicate 11 0 ++ [9, 9, 9, 9, 9]) 10
      (.list [.list [.nums [2], .nums [4], .nums [5, 180]], .list [.nums [3], .nums [3], .nums [7]]]) =
      (List.replicate 12 0 ++ [0x60] ++ List.replicate 7 0 ++ [2, 4, 5, 180, 3, 3, 7, 9, 9], .error .panic) := by
  decide +kernel

/-- The bound is sharp: an option that begins at the end of the field is written whole. -/
example : ipv4.get .release ([0x45] ++ List.replicate 19 0 ++ [9, 9, 9, 9, 9]) 1 = .ok (.num 5) ∧
    ipv4.setLeft ipv4OptionLeft .release ([0x45] ++ List.replicate 19 0 ++ [9, 9, 9, 9, 9]) 13
      (.list [.list [.num 1, .num 0, .nums [20], .nums [4], .nums [1, 2]]]) =
      ([0x45] ++ List.replicate 19 0 ++ [0x94, 4, 1, 2, 9], .error .panic) := by decide +kernel

end Verif.Props
