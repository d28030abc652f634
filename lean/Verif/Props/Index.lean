import Verif.Proofs.Index
import Verif.Model.Protocols

/-! # C94: index arithmetic in accessors -/

namespace Verif.Props
open Spec

/-- **C94**, integers: the accessor of a field at byte offset `co`, with its indices `co + i` computed
as `usize` (overflow panics in debug builds and wraps in release builds), reads what it would read with
exact arithmetic. In particular an offset beyond the slice always panics, also when `co + i` wraps to
a small index. -/
theorem C94_read (m : Mode) (p : Prim) (off : Nat) (buf : Buf) (hsl : SliceLen buf.length) (co : Nat)
    (h : co < 2 ^ 64) : getPrimU m p off buf co = getPrim p off buf co :=
  getPrimU_eq m p off hsl co h

/-- The second byte of a `u16` at offset 2^64 - 1 has index 0 in a release build; the first byte panics. -/
example : uadd .release (2 ^ 64 - 1) 1 = .ok 0 ∧
    getPrimU .release ⟨16, .big⟩ 0 [1, 2, 3] (2 ^ 64 - 1) = panic ∧
    getPrimU .release ⟨16, .big⟩ 0 [1, 2, 3] 1 = .ok 0x0203 := by decide +kernel

theorem C94_write (m : Mode) (p : Prim) (off : Nat) (buf : Buf) (hsl : SliceLen buf.length) (co v : Nat)
    (h : co < 2 ^ 64) : setPrimU m p off buf co v = setPrim p off buf co v :=
  setPrimU_eq m p off hsl co v h

example : setPrimU .release ⟨16, .big⟩ 0 [1, 2, 3] (2 ^ 64 - 1) 0x0405 = panic ∧
    setPrimU .release ⟨16, .big⟩ 0 [1, 2, 3] 1 0x0405 = .ok [1, 4, 5] := by decide +kernel

/-- **C94**, offsets outside the packet: accessors panic in both builds. -/
theorem C94_outside (m : Mode) (p : Prim) (off : Nat) (buf : Buf) (hsl : SliceLen buf.length) (co v : Nat)
    (h : co < 2 ^ 64) (hout : buf.length ≤ co) :
    getPrimU m p off buf co = panic ∧ setPrimU m p off buf co v = panic := by
  rw [C94_read m p off buf hsl co h, C94_write m p off buf hsl co v h]
  exact ⟨getPrim_outside hout, setPrim_outside hout⟩

example := C94_outside .release ⟨16, .big⟩ 0 [1, 2, 3] (by decide) (2 ^ 64 - 1) 7 (by decide) (by decide)

/-- **C94**: every getter of every declaration, with machine arithmetic in its indices and loop
counters, returns what the getter with exact indices returns. -/
theorem C94_getters (d : Decl) (m : Mode) (buf : Buf) (hsl : SliceLen buf.length) (hb : d.bits < 2 ^ 64)
    (k : Nat) : d.getU m buf k = d.get m buf k :=
  getU_eq d m buf hsl hb k

example := C94_getters udp .debug [0, 1, 0, 2, 0, 8, 0, 0] (by decide) (by decide) 2

/-- **C94**: every setter likewise. -/
theorem C94_setters (d : Decl) (m : Mode) (buf : Buf) (hsl : SliceLen buf.length) (hb : d.bits < 2 ^ 64)
    (k : Nat) (v : Val) (hv : ∀ ns, v = .nums ns → SliceLen ns.length) :
    d.setU m buf k v = d.set m buf k v :=
  setU_eq d m buf hsl hb k v hv

/-- A release build where the offset of the field after a vector wraps to 2^64 - 1. -/
example :
    let d : Decl := ⟨[⟨"a", .prim ⟨8, .big⟩, false, none⟩,
      ⟨"b", .vecPrim ⟨8, .big⟩, false, some fun _ _ _ => .ok (2 ^ 64 - 4)⟩, ⟨"c", .prim ⟨16, .big⟩, false, none⟩]⟩
    d.getU .release [1, 2, 3, 4] 0 = .ok (.num 1) ∧ d.getU .release [1, 2, 3, 4] 2 = panic ∧
    d.setU .release [1, 2, 3, 4] 2 (.num 7) = panic ∧
    d.setU .release [1, 2, 3, 4] 0 (.num 7) = .ok [7, 2, 3, 4] := by decide +kernel

/-- The header sizes of the packet types of this crate meet the hypothesis. -/
theorem C94_crate : crateDecls.all (fun d => decide (d.bits < 2 ^ 64)) = true := by decide +kernel

end Verif.Props
