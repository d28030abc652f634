import Verif.Model.Template
import Verif.Model.Quic
import Verif.Model.Checksum
import Verif.Model.CodeText

/-!
# The loops of the crate, one round at a time

The other files of the model have these loops as recursive functions, with a bound on the number of rounds
where Lean does not see that they end. Here is the body of each loop by itself: `.inl` is the state for the next
round, `.inr` the value after the loop (or that of a `return` in it).
-/

namespace Verif
open Spec

/-- `while cur_data.len() >= 2`, `src/util.rs:163-170`; the state is `cur_data`, `i` and `sum`. -/
def sumRound (m : Mode) (skipword : Nat) : Buf × Nat × Nat → Res ((Buf × Nat × Nat) ⊕ (Nat × Nat))
  | (curData, i, sum) =>
    if curData.length ≥ 2 then do
      let sum ← if i ≠ skipword then do
          let a ← index curData 0
          let b ← index curData 1
          u32add m sum (u16FromBe a b)
        else pure sum
      let curData ← sliceFrom curData 2
      let i ← uadd m i 1
      .ok (.inl (curData, i, sum))
    else .ok (.inr (i, sum))

/-- `while sum >> 16 != 0`, `src/util.rs:82-84`. -/
def foldRound (m : Mode) (sum : Nat) : Res (Nat ⊕ Nat) :=
  if sum >>> 16 ≠ 0 then do
    let sum ← u32add m (sum >>> 16) (sum &&& 0xFFFF)
    .ok (.inl sum)
  else .ok (.inr sum)

/-- `while !packet.is_empty()`, `src/quic.rs:16-47`; the state is `packets` and `packet`. -/
def quicRound (m : Mode) :
    List QuicPacket × Buf → Res ((List QuicPacket × Buf) ⊕ Option (List QuicPacket))
  | (packets, packet) =>
    if packet.isEmpty then .ok (.inr (some packets))
    else if packet.length < 5 then .ok (.inr none)
    else do
      match ← QuicPacket.classify packet with
      | none => .ok (.inr none)
      | some kind =>
        match kind.decl.new packet with
        | none => .ok (.inr none)
        | some buf => do
          let remaining ← QuicPacket.remaining m ⟨kind, buf⟩
          .ok (.inl (packets ++ [⟨kind, buf⟩], remaining))

/-- `while packet.len() > 0`, `src/quic.rs:492-534`; the state is `frames` and `packet`. -/
def frameRound (m : Mode) : List Frame × Buf → Res ((List Frame × Buf) ⊕ Option (List Frame))
  | (frames, packet) =>
    if packet.length > 0 then do
      let b0 ← index packet 0
      match FrameKind.ofType b0.toNat with
      | none => .ok (.inr none)
      | some kind =>
        match kind.decl.new packet with
        | none => .ok (.inr none)
        | some buf => do
          let frame : Frame := ⟨kind, buf, if kind = .padding then 1 else 0⟩
          let remaining ← frame.remaining m
          .ok (.inl (Frame.push frames frame, remaining))
    else .ok (.inr (some frames))

/-- `for packet in iterable`: calls the generated `next` (`gen.rs:667-678`) until it returns `None`; the state is
the packets so far, each as the bytes it wraps, and the iterator. -/
def iterRound (W : RustWorld) : List Buf × Buf → Res ((List Buf × Buf) ⊕ List Buf)
  | (items, buf) => do
    match ← runMethod W nextBody buf none with
    | (.some (.bytes p), buf) => .ok (.inl (items ++ [p], buf))
    | (_, _) => .ok (.inr items)

/-- `iterable.map(|packet| packet.from_packet()).collect::<Vec<_>>()` (`gen.rs:253-257`): calls `next` until it
returns `None`, and `from_packet` of every packet as soon as it is returned. -/
def collectRound (W : RustWorld) : List Val × Buf → Res ((List Val × Buf) ⊕ List Val)
  | (vals, buf) => do
    match ← runMethod W nextBody buf none with
    | (.some (.bytes p), buf) => do
      let v ← W.inner.fromPacket W.mode p
      .ok (.inl (vals ++ [v], buf))
    | (_, _) => .ok (.inr vals)

/-- `while num_bits_to_mask > 0` of `get_mask`, `derive/src/util.rs:264-267`; the state is `num_bits_to_mask` and
`mask`. Shifting a `u8` by 8 or more is a panic. -/
def maskRound (offset : Nat) : Nat × Nat → Res ((Nat × Nat) ⊕ Nat)
  | (n, mask) =>
    if n > 0 then
      if offset + n - 1 < 8 then .ok (.inl (n - 1, mask ||| (0x80 >>> (offset + n - 1)))) else panic
    else .ok (.inr mask)

/-- `while bits > 0` of `mask_high_bits`, `derive/src/util.rs:658-661`; the state is `bits` and `mask`. -/
def highRound : Nat × Nat → Res ((Nat × Nat) ⊕ Nat)
  | (bits, mask) =>
    if bits > 0 then
      if bits - 1 < 64 then .ok (.inl (bits - 1, mask ||| (1 <<< (bits - 1)))) else panic
    else .ok (.inr mask)

/-- `while val > 0` of `radix_fn!`, `derive/src/util.rs:127-131`; the state is `val` and `ret`. -/
def radixRound : Nat × List Char → Res ((Nat × List Char) ⊕ List Char)
  | (val, ret) =>
    if val > 0 then
      match "0123456789abcdef".toList[val % 16]? with
      | some c => .ok (.inl (val / 16, c :: ret))
      | none => panic
    else .ok (.inr ret)

end Verif
