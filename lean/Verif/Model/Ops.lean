import Verif.Model.Basic

/-!
# Bit-field access code produced by `#[derive(Packet)]`

Model of `derive/src/util.rs` (operation tables) and of the code text that
`derive/src/gen.rs` generates from them (`gen_get_ops`, `gen_set_ops`).
-/

namespace Verif

/-- `derive/src/util.rs:14-19`. -/
inductive Endianness where
  | big
  | little
  | host
  deriving DecidableEq, Repr

/-- `derive/src/util.rs:32-36` (the `u8` members are `Nat`s; all values are below 256). -/
structure GetOperation where
  mask : Nat
  shiftl : Nat
  shiftr : Nat
  deriving DecidableEq, Repr

/-- `derive/src/util.rs:111-120`. -/
structure SetOperation where
  saveMask : Nat
  valueMask : Nat
  shiftl : Nat
  shiftr : Nat
  deriving DecidableEq, Repr

/-- `usize` subtraction inside the proc macro. `none` stands for the overflow panic at macro
expansion time. (When the macro itself is compiled without overflow checks the result wraps to a
shift amount such as 255, which rustc rejects when it compiles the generated code.) -/
def macroSub (a b : Nat) : Option Nat := if b ≤ a then some (a - b) else none

/-- `bits_remaining_in_byte`, `derive/src/util.rs:246-259`. -/
def bitsRemainingInByte (offset bitsRemaining : Nat) : Nat :=
  if bitsRemaining / 8 ≥ 1 then 8 - offset
  else if bitsRemaining > 8 - offset then 8 - offset else bitsRemaining

/-- The loop of `get_mask`, `derive/src/util.rs:263-267`. -/
def maskLoop (offset : Nat) : Nat → Nat → Nat
  | 0, mask => mask
  | n + 1, mask => maskLoop offset n (mask ||| (0x80 >>> (offset + (n + 1) - 1)))

/-- `get_mask`, `derive/src/util.rs:245-270`; `none` when an assertion fails. -/
def getMask (offset bitsRemaining : Nat) : Option (Nat × Nat) :=
  if offset ≤ 7 then
    let n := bitsRemainingInByte offset bitsRemaining
    if n ≤ 8 - offset then some (n, maskLoop offset n 0) else none
  else none

/-- `get_shiftl`, `derive/src/util.rs:307-319`. -/
def getShiftl (offset size byteNumber numBytes : Nat) : Option Nat :=
  if numBytes = 1 ∨ byteNumber + 1 = numBytes then some 0
  else do
    let a ← macroSub (numBytes * 8) offset
    let a ← macroSub a size
    let baseShift ← macroSub 8 a
    let b ← macroSub numBytes byteNumber
    let bytesToShift ← macroSub b 2
    some ((baseShift + 8 * bytesToShift) % 256)

/-- `get_shiftr`, `derive/src/util.rs:347-353`. -/
def getShiftr (offset size byteNumber numBytes : Nat) : Option Nat :=
  if byteNumber + 1 = numBytes then do
    let a ← macroSub (numBytes * 8) offset
    let a ← macroSub a size
    some (a % 256)
  else some 0

/-- `num_bytes`, `derive/src/util.rs:395-400`. -/
def numBytes (offset size : Nat) : Nat :=
  if offset > 0 ∨ size % 8 ≠ 0 then size / 8 + 1 else size / 8

/-- The loop of `operations`, `derive/src/util.rs:405-416`; `k` iterations are left, `i` is the
loop counter. -/
def opsLoop (offset size nb : Nat) : (k i cur rem : Nat) → Option (List GetOperation)
  | 0, _, _, _ => some []
  | k + 1, i, cur, rem => do
    let (consumed, mask) ← getMask cur rem
    let shiftl ← getShiftl offset size i nb
    let shiftr ← getShiftr offset size i nb
    let rest ← opsLoop offset size nb k (i + 1) 0 (if rem ≥ consumed then rem - consumed else rem)
    some ({ mask, shiftl, shiftr } :: rest)

/-- `to_little_endian`, `derive/src/util.rs:1075-1081`. -/
def toLittleEndian (ops : List GetOperation) : List GetOperation :=
  List.zipWith (fun op beOp => { op with shiftl := beOp.shiftl }) ops ops.reverse

/-- `operations`, `derive/src/util.rs:390-432`. `none` when the function returns `None` or
panics. The target is taken to be little-endian (`cfg!(target_endian)`), so `Host` is treated like
`Little`. -/
def operations (offset size : Nat) (endian : Endianness) : Option (List GetOperation) :=
  if offset > 7 ∨ size = 0 ∨ size > 64 then none
  else do
    let nb := numBytes offset size
    let ops ← opsLoop offset size nb nb 0 offset size
    some (if endian = .little ∨ endian = .host then toLittleEndian ops else ops)

/-- `mask_high_bits`, `derive/src/util.rs:656-664` (the loop runs `bits` times). -/
def maskHighBits : Nat → Nat
  | 0 => 0
  | bits + 1 => (1 <<< bits) ||| maskHighBits bits

/-- `num_bits_set`, `derive/src/util.rs:671-680`. -/
def numBitsSet (n : Nat) : Nat :=
  (List.range 8).foldl (fun count i => if n &&& (1 <<< i) > 0 then count + 1 else count) 0

/-- Loop body of `to_mutator`, `derive/src/util.rs:683-690`. `!op.mask` on `u8`; the `u64` shift
drops bits above 64. -/
def GetOperation.toMutator (op : GetOperation) : SetOperation :=
  { saveMask := 255 - op.mask
    valueMask := (maskHighBits (numBitsSet op.mask) <<< op.shiftl) % 2 ^ 64
    shiftl := op.shiftr
    shiftr := op.shiftl }

/-- `to_mutator`, `derive/src/util.rs:670-693`. -/
def toMutator (ops : List GetOperation) : List SetOperation := ops.map GetOperation.toMutator

/-- The Rust type behind `uN`, `uNbe`, `uNle`, `uNhe`: its width in bits (`core/src/types.rs`). -/
def storageWidth (size : Nat) : Nat :=
  if size ≤ 8 then 8 else if size ≤ 16 then 16 else if size ≤ 32 then 32 else 64

/-- `x << s` on a `W`-bit integer; a shift by the width or more does not compile / panics. -/
def shl (W x s : Nat) : Res Nat := if s < W then .ok ((x <<< s) % 2 ^ W) else panic

/-- `x >> s` on a `W`-bit integer. -/
def shr (W x s : Nat) : Res Nat := if s < W then .ok (x >>> s) else panic

/-- The shift part of the generated text: `shift = right - left`; nothing, `<< |shift|` or
`>> shift` (`derive/src/util.rs:49-55` and `167-173`). -/
def applyShift (W x left right : Nat) : Res Nat :=
  if right = left then .ok x
  else if right < left then shl W x (left - right)
  else shr W x (right - left)

/-- Value of the text printed for a `GetOperation` (`derive/src/util.rs:38-57`) when `{}` is the
byte `x` cast to the `W`-bit storage type. -/
def GetOperation.eval (W : Nat) (op : GetOperation) (x : Nat) : Res Nat :=
  applyShift W (if op.mask ≠ 0xFF then x &&& op.mask else x) op.shiftl op.shiftr

/-- New byte assigned by the text printed for a `SetOperation` (`derive/src/util.rs:149-185`);
`old` is `{packet}`, `v` is `{val}` of the `W`-bit storage type. -/
def SetOperation.eval (W : Nat) (op : SetOperation) (old v : Nat) : Res Nat := do
  let masked := if op.valueMask ≠ 0xFF then v &&& op.valueMask else v
  let shifted ← applyShift W masked op.shiftl op.shiftr
  if op.saveMask ≠ 0 then .ok (((old &&& op.saveMask) ||| (shifted % 256)) % 256)
  else .ok (shifted % 256)

/-- The `let b_idx = ...` lines and the final `b0 | b1 | ...` of `gen_get_ops`
(`derive/src/gen.rs:793-803`), from operation `idx` on. -/
def getOpsFrom (W : Nat) (buf : Buf) (co : Nat) : (idx : Nat) → List GetOperation → Res Nat
  | _, [] => .ok 0
  | idx, op :: ops => do
    let byte ← index buf (co + idx)
    let b ← op.eval W byte.toNat
    let rest ← getOpsFrom W buf co (idx + 1) ops
    .ok (b ||| rest)

/-- `gen_get_ops`, `derive/src/gen.rs:774-806`. The single-operation text `({}[co] as ty)` and the
general text agree (`b0` alone), so one definition covers both. -/
def getOps (W : Nat) (ops : List GetOperation) (buf : Buf) (co : Nat) : Res Nat :=
  getOpsFrom W buf co 0 ops

/-- The statements of `gen_set_ops`, `derive/src/gen.rs:755-768`, from operation `idx` on. -/
def setOpsFrom (W : Nat) (co v : Nat) : (idx : Nat) → List SetOperation → Buf → Res Buf
  | _, [], buf => .ok buf
  | idx, op :: ops, buf => do
    let old ← index buf (co + idx)
    let new ← op.eval W old.toNat v
    let buf ← setIndex buf (co + idx) (UInt8.ofNat new)
    setOpsFrom W co v (idx + 1) ops buf

/-- `gen_set_ops`, `derive/src/gen.rs:755-768`. -/
def setOps (W : Nat) (ops : List SetOperation) (buf : Buf) (co v : Nat) : Res Buf :=
  setOpsFrom W co v 0 ops buf

/-- An integer field type: width in bits and byte order. -/
structure Prim where
  size : Nat
  endian : Endianness
  deriving DecidableEq, Repr

/-- The macro can generate code for `p` starting at bit `offset` of a byte
(`operations(..).unwrap()` in `derive/src/gen.rs:127,302`). -/
def Prim.accepted (p : Prim) (offset : Nat) : Bool := (operations offset p.size p.endian).isSome

/-- The accessor made by `gen_accessor` (`derive/src/gen.rs:477-521`) for a field that starts
`offset` bits into byte `co`. A field the macro rejects has no accessor: `panic`. -/
def getPrim (p : Prim) (offset : Nat) (buf : Buf) (co : Nat) : Res Nat :=
  match operations offset p.size p.endian with
  | some ops => getOps (storageWidth p.size) ops buf co
  | none => panic

/-- The mutator made by `gen_mutator` (`derive/src/gen.rs:525-569`). -/
def setPrim (p : Prim) (offset : Nat) (buf : Buf) (co v : Nat) : Res Buf :=
  match operations offset p.size p.endian with
  | some ops => setOps (storageWidth p.size) (toMutator ops) buf co v
  | none => panic

end Verif
