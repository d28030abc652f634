import Verif.Model.Quic
import Verif.Model.Packet

/-!
# The `unsafe` blocks, with memory

`MutablePacket::clone_from` copies through raw pointers (`core/src/packet.rs:35-41`);
`QuicPacket::new` and `Frame::new` extend the lifetime of a slice (`src/quic.rs:44,529`). The rest of
the model identifies a slice with its bytes. Here slices are addresses into memory objects, objects
can be freed, and a read or write outside a live object is undefined behaviour, the result `none`.

Simplifications: an object is a sequence of bytes; the vectors of packets and frames that the two
functions return are values, not objects.
-/

namespace Verif

/-- What a slice points into: an object of the program, or static data. -/
inductive Base
  | static
  | object (id : Nat)
deriving DecidableEq

/-- `&[u8]` or `&mut [u8]`: address and length. -/
structure Slice where
  base : Base
  off : Nat
  len : Nat
deriving DecidableEq

/-- The contents of the live objects. -/
abbrev Mem := Base → Option Buf

namespace Mem

/-- The bytes at an address; `none` if they are not inside a live object. -/
def load (mem : Mem) (s : Slice) : Option Buf :=
  match mem s.base with
  | none => none
  | some b => if s.off + s.len ≤ b.length then some ((b.drop s.off).take s.len) else none

/-- Writes `new` at an address; `none` if this is not inside a live object. -/
def store (mem : Mem) (base : Base) (off : Nat) (new : Buf) : Option Mem :=
  match mem base with
  | none => none
  | some b =>
    if off + new.length ≤ b.length then
      some fun x => if x = base then some (b.take off ++ new ++ b.drop (off + new.length)) else mem x
    else none

/-- The end of the lifetime of an object. -/
def free (mem : Mem) (base : Base) : Mem := fun x => if x = base then none else mem x

/-- `std::ptr::copy_nonoverlapping(src, dst, count)`: undefined if one of the two ranges is not inside
a live object, or if they overlap. -/
def copyNonoverlapping (mem : Mem) (src dst : Slice) (count : Nat) : Option Mem :=
  if src.base = dst.base ∧ src.off < dst.off + count ∧ dst.off < src.off + count then none
  else
    match mem.load ⟨src.base, src.off, count⟩ with
    | none => none
    | some bytes => mem.store dst.base dst.off bytes

end Mem

/-! ## `clone_from` -/

/-- The slices that the calls of `packet()` and `packet_mut()` in `clone_from` return, in the order of
the calls. `Packet` and `MutablePacket` are safe traits, so an implementation may return what it
likes. -/
structure CloneCalls where
  selfPacket : Slice
  other1 : Slice
  other2 : Slice
  selfMut : Slice
  other3 : Slice

/-- `MutablePacket::clone_from`, `core/src/packet.rs:31-42`. -/
def cloneFromMem (mem : Mem) (c : CloneCalls) : Option (Res Mem) :=
  if c.selfPacket.len ≥ c.other1.len then
    match mem.copyNonoverlapping c.other2 c.selfMut c.other3.len with
    | none => none
    | some mem' => some (.ok mem')
  else some panic

/-! ## Packets that hold slices -/

/-- `PacketData`, `core/src/packet.rs:84-89`, as addresses: a vector has its own object. -/
inductive DataRef
  | owned (id len : Nat)
  | borrowed (s : Slice)
deriving DecidableEq

/-- `PacketData::as_slice`, `core/src/packet.rs:93-98`. -/
def DataRef.asSlice : DataRef → Slice
  | .owned id len => ⟨.object id, 0, len⟩
  | .borrowed s => s

/-- What dropping a `PacketData` does: a vector is freed. -/
def DataRef.drop (mem : Mem) : DataRef → Mem
  | .owned id _ => mem.free (.object id)
  | .borrowed _ => mem

/-- `XPacket::new(&[u8])`, `gen.rs:410-417`. -/
def Decl.newRef (d : Decl) (s : Slice) : Option DataRef :=
  if s.len ≥ d.minSize then some (.borrowed s) else none

/-- `XPacket::owned(Vec<u8>)`, `gen.rs:422-429`. -/
def Decl.ownedRef (d : Decl) (id len : Nat) : Option DataRef :=
  if len ≥ d.minSize then some (.owned id len) else none

/-- The bounds computed by `get_<field k>_raw()` (`gen.rs:139-146`). -/
def Decl.rawBounds (d : Decl) (m : Mode) (buf : Buf) (k : Nat) : Res (Nat × Nat) :=
  match d.fields[k]? with
  | some f => do
    let st := d.before m buf k
    let a ← curOff m st.bit st.lens
    let b ← uadd m a (← fieldLen m buf st f)
    .ok (a, min b buf.length)
  | none => panic

/-- `&s[a..b]`: only the address and the length are computed. -/
def Slice.sub (s : Slice) (a b : Nat) : Res Slice :=
  if a ≤ b ∧ b ≤ s.len then .ok ⟨s.base, s.off + a, b - a⟩ else panic

/-- `get_<field k>_raw()`, `gen.rs:133-146`, as an address. -/
def Decl.getRawRef (d : Decl) (m : Mode) (mem : Mem) (data : DataRef) (k : Nat) : Option (Res Slice) :=
  match mem.load data.asSlice with
  | none => none
  | some buf => some (do
    let (a, b) ← d.rawBounds m buf k
    data.asSlice.sub a b)

/-- `&[]`. -/
def Slice.empty : Slice := ⟨.static, 0, 0⟩

/-! ## `QuicPacket::new` -/

/-- `QuicPacket` as addresses. -/
structure QuicRef where
  kind : QuicKind
  data : DataRef
deriving DecidableEq

namespace QuicRef

/-- `QuicPacket::remaining`, `src/quic.rs:125-134`. -/
def remaining (m : Mode) (mem : Mem) (p : QuicRef) : Option (Res Slice) :=
  match p.kind with
  | .versionNegotiation => some (.ok .empty)
  | .initial => Verif.initial.getRawRef m mem p.data 15
  | .zeroRtt => Verif.zeroRtt.getRawRef m mem p.data 13
  | .handshake => Verif.handshake.getRawRef m mem p.data 13
  | .retry => some (.ok .empty)
  | .oneRtt => some (.ok .empty)

/-- The loop of `QuicPacket::new`, `src/quic.rs:16-48`. The packet is moved into the vector, its data
stays where it is. -/
def loop (m : Mode) (mem : Mem) : (fuel : Nat) → Slice → Option (Res (Option (List QuicRef)))
  | 0, packet => if packet.len = 0 then some (.ok (some [])) else some (.error .hang)
  | fuel + 1, packet =>
    if packet.len = 0 then some (.ok (some []))
    else if packet.len < 5 then some (.ok none)
    else
      match mem.load packet with
      | none => none
      | some bytes =>
        match QuicPacket.classify bytes with
        | .error e => some (.error e)
        | .ok none => some (.ok none)
        | .ok (some kind) =>
          match kind.decl.newRef packet with
          | none => some (.ok none)
          | some data =>
            match QuicRef.remaining m mem ⟨kind, data⟩ with
            | none => none
            | some (.error e) => some (.error e)
            | some (.ok rest) =>
              match loop m mem fuel rest with
              | none => none
              | some (.error e) => some (.error e)
              | some (.ok none) => some (.ok none)
              | some (.ok (some packets)) => some (.ok (some (⟨kind, data⟩ :: packets)))

/-- `QuicPacket::new`, `src/quic.rs:14-49`. -/
def new (m : Mode) (mem : Mem) (packet : Slice) : Option (Res (Option (List QuicRef))) :=
  loop m mem packet.len packet

end QuicRef

/-! ## `Frame::new` -/

/-- `Frame` as addresses. -/
structure FrameRef where
  kind : FrameKind
  data : DataRef
  count : Nat
deriving DecidableEq

namespace FrameRef

/-- `Frame::remaining`, `src/quic.rs:588-611`. -/
def remaining (m : Mode) (mem : Mem) (f : FrameRef) : Option (Res Slice) :=
  f.kind.decl.getRawRef m mem f.data (f.kind.decl.fields.length - 1)

/-- The end of the loop body of `Frame::new`, `src/quic.rs:530-533`: a padding frame that is merged
into the previous one is dropped, although `packet` was taken from it. -/
def push (mem : Mem) (frames : List FrameRef) (frame : FrameRef) : List FrameRef × Mem :=
  match frames.getLast? with
  | some last =>
    if last.kind = .padding ∧ frame.kind = .padding then
      (frames.dropLast ++ [{ last with count := last.count + frame.count }], frame.data.drop mem)
    else (frames ++ [frame], mem)
  | none => (frames ++ [frame], mem)

/-- The loop of `Frame::new`, `src/quic.rs:492-534`; the memory at the end is part of the result. -/
def loop (m : Mode) : (fuel : Nat) → Mem → (frames : List FrameRef) → Slice →
    Option (Res (Option (List FrameRef) × Mem))
  | 0, mem, frames, packet =>
    if packet.len = 0 then some (.ok (some frames, mem)) else some (.error .hang)
  | fuel + 1, mem, frames, packet =>
    if packet.len = 0 then some (.ok (some frames, mem))
    else
      match mem.load packet with
      | none => none
      | some bytes =>
        match index bytes 0 with
        | .error e => some (.error e)
        | .ok b0 =>
          match FrameKind.ofType b0.toNat with
          | none => some (.ok (none, mem))
          | some kind =>
            match kind.decl.newRef packet with
            | none => some (.ok (none, mem))
            | some data =>
              let frame : FrameRef := ⟨kind, data, if kind = .padding then 1 else 0⟩
              match frame.remaining m mem with
              | none => none
              | some (.error e) => some (.error e)
              | some (.ok rest) =>
                let (frames', mem') := push mem frames frame
                loop m fuel mem' frames' rest

/-- `Frame::new`, `src/quic.rs:490-536`. -/
def new (m : Mode) (mem : Mem) (packet : Slice) : Option (Res (Option (List FrameRef) × Mem)) :=
  loop m packet.len mem [] packet

end FrameRef

end Verif
