import Verif.Spec.Bits

/-!
# Specification: QUIC wire formats (RFC 9000)

Variable-length integers (§16), frames (§19) and packets (§17), written as in the RFC's figures.
-/

namespace Verif.Spec.Quic
open Verif Verif.Spec

/-- `bs` is an encoding of the integer `v` (RFC 9000, §16): 1, 2, 4 or 8 bytes, the base-2 logarithm
of the size in the two most significant bits, the value in the remaining ones, in network order. -/
def Varint (bs : Buf) (v : Nat) : Prop :=
  ∃ p < 4, bs.length = 2 ^ p ∧ v < 2 ^ (8 * 2 ^ p - 2) ∧ beNat bs = p * 2 ^ (8 * 2 ^ p - 2) + v

/-! ## Frames -/

/-- The parts a frame is made of, after its type. -/
inductive Part
  /-- a variable-length integer -/
  | int
  /-- a fixed number of bytes -/
  | bytes (n : Nat)
  /-- a length as variable-length integer, and that many bytes -/
  | blob
  /-- a connection id: one byte with its length, and that many bytes -/
  | cid
  /-- ACK Range Count, First ACK Range and that many ACK Ranges -/
  | ranges
  /-- all the bytes up to the end of the packet -/
  | toEnd
deriving DecidableEq

/-- The bytes of a part. An ACK Range consists of `perRange` integers: the RFC has 2, a gap and a
range length (§19.3.1). -/
inductive PartEnc (perRange : Nat) : Part → Buf → Prop
  | int {bs v} : Varint bs v → PartEnc perRange .int bs
  | bytes {bs} : PartEnc perRange (.bytes bs.length) bs
  | blob {l bs} : Varint l bs.length → PartEnc perRange .blob (l ++ bs)
  | cid {l : UInt8} {bs : Buf} : l.toNat = bs.length → PartEnc perRange .cid (l :: bs)
  | ranges {count first n v} {rs : List Buf} : Varint count n → Varint first v →
      rs.length = perRange * n → (∀ r ∈ rs, ∃ v, Varint r v) →
      PartEnc perRange .ranges (count ++ first ++ rs.flatten)
  | toEnd {bs} : PartEnc perRange .toEnd bs

/-- The bytes of consecutive parts. -/
inductive PartsEnc (perRange : Nat) : List Part → Buf → Prop
  | nil : PartsEnc perRange [] []
  | cons {p ps bs rest} : PartEnc perRange p bs → PartsEnc perRange ps rest →
      PartsEnc perRange (p :: ps) (bs ++ rest)

/-- The parts of the frame of a given type (§19); `none` for types the RFC does not define. -/
def frameParts (ty : Nat) : Option (List Part) :=
  if ty = 0x00 then some [] -- PADDING
  else if ty = 0x01 then some [] -- PING
  else if ty = 0x02 then some [.int, .int, .ranges] -- ACK
  else if ty = 0x03 then some [.int, .int, .ranges, .int, .int, .int] -- ACK with ECN counts
  else if ty = 0x04 then some [.int, .int, .int] -- RESET_STREAM
  else if ty = 0x05 then some [.int, .int] -- STOP_SENDING
  else if ty = 0x06 then some [.int, .blob] -- CRYPTO
  else if ty = 0x07 then some [.blob] -- NEW_TOKEN
  else if ty = 0x08 ∨ ty = 0x09 then some [.int, .toEnd] -- STREAM
  else if ty = 0x0a ∨ ty = 0x0b then some [.int, .blob] -- STREAM with LEN
  else if ty = 0x0c ∨ ty = 0x0d then some [.int, .int, .toEnd] -- STREAM with OFF
  else if ty = 0x0e ∨ ty = 0x0f then some [.int, .int, .blob] -- STREAM with OFF and LEN
  else if ty = 0x10 then some [.int] -- MAX_DATA
  else if ty = 0x11 then some [.int, .int] -- MAX_STREAM_DATA
  else if ty = 0x12 ∨ ty = 0x13 then some [.int] -- MAX_STREAMS
  else if ty = 0x14 then some [.int] -- DATA_BLOCKED
  else if ty = 0x15 then some [.int, .int] -- STREAM_DATA_BLOCKED
  else if ty = 0x16 ∨ ty = 0x17 then some [.int] -- STREAMS_BLOCKED
  else if ty = 0x18 then some [.int, .int, .cid, .bytes 16] -- NEW_CONNECTION_ID
  else if ty = 0x19 then some [.int] -- RETIRE_CONNECTION_ID
  else if ty = 0x1a then some [.bytes 8] -- PATH_CHALLENGE
  else if ty = 0x1b then some [.bytes 8] -- PATH_RESPONSE
  else if ty = 0x1c then some [.int, .int, .blob] -- CONNECTION_CLOSE of the transport
  else if ty = 0x1d then some [.int, .blob] -- CONNECTION_CLOSE of the application
  else if ty = 0x1e then some [] -- HANDSHAKE_DONE
  else none

/-- `buf` is a sequence of frames; each is listed with its type and all the bytes from its start to
the end of `buf`. -/
inductive Frames (perRange : Nat) : Buf → List (UInt8 × Buf) → Prop
  | nil : Frames perRange [] []
  | cons {ty : UInt8} {parts : List Part} {body rest : Buf} {fs : List (UInt8 × Buf)} :
      frameParts ty.toNat = some parts → PartsEnc perRange parts body →
      (.toEnd ∈ parts → rest = []) → Frames perRange rest fs →
      Frames perRange (ty :: (body ++ rest)) ((ty, ty :: (body ++ rest)) :: fs)

/-- `buf` is a sequence of frames followed by bytes satisfying `P`. -/
inductive FramesThen (perRange : Nat) (P : Buf → Prop) : Buf → Prop
  | here {rest : Buf} : P rest → FramesThen perRange P rest
  | cons {ty : UInt8} {parts : List Part} {body rest : Buf} :
      frameParts ty.toNat = some parts → PartsEnc perRange parts body →
      (.toEnd ∈ parts → rest = []) → FramesThen perRange P rest →
      FramesThen perRange P (ty :: (body ++ rest))

/-- Bytes that do not start with a frame type. -/
def UnknownType : Buf → Prop
  | [] => False
  | ty :: _ => frameParts ty.toNat = none

/-- A frame sequence with each run of PADDING frames (type 0) replaced by its first frame and the
length of the run (1 for other frames). -/
def runs : List (UInt8 × Buf) → List ((UInt8 × Buf) × Nat)
  | [] => []
  | f :: fs =>
    match runs fs with
    | [] => [(f, 1)]
    | (g, n) :: rest => if f.1 = 0 ∧ g.1 = 0 then (f, n + 1) :: rest else (f, 1) :: (g, n) :: rest

/-! ## Packets -/

/-- A number in network order in `n` bytes. -/
def beBytes (n v : Nat) : Buf := (List.range n).map fun i => UInt8.ofNat (v / 256 ^ (n - 1 - i))

/-- The content of a packet. -/
inductive Packet
  | initial (version : Nat) (dcid scid token pn frames : Buf)
  | zeroRtt (version : Nat) (dcid scid pn frames : Buf)
  | handshake (version : Nat) (dcid scid pn frames : Buf)
  | retry (version : Nat) (dcid scid token : Buf)
  | versionNegotiation (dcid scid versions : Buf)
  | oneRtt (dcid pn frames : Buf)

/-- The first byte of a long header: header form 1, fixed bit 1, type, two reserved bits and the
length of the packet number minus one; version; connection ids. -/
def longHeader (ty reserved pnLen version : Nat) (dcid scid : Buf) : Buf :=
  [UInt8.ofNat (0xC0 + 16 * ty + 4 * reserved + (pnLen - 1))] ++ beBytes 4 version ++
    [UInt8.ofNat dcid.length] ++ dcid ++ [UInt8.ofNat scid.length] ++ scid

/-- What RFC 9000 (and RFC 8999) require of the header values. -/
def HeaderOk (version : Nat) (dcid scid : Buf) : Prop :=
  0 < version ∧ version < 2 ^ 32 ∧ dcid.length < 256 ∧ scid.length < 256

/-- A packet number has 1 to 4 bytes. -/
def PnOk (pn : Buf) : Prop := 1 ≤ pn.length ∧ pn.length ≤ 4

/-- The bytes of a packet with a Length field, after which another packet may follow (§17.2). -/
inductive LongEnc : Packet → Buf → Prop
  | initial {version : Nat} {dcid scid token pn frames : Buf} {reserved : Nat} {tokenLen length : Buf} :
      HeaderOk version dcid scid → PnOk pn → reserved < 4 → Varint tokenLen token.length →
      Varint length (pn.length + frames.length) →
      LongEnc (.initial version dcid scid token pn frames)
        (longHeader 0 reserved pn.length version dcid scid ++ tokenLen ++ token ++ length ++ pn ++ frames)
  | zeroRtt {version : Nat} {dcid scid pn frames : Buf} {reserved : Nat} {length : Buf} :
      HeaderOk version dcid scid → PnOk pn → reserved < 4 →
      Varint length (pn.length + frames.length) →
      LongEnc (.zeroRtt version dcid scid pn frames)
        (longHeader 1 reserved pn.length version dcid scid ++ length ++ pn ++ frames)
  | handshake {version : Nat} {dcid scid pn frames : Buf} {reserved : Nat} {length : Buf} :
      HeaderOk version dcid scid → PnOk pn → reserved < 4 →
      Varint length (pn.length + frames.length) →
      LongEnc (.handshake version dcid scid pn frames)
        (longHeader 2 reserved pn.length version dcid scid ++ length ++ pn ++ frames)

/-- The bytes of a packet that extends to the end of the datagram (§17.2.1, §17.2.5, §17.3). The
connection id of a short header is 8 bytes here, the only length the crate supports. -/
inductive LastEnc : Packet → Buf → Prop
  | retry {version : Nat} {dcid scid token : Buf} {unused : Nat} :
      HeaderOk version dcid scid → unused < 16 →
      LastEnc (.retry version dcid scid token)
        ([UInt8.ofNat (0xF0 + unused)] ++ beBytes 4 version ++
          [UInt8.ofNat dcid.length] ++ dcid ++ [UInt8.ofNat scid.length] ++ scid ++ token)
  | versionNegotiation {dcid scid versions : Buf} {unused : Nat} :
      dcid.length < 256 → scid.length < 256 → unused < 128 →
      LastEnc (.versionNegotiation dcid scid versions)
        ([UInt8.ofNat (0x80 + unused)] ++ [0, 0, 0, 0] ++
          [UInt8.ofNat dcid.length] ++ dcid ++ [UInt8.ofNat scid.length] ++ scid ++ versions)
  | oneRtt {dcid pn frames : Buf} {flags : Nat} :
      dcid.length = 8 → PnOk pn → flags < 16 →
      LastEnc (.oneRtt dcid pn frames)
        ([UInt8.ofNat (0x40 + 4 * flags + (pn.length - 1))] ++ dcid ++ pn ++ frames)

/-- The bytes of coalesced packets (§12.2). -/
inductive Datagram : List Packet → Buf → Prop
  | nil : Datagram [] []
  | last {p bs} : LastEnc p bs → Datagram [p] bs
  | cons {p bs ps rest} : LongEnc p bs → Datagram ps rest → Datagram (p :: ps) (bs ++ rest)

/-- Packets with a Length field, followed by bytes satisfying `P`. -/
inductive LongThen (P : Buf → Prop) : Buf → Prop
  | here {rest : Buf} : P rest → LongThen P rest
  | cons {p : Packet} {bs rest : Buf} : LongEnc p bs → LongThen P rest → LongThen P (bs ++ rest)

/-- Bytes with the first byte and version of an Initial, 0-RTT or Handshake packet, at least 7 of
them, that do not start with such a packet. -/
def Broken (buf : Buf) : Prop :=
  ∃ (b : UInt8) (version rest : Buf), buf = b :: (version ++ rest) ∧
    b.toNat / 64 = 3 ∧ b.toNat / 16 % 4 ≠ 3 ∧
    version.length = 4 ∧ version ≠ [0, 0, 0, 0] ∧ 2 ≤ rest.length ∧
    ¬ ∃ p bs more, LongEnc p bs ∧ buf = bs ++ more

end Verif.Spec.Quic
