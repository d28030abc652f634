import Verif.Model.Protocols

/-!
# QUIC (`src/quic.rs`)

Varints, the packet and frame declarations, `QuicPacket::new`, `Frame::new` and the accessors of
`QuicPacket` and `Frame`. A packet or frame of kind `k` is identified with `k` and the bytes it
wraps. The `unsafe` lifetime changes have no effect on values and are not modelled.
-/

namespace Verif

/-! ## Variable-length integers -/

/-- `varint_length`, `src/quic.rs:169-173`: `rest[0]` panics on an empty slice. -/
def varintLength (rest : Buf) : Res Nat := do
  let b ← index rest 0
  .ok (1 <<< (b.toNat >>> 6))

/-- `varint`, `src/quic.rs:175-181`: `bytes[0]` panics on an empty slice; `<<` on a `u64` drops the
high bits; the addition cannot overflow because the low byte is zero. -/
def varint (bytes : List Nat) : Res Nat :=
  match bytes with
  | [] => panic
  | b :: bs => .ok (bs.foldl (fun length v => (length <<< 8) % 2 ^ 64 + v) (b &&& 0x3f))

/-- `packet_number`, `src/quic.rs:183-187`: `8 - bytes.len()` panics in debug builds and wraps to an
out-of-range index in release builds when there are more than 8 bytes. -/
def packetNumber (bytes : List Nat) : Res Nat :=
  if bytes.length ≤ 8 then
    .ok ((List.replicate (8 - bytes.length) 0 ++ bytes).foldl (fun a b => a * 256 + b) 0)
  else panic

/-- The loop of `n_varints`, `src/quic.rs:189-199`: `bytes[0]` and `split_at` panic. The sum of the
sizes is at most the length of the slice, so it cannot overflow. -/
def nVarints : (n : Nat) → Buf → Res Nat
  | 0, _ => .ok 0
  | n + 1, bytes => do
    let b ← index bytes 0
    let vlen := 1 <<< (b.toNat >>> 6)
    let rest ← sliceFrom bytes vlen
    let length ← nVarints n rest
    .ok (vlen + length)

/-! ## Length expressions -/

/-- `varint_length(...)`. -/
def lenVarintLength : LenExpr := fun _ _ rest => do varintLength (← rest)

/-- `varint(&field)`. -/
def lenVarint (i : Nat) : LenExpr := fun _ get _ => do
  let v ← get i
  varint (← v.asNums)

/-- A `u8` field as length. -/
def lenU8 (i : Nat) : LenExpr := lenNum i id

/-- `packet_number_len + 1` (a `u8` sum of a two-bit value). -/
def lenPn (i : Nat) : LenExpr := lenNum i (· + 1)

/-- `varint(&length) - packet_number.len()`. -/
def lenFrames (length pn : Nat) : LenExpr := fun m get _ => do
  let v ← get length
  let l ← varint (← v.asNums)
  let p ← get pn
  usub m l (← p.asNums).length

/-- `n_varints(f(ty.0), ...)`; `ty` is field 0. -/
def lenNVarints (f : Nat → Nat) : LenExpr := fun _ get rest => do
  let v ← get 0
  let n := f (← v.asTuple1)
  nVarints n (← rest)

/-- `n_varints(varint(&field), ...)`. -/
def lenNVarintsOf (i : Nat) : LenExpr := fun _ get rest => do
  let v ← get i
  let n ← varint (← v.asNums)
  nVarints n (← rest)

/-- `if length.is_empty() { (...).len() } else { varint(&length) }`. -/
def lenStreamData (length : Nat) : LenExpr := fun _ get rest => do
  let v ← get length
  let l ← v.asNums
  if l.isEmpty then do .ok (← rest).length
  else varint l

/-! ## Packets -/

/-- `VersionNegotiation`, `src/quic.rs:201-214`. -/
def versionNegotiation : Decl := ⟨[
  fmisc "header_form" [1],
  fprim "unused" 7,
  fprim "version" 32,
  fprim "dest_id_len" 8,
  fbytes "dest_id" (lenU8 3),
  fprim "src_id_len" 8,
  fbytes "src_id" (lenU8 5),
  frest "supported_versions"]⟩

/-- `Initial`, `src/quic.rs:216-245`. -/
def initial : Decl := ⟨[
  fmisc "header_form" [1],
  fmisc "fixed_bit" [1],
  fmisc "long_packet_type" [2],
  fprim "reserved" 2,
  fprim "packet_number_len" 2,
  fmisc "version" [32],
  fprim "dest_id_len" 8,
  fbytes "dest_id" (lenU8 6),
  fprim "src_id_len" 8,
  fbytes "src_id" (lenU8 8),
  fbytes "token_length" lenVarintLength,
  fbytes "token" (lenVarint 10),
  fbytes "length" lenVarintLength,
  fbytes "packet_number" (lenPn 4),
  fbytes "frames" (lenFrames 12 13),
  frest "remaining"]⟩

/-- `ZeroRtt`, `src/quic.rs:247-272`. -/
def zeroRtt : Decl := ⟨[
  fmisc "header_form" [1],
  fmisc "fixed_bit" [1],
  fmisc "long_packet_type" [2],
  fprim "reserved" 2,
  fprim "packet_number_len" 2,
  fmisc "version" [32],
  fprim "dest_id_len" 8,
  fbytes "dest_id" (lenU8 6),
  fprim "src_id_len" 8,
  fbytes "src_id" (lenU8 8),
  fbytes "length" lenVarintLength,
  fbytes "packet_number" (lenPn 4),
  fbytes "frames" (lenFrames 10 11),
  frest "remaining"]⟩

/-- `Handshake`, `src/quic.rs:274-299`. -/
def handshake : Decl := ⟨[
  fmisc "header_form" [1],
  fmisc "fixed_bit" [1],
  fmisc "long_packet_type" [2],
  fprim "reserved" 2,
  fprim "packet_number_len" 2,
  fmisc "version" [32],
  fprim "dest_id_len" 8,
  fbytes "dest_id" (lenU8 6),
  fprim "src_id_len" 8,
  fbytes "src_id" (lenU8 8),
  fbytes "length" lenVarintLength,
  fbytes "packet_number" (lenPn 4),
  fbytes "frames" (lenFrames 10 11),
  frest "remaining"]⟩

/-- `Retry`, `src/quic.rs:301-319`. -/
def retry : Decl := ⟨[
  fmisc "header_form" [1],
  fmisc "fixed_bit" [1],
  fmisc "long_packet_type" [2],
  fprim "unused" 4,
  fmisc "version" [32],
  fprim "dest_id_len" 8,
  fbytes "dest_id" (lenU8 5),
  fprim "src_id_len" 8,
  fbytes "src_id" (lenU8 7),
  frest "retry_token"]⟩

/-- `OneRtt`, `src/quic.rs:321-335`. -/
def oneRtt : Decl := ⟨[
  fprim "header_form" 1,
  fprim "fixed_bit" 1,
  fprim "spin_bit" 1,
  fprim "reserved_bits" 2,
  fprim "key_phase" 1,
  fprim "packet_number_len" 2,
  fbytes "dest_id" (lenConst 8),
  fbytes "packet_number" (lenPn 5),
  fpayloadRest "payload"]⟩

/-- The variants of `QuicPacket`, `src/quic.rs:4-11`. -/
inductive QuicKind
  | versionNegotiation
  | initial
  | zeroRtt
  | handshake
  | retry
  | oneRtt
deriving DecidableEq

/-- The packet type wrapped by a variant. -/
def QuicKind.decl : QuicKind → Decl
  | .versionNegotiation => Verif.versionNegotiation
  | .initial => Verif.initial
  | .zeroRtt => Verif.zeroRtt
  | .handshake => Verif.handshake
  | .retry => Verif.retry
  | .oneRtt => Verif.oneRtt

/-- `QuicPacket`: a variant and the bytes of the wrapped packet. -/
structure QuicPacket where
  kind : QuicKind
  buf : Buf
deriving DecidableEq

namespace QuicPacket

/-- `QuicPacket::remaining`, `src/quic.rs:125-134`. -/
def remaining (m : Mode) (p : QuicPacket) : Res Buf :=
  match p.kind with
  | .versionNegotiation => .ok []
  | .initial => Verif.initial.getRaw m p.buf 15
  | .zeroRtt => Verif.zeroRtt.getRaw m p.buf 13
  | .handshake => Verif.handshake.getRaw m p.buf 13
  | .retry => .ok []
  | .oneRtt => .ok []

/-- The choice of the packet type in `QuicPacket::new`, `src/quic.rs:20-43`, for a packet of at least
5 bytes; `none` for `return None`. -/
def classify (packet : Buf) : Res (Option QuicKind) := do
  let b0 ← index packet 0
  let headerForm := decide (b0.toNat &&& (1 <<< 7) > 0)
  let fixedBit := decide (b0.toNat &&& (1 <<< 6) > 0)
  if fixedBit && !headerForm then .ok (some .oneRtt)
  else do
    let version ← slice packet 1 5
    if version = [0, 0, 0, 0] then .ok (some .versionNegotiation)
    else
      let ty := (b0.toNat >>> 4) &&& 3
      .ok (if fixedBit then
        if ty = 0 then some .initial
        else if ty = 1 then some .zeroRtt
        else if ty = 2 then some .handshake
        else if ty = 3 then some .retry
        else none
      else none)

/-- The loop of `QuicPacket::new`, `src/quic.rs:14-49`. An iteration that does not shorten `packet`
would repeat forever; `fuel` is its length, so running out of it is reported as `hang`. -/
def loop (m : Mode) : (fuel : Nat) → Buf → Res (Option (List QuicPacket))
  | 0, packet => if packet.isEmpty then .ok (some []) else .error .hang
  | fuel + 1, packet =>
    if packet.isEmpty then .ok (some [])
    else if packet.length < 5 then .ok none
    else do
      match ← classify packet with
      | none => .ok none
      | some kind =>
        match kind.decl.new packet with
        | none => .ok none
        | some buf =>
          let quic : QuicPacket := ⟨kind, buf⟩
          let rest ← quic.remaining m
          match ← loop m fuel rest with
          | none => .ok none
          | some packets => .ok (some (quic :: packets))

/-- `QuicPacket::new`, `src/quic.rs:14-49`. -/
def new (m : Mode) (packet : Buf) : Res (Option (List QuicPacket)) := loop m packet.length packet

/-- `QuicPacket::version`, `src/quic.rs:51-60`. -/
def version (m : Mode) (p : QuicPacket) : Res (Option Val) :=
  match p.kind with
  | .versionNegotiation => .ok none
  | .initial => some <$> Verif.initial.get m p.buf 5
  | .zeroRtt => some <$> Verif.zeroRtt.get m p.buf 5
  | .handshake => some <$> Verif.handshake.get m p.buf 5
  | .retry => some <$> Verif.retry.get m p.buf 4
  | .oneRtt => .ok none

/-- `QuicPacket::token`, `src/quic.rs:62-67`. -/
def token (m : Mode) (p : QuicPacket) : Res (Option Val) :=
  match p.kind with
  | .initial => some <$> Verif.initial.get m p.buf 11
  | _ => .ok none

/-- `QuicPacket::packet_number`, `src/quic.rs:69-79`. -/
def packetNumber (m : Mode) (p : QuicPacket) : Res (Option Nat) := do
  let raw ← match p.kind with
    | .versionNegotiation => .ok none
    | .initial => some <$> Verif.initial.getRaw m p.buf 13
    | .zeroRtt => some <$> Verif.zeroRtt.getRaw m p.buf 11
    | .handshake => some <$> Verif.handshake.getRaw m p.buf 11
    | .retry => .ok none
    | .oneRtt => some <$> Verif.oneRtt.getRaw m p.buf 7
  match raw with
  | none => .ok none
  | some bytes => some <$> Verif.packetNumber (bytes.map UInt8.toNat)

/-- `QuicPacket::dest_id`, `src/quic.rs:81-90`. -/
def destId (m : Mode) (p : QuicPacket) : Res Val :=
  match p.kind with
  | .versionNegotiation => Verif.versionNegotiation.get m p.buf 4
  | .initial => Verif.initial.get m p.buf 7
  | .zeroRtt => Verif.zeroRtt.get m p.buf 7
  | .handshake => Verif.handshake.get m p.buf 7
  | .retry => Verif.retry.get m p.buf 6
  | .oneRtt => Verif.oneRtt.get m p.buf 6

/-- `QuicPacket::src_id`, `src/quic.rs:92-101`. -/
def srcId (m : Mode) (p : QuicPacket) : Res (Option Val) :=
  match p.kind with
  | .versionNegotiation => some <$> Verif.versionNegotiation.get m p.buf 6
  | .initial => some <$> Verif.initial.get m p.buf 9
  | .zeroRtt => some <$> Verif.zeroRtt.get m p.buf 9
  | .handshake => some <$> Verif.handshake.get m p.buf 9
  | .retry => some <$> Verif.retry.get m p.buf 8
  | .oneRtt => .ok none

/-- `QuicPacket::packet`, `src/quic.rs:103-112`. -/
def packet (p : QuicPacket) : Buf := p.buf

/-- `QuicPacket::frames`, `src/quic.rs:114-123`. -/
def frames (m : Mode) (p : QuicPacket) : Res (Option Buf) :=
  match p.kind with
  | .versionNegotiation => .ok none
  | .initial => some <$> Verif.initial.getRaw m p.buf 14
  | .zeroRtt => some <$> Verif.zeroRtt.getRaw m p.buf 12
  | .handshake => some <$> Verif.handshake.getRaw m p.buf 12
  | .retry => .ok none
  | .oneRtt => some <$> Verif.oneRtt.payload m p.buf

end QuicPacket

/-! ## Frames -/

/-- `Padding`, `Ping`, `HandshakeDone`: `src/quic.rs:620-632,833-838`. -/
def frameBare : Decl := ⟨[fmisc "ty" [8], frest "remaining"]⟩

/-- `Ack`, `src/quic.rs:634-651`. -/
def frameAck : Decl := ⟨[
  fmisc "ty" [8],
  fbytes "largest_acknowledged" lenVarintLength,
  fbytes "ack_delay" lenVarintLength,
  fbytes "ack_range_count" lenVarintLength,
  fbytes "first_ack_range" lenVarintLength,
  fbytes "ack_range" (lenNVarintsOf 3),
  fbytes "ecn_counts" (lenNVarints fun ty => if ty = 0x03 then 3 else 0),
  frest "remaining"]⟩

/-- `ResetStream`, `src/quic.rs:653-664`. -/
def frameResetStream : Decl := ⟨[
  fmisc "ty" [8],
  fbytes "stream_id" lenVarintLength,
  fbytes "application_protocol_error_code" lenVarintLength,
  fbytes "final_size" lenVarintLength,
  frest "remaining"]⟩

/-- `StopSending`, `src/quic.rs:666-675`. -/
def frameStopSending : Decl := ⟨[
  fmisc "ty" [8],
  fbytes "stream_id" lenVarintLength,
  fbytes "application_protocol_error_code" lenVarintLength,
  frest "remaining"]⟩

/-- `Crypto`, `src/quic.rs:677-688`. -/
def frameCrypto : Decl := ⟨[
  fmisc "ty" [8],
  fbytes "offset" lenVarintLength,
  fbytes "length" lenVarintLength,
  fbytes "crypto_payload" (lenVarint 2),
  frest "remaining"]⟩

/-- `NewToken`, `src/quic.rs:690-699`. -/
def frameNewToken : Decl := ⟨[
  fmisc "ty" [8],
  fbytes "token_length" lenVarintLength,
  fbytes "token" (lenVarint 1),
  frest "remaining"]⟩

/-- `Stream`, `src/quic.rs:701-715`. -/
def frameStream : Decl := ⟨[
  fmisc "ty" [8],
  fbytes "stream_id" lenVarintLength,
  fbytes "offset" (lenNVarints fun ty => if ty &&& 0x04 > 0 then 1 else 0),
  fbytes "length" (lenNVarints fun ty => if ty &&& 0x02 > 0 then 1 else 0),
  fpayload "stream_data" (lenStreamData 3),
  frest "remaining"]⟩

/-- `MaxData`, `MaxStreams`, `DataBlocked`, `StreamsBlocked`, `RetireConnectionId`:
`src/quic.rs:717-724,737-744,746-753,766-773,791-798`. -/
def frameOneVarint (name : String) : Decl := ⟨[
  fmisc "ty" [8],
  fbytes name lenVarintLength,
  frest "remaining"]⟩

/-- `MaxStreamData`, `StreamDataBlocked`: `src/quic.rs:726-735,755-764`. -/
def frameTwoVarints : Decl := ⟨[
  fmisc "ty" [8],
  fbytes "stream_id" lenVarintLength,
  fbytes "max_stream_data" lenVarintLength,
  frest "remaining"]⟩

/-- `NewConnectionId`, `src/quic.rs:775-789`. -/
def frameNewConnectionId : Decl := ⟨[
  fmisc "ty" [8],
  fbytes "sequence_number" lenVarintLength,
  fbytes "retire_prior_to" lenVarintLength,
  fprim "length" 8,
  fbytes "connection_id" (lenU8 3),
  fbytes "stateless_reset_token" (lenConst 16),
  frest "remaining"]⟩

/-- `PathChallenge`, `PathResponse`: `src/quic.rs:800-816`. -/
def framePath : Decl := ⟨[
  fmisc "ty" [8],
  fbytes "data" (lenConst 8),
  frest "remaining"]⟩

/-- `ConnectionClose`, `src/quic.rs:818-831`. -/
def frameConnectionClose : Decl := ⟨[
  fmisc "ty" [8],
  fbytes "error_code" lenVarintLength,
  fbytes "frame_type" (lenNVarints fun ty => if ty = 0x1d then 0 else 1),
  fbytes "reason_phrase_length" lenVarintLength,
  fbytes "reason_phrase" (lenVarint 3),
  frest "remaining"]⟩

/-- The variants of `Frame`, `src/quic.rs:466-487`. -/
inductive FrameKind
  | padding
  | ping
  | ack
  | resetStream
  | stopSending
  | crypto
  | newToken
  | stream
  | maxData
  | maxStreamData
  | maxStreams
  | dataBlocked
  | streamDataBlocked
  | streamsBlocked
  | newConnectionId
  | retireConnectionId
  | pathChallenge
  | pathResponse
  | connectionClose
  | handshakeDone
deriving DecidableEq

/-- The packet type wrapped by a frame variant. -/
def FrameKind.decl : FrameKind → Decl
  | .padding => frameBare
  | .ping => frameBare
  | .ack => frameAck
  | .resetStream => frameResetStream
  | .stopSending => frameStopSending
  | .crypto => frameCrypto
  | .newToken => frameNewToken
  | .stream => frameStream
  | .maxData => frameOneVarint "max_data"
  | .maxStreamData => frameTwoVarints
  | .maxStreams => frameOneVarint "max_streams"
  | .dataBlocked => frameOneVarint "max_data"
  | .streamDataBlocked => frameTwoVarints
  | .streamsBlocked => frameOneVarint "max_streams"
  | .newConnectionId => frameNewConnectionId
  | .retireConnectionId => frameOneVarint "sequence_number"
  | .pathChallenge => framePath
  | .pathResponse => framePath
  | .connectionClose => frameConnectionClose
  | .handshakeDone => frameBare

/-- The match on the type byte in `Frame::new`, `src/quic.rs:493-527` (constants
`src/quic.rs:845-875`). -/
def FrameKind.ofType (ty : Nat) : Option FrameKind :=
  if ty = 0x00 then some .padding
  else if ty = 0x01 then some .ping
  else if ty = 0x02 ∨ ty = 0x03 then some .ack
  else if ty = 0x04 then some .resetStream
  else if ty = 0x05 then some .stopSending
  else if ty = 0x06 then some .crypto
  else if ty = 0x07 then some .newToken
  else if 0x8 ≤ ty ∧ ty ≤ 0xf then some .stream
  else if ty = 0x10 then some .maxData
  else if ty = 0x11 then some .maxStreamData
  else if ty = 0x12 ∨ ty = 0x13 then some .maxStreams
  else if ty = 0x14 then some .dataBlocked
  else if ty = 0x15 then some .streamDataBlocked
  else if ty = 0x16 ∨ ty = 0x17 then some .streamsBlocked
  else if ty = 0x18 then some .newConnectionId
  else if ty = 0x19 then some .retireConnectionId
  else if ty = 0x1a then some .pathChallenge
  else if ty = 0x1b then some .pathResponse
  else if ty = 0x1c ∨ ty = 0x1d then some .connectionClose
  else if ty = 0x1e then some .handshakeDone
  else none

/-- `Frame`: the variant, the bytes of the wrapped packet, and the counter of `Padding` (0 for the
other variants, which have none). -/
structure Frame where
  kind : FrameKind
  buf : Buf
  count : Nat
deriving DecidableEq

namespace Frame

/-- `Frame::remaining`, `src/quic.rs:588-611`: `remaining` is the last field of every frame. -/
def remaining (m : Mode) (f : Frame) : Res Buf :=
  f.kind.decl.getRaw m f.buf (f.kind.decl.fields.length - 1)

/-- `Frame::ty`, `src/quic.rs:538-561`. -/
def ty (m : Mode) (f : Frame) : Res Val := f.kind.decl.get m f.buf 0

/-- `Frame::payload`, `src/quic.rs:563-586`. -/
def payload (m : Mode) (f : Frame) : Res Buf := f.kind.decl.payload m f.buf

/-- The end of the loop body of `Frame::new`, `src/quic.rs:530-533`: a padding frame is added to a
padding frame at the end of the list. The counter counts bytes of the input and cannot overflow. -/
def push (frames : List Frame) (frame : Frame) : List Frame :=
  match frames.getLast? with
  | some last =>
    if last.kind = .padding ∧ frame.kind = .padding then
      frames.dropLast ++ [{ last with count := last.count + frame.count }]
    else frames ++ [frame]
  | none => frames ++ [frame]

/-- The loop of `Frame::new`, `src/quic.rs:490-536`; `hang` as in `QuicPacket.loop`. -/
def loop (m : Mode) : (fuel : Nat) → (frames : List Frame) → Buf → Res (Option (List Frame))
  | 0, frames, packet => if packet.isEmpty then .ok (some frames) else .error .hang
  | fuel + 1, frames, packet =>
    if packet.isEmpty then .ok (some frames)
    else do
      let b0 ← index packet 0
      match FrameKind.ofType b0.toNat with
      | none => .ok none
      | some kind =>
        match kind.decl.new packet with
        | none => .ok none
        | some buf =>
          let frame : Frame := ⟨kind, buf, if kind = .padding then 1 else 0⟩
          let rest ← frame.remaining m
          loop m fuel (push frames frame) rest

/-- `Frame::new`, `src/quic.rs:490-536`. -/
def new (m : Mode) (packet : Buf) : Res (Option (List Frame)) := loop m packet.length [] packet

end Frame

end Verif
