import Verif.Spec.Quic
import Verif.Spec.Layouts
import Verif.Model.Quic

/-! # Specification: how QUIC wire formats show up in the crate's types -/

namespace Verif.Spec.Quic
open Verif Verif.Spec

/-- The `Frame` variant of each frame type (RFC 9000, Table 3). -/
def variants : List (Nat × FrameKind) := [
  (0x00, .padding), (0x01, .ping), (0x02, .ack), (0x03, .ack), (0x04, .resetStream),
  (0x05, .stopSending), (0x06, .crypto), (0x07, .newToken), (0x08, .stream), (0x09, .stream),
  (0x0a, .stream), (0x0b, .stream), (0x0c, .stream), (0x0d, .stream), (0x0e, .stream),
  (0x0f, .stream), (0x10, .maxData), (0x11, .maxStreamData), (0x12, .maxStreams),
  (0x13, .maxStreams), (0x14, .dataBlocked), (0x15, .streamDataBlocked), (0x16, .streamsBlocked),
  (0x17, .streamsBlocked), (0x18, .newConnectionId), (0x19, .retireConnectionId),
  (0x1a, .pathChallenge), (0x1b, .pathResponse), (0x1c, .connectionClose),
  (0x1d, .connectionClose), (0x1e, .handshakeDone)]

/-- What a reported frame shows: variant, bytes from its start on, and number of merged frames for
padding. -/
def shown (f : Frame) : Option FrameKind × Buf × Nat := (some f.kind, f.buf, f.count)

/-- What should be reported for a run of frames: the variant of its type, the bytes from its start
on, and the length of the run for padding. -/
def expected (r : (UInt8 × Buf) × Nat) : Option FrameKind × Buf × Nat :=
  (variants.lookup r.1.1.toNat, r.1.2, if r.1.1 = 0 then r.2 else 0)

/-! ## Packets -/

/-- The `QuicPacket` variant of a packet. -/
def kind : Packet → QuicKind
  | .initial .. => .initial
  | .zeroRtt .. => .zeroRtt
  | .handshake .. => .handshake
  | .retry .. => .retry
  | .versionNegotiation .. => .versionNegotiation
  | .oneRtt .. => .oneRtt

/-- A byte string as value of a field of type `Vec<u8>`. -/
def bytesOf (bs : Buf) : Val := .nums (bs.map (·.toNat))

/-- `version()`, `dest_id()`, `src_id()`, `token()`, `packet_number()` and `frames()` of `q` return
the values given in this order. -/
def Accessors (m : Mode) (q : QuicPacket) (version : Option Nat) (dest : Buf)
    (src token : Option Buf) (pn : Option Nat) (frames : Option Buf) : Prop :=
  q.version m = .ok (version.map fun v => .nums [v]) ∧
  q.destId m = .ok (bytesOf dest) ∧
  q.srcId m = .ok (src.map bytesOf) ∧
  q.token m = .ok (token.map bytesOf) ∧
  q.packetNumber m = .ok pn ∧
  q.frames m = .ok frames

/-- The accessors of `q` show the content of the packet. The token of a Retry packet is only
available from `get_retry_token_raw()` (field 9) and the versions of a Version Negotiation packet from
`get_supported_versions_raw()` (field 7). -/
def Shows (m : Mode) (q : QuicPacket) : Packet → Prop
  | .initial version dcid scid token pn frames =>
    Accessors m q (some version) dcid (some scid) (some token) (some (beNat pn)) (some frames)
  | .zeroRtt version dcid scid pn frames =>
    Accessors m q (some version) dcid (some scid) none (some (beNat pn)) (some frames)
  | .handshake version dcid scid pn frames =>
    Accessors m q (some version) dcid (some scid) none (some (beNat pn)) (some frames)
  | .retry version dcid scid token =>
    Accessors m q (some version) dcid (some scid) none none none ∧
      Verif.retry.getRaw m q.packet 9 = .ok token
  | .versionNegotiation dcid scid versions =>
    Accessors m q none dcid (some scid) none none none ∧
      Verif.versionNegotiation.getRaw m q.packet 7 = .ok versions
  | .oneRtt dcid pn frames =>
    Accessors m q none dcid none none (some (beNat pn)) (some frames)

/-! ## Which datagrams are accepted -/

/-- The first two bits of a packet with a short header: header form 0, fixed bit 1. -/
def ShortForm (buf : Buf) : Prop := bitsAt buf 0 1 = 0 ∧ bitsAt buf 1 1 = 1

/-- The bytes `QuicPacket::new` takes for a packet of the given kind that extends to the end of the
datagram. Only the first byte, the version and the total length are looked at. -/
def Ending (buf : Buf) : QuicKind → Prop
  | .oneRtt => 5 ≤ buf.length ∧ ShortForm buf
  | .versionNegotiation => 7 ≤ buf.length ∧ ¬ ShortForm buf ∧ bitsAt buf 8 32 = 0
  | .retry => 7 ≤ buf.length ∧ bitsAt buf 0 4 = 15 ∧ bitsAt buf 8 32 ≠ 0
  | _ => False

/-- Bytes that are refused: too few of them, or a fixed bit 0 in a packet that is not a Version
Negotiation packet. -/
def Refused (buf : Buf) : Prop :=
  0 < buf.length ∧ (buf.length < 5 ∨
    (¬ ShortForm buf ∧ (buf.length < 7 ∨ (bitsAt buf 1 1 = 0 ∧ bitsAt buf 8 32 ≠ 0))))

/-- The packets reported for a datagram: those with a Length field must be complete, the last one may
be one that extends to the end. Each is reported with all the bytes from its start on. -/
inductive Reports : Buf → List QuicPacket → Prop
  | nil : Reports [] []
  | last {buf : Buf} {k : QuicKind} : Ending buf k → Reports buf [⟨k, buf⟩]
  | cons {p : Packet} {bs rest : Buf} {qs : List QuicPacket} : LongEnc p bs → Reports rest qs →
      Reports (bs ++ rest) (⟨kind p, bs ++ rest⟩ :: qs)

/-! ## Structs

The field values of the structs, in declaration order. -/

/-- The fields of `Initial`, `ZeroRtt` and `Handshake` up to `src_id`; `ty` is 0, 1 or 2. -/
def longStruct (ty reserved version : Nat) (dcid scid pn : Buf) : List Val :=
  [.nums [1], .nums [1], .nums [ty], .num reserved, .num (pn.length - 1), .nums [version],
    .num dcid.length, bytesOf dcid, .num scid.length, bytesOf scid]

/-- `Initial`. -/
def initialStruct (reserved version : Nat) (dcid scid tokenLen token length pn frames remaining : Buf) :
    Val :=
  .list (longStruct 0 reserved version dcid scid pn ++
    [bytesOf tokenLen, bytesOf token, bytesOf length, bytesOf pn, bytesOf frames, bytesOf remaining])

/-- `ZeroRtt` (`ty` is 1) and `Handshake` (2). -/
def plainStruct (ty reserved version : Nat) (dcid scid length pn frames remaining : Buf) : Val :=
  .list (longStruct ty reserved version dcid scid pn ++
    [bytesOf length, bytesOf pn, bytesOf frames, bytesOf remaining])

/-- `Retry`. -/
def retryStruct (unused version : Nat) (dcid scid token : Buf) : Val :=
  .list [.nums [1], .nums [1], .nums [3], .num unused, .nums [version],
    .num dcid.length, bytesOf dcid, .num scid.length, bytesOf scid, bytesOf token]

/-- `VersionNegotiation`. -/
def versionNegotiationStruct (unused : Nat) (dcid scid versions : Buf) : Val :=
  .list [.nums [1], .num unused, .num 0,
    .num dcid.length, bytesOf dcid, .num scid.length, bytesOf scid, bytesOf versions]

/-- `OneRtt`. -/
def oneRttStruct (spin reserved keyPhase : Nat) (dcid pn frames : Buf) : Val :=
  .list [.num 0, .num 1, .num spin, .num reserved, .num keyPhase, .num (pn.length - 1),
    bytesOf dcid, bytesOf pn, bytesOf frames]

/-! ## Frames

The fields of the frame structs between `ty` and `remaining`. -/

/-- `Fields r ty body fields`: the frame of type `ty` with the bytes `body` after its type (RFC 9000,
§19) has these field names and values. Integers are kept in their encoding; a field the frame does not
have is empty. `r` is the number of integers per ACK range. -/
inductive Fields (r : Nat) : Nat → Buf → List (String × Val) → Prop
  | padding : Fields r 0x00 [] []
  | ping : Fields r 0x01 [] []
  | ack {largest delay count first : Buf} {ranges : List Buf} {a b n c : Nat} :
      Varint largest a → Varint delay b → Varint count n → Varint first c →
      ranges.length = r * n → (∀ x ∈ ranges, ∃ v, Varint x v) →
      Fields r 0x02 (largest ++ delay ++ count ++ first ++ ranges.flatten)
        [("largest_acknowledged", bytesOf largest), ("ack_delay", bytesOf delay),
          ("ack_range_count", bytesOf count), ("first_ack_range", bytesOf first),
          ("ack_range", bytesOf ranges.flatten), ("ecn_counts", bytesOf [])]
  | ackEcn {largest delay count first ect0 ect1 ce : Buf} {ranges : List Buf} {a b n c x y z : Nat} :
      Varint largest a → Varint delay b → Varint count n → Varint first c →
      ranges.length = r * n → (∀ x ∈ ranges, ∃ v, Varint x v) →
      Varint ect0 x → Varint ect1 y → Varint ce z →
      Fields r 0x03 (largest ++ delay ++ count ++ first ++ ranges.flatten ++ ect0 ++ ect1 ++ ce)
        [("largest_acknowledged", bytesOf largest), ("ack_delay", bytesOf delay),
          ("ack_range_count", bytesOf count), ("first_ack_range", bytesOf first),
          ("ack_range", bytesOf ranges.flatten), ("ecn_counts", bytesOf (ect0 ++ ect1 ++ ce))]
  | resetStream {id error size : Buf} {a b c : Nat} :
      Varint id a → Varint error b → Varint size c →
      Fields r 0x04 (id ++ error ++ size)
        [("stream_id", bytesOf id), ("application_protocol_error_code", bytesOf error),
          ("final_size", bytesOf size)]
  | stopSending {id error : Buf} {a b : Nat} : Varint id a → Varint error b →
      Fields r 0x05 (id ++ error)
        [("stream_id", bytesOf id), ("application_protocol_error_code", bytesOf error)]
  | crypto {offset length data : Buf} {a : Nat} : Varint offset a → Varint length data.length →
      Fields r 0x06 (offset ++ length ++ data)
        [("offset", bytesOf offset), ("length", bytesOf length), ("crypto_payload", bytesOf data)]
  | newToken {length token : Buf} : Varint length token.length →
      Fields r 0x07 (length ++ token) [("token_length", bytesOf length), ("token", bytesOf token)]
  | stream {ty : Nat} {id data : Buf} {a : Nat} : ty = 0x08 ∨ ty = 0x09 → Varint id a →
      Fields r ty (id ++ data)
        [("stream_id", bytesOf id), ("offset", bytesOf []), ("length", bytesOf []),
          ("stream_data", bytesOf data)]
  | streamLen {ty : Nat} {id length data : Buf} {a : Nat} : ty = 0x0a ∨ ty = 0x0b → Varint id a →
      Varint length data.length →
      Fields r ty (id ++ length ++ data)
        [("stream_id", bytesOf id), ("offset", bytesOf []), ("length", bytesOf length),
          ("stream_data", bytesOf data)]
  | streamOff {ty : Nat} {id offset data : Buf} {a b : Nat} : ty = 0x0c ∨ ty = 0x0d → Varint id a →
      Varint offset b →
      Fields r ty (id ++ offset ++ data)
        [("stream_id", bytesOf id), ("offset", bytesOf offset), ("length", bytesOf []),
          ("stream_data", bytesOf data)]
  | streamOffLen {ty : Nat} {id offset length data : Buf} {a b : Nat} : ty = 0x0e ∨ ty = 0x0f →
      Varint id a → Varint offset b → Varint length data.length →
      Fields r ty (id ++ offset ++ length ++ data)
        [("stream_id", bytesOf id), ("offset", bytesOf offset), ("length", bytesOf length),
          ("stream_data", bytesOf data)]
  | maxData {max : Buf} {a : Nat} : Varint max a → Fields r 0x10 max [("max_data", bytesOf max)]
  | maxStreamData {id max : Buf} {a b : Nat} : Varint id a → Varint max b →
      Fields r 0x11 (id ++ max) [("stream_id", bytesOf id), ("max_stream_data", bytesOf max)]
  | maxStreams {ty : Nat} {max : Buf} {a : Nat} : ty = 0x12 ∨ ty = 0x13 → Varint max a →
      Fields r ty max [("max_streams", bytesOf max)]
  | dataBlocked {max : Buf} {a : Nat} : Varint max a → Fields r 0x14 max [("max_data", bytesOf max)]
  | streamDataBlocked {id max : Buf} {a b : Nat} : Varint id a → Varint max b →
      Fields r 0x15 (id ++ max) [("stream_id", bytesOf id), ("max_stream_data", bytesOf max)]
  | streamsBlocked {ty : Nat} {max : Buf} {a : Nat} : ty = 0x16 ∨ ty = 0x17 → Varint max a →
      Fields r ty max [("max_streams", bytesOf max)]
  | newConnectionId {number retire id token : Buf} {len : UInt8} {a b : Nat} : Varint number a →
      Varint retire b → len.toNat = id.length → token.length = 16 →
      Fields r 0x18 (number ++ retire ++ [len] ++ id ++ token)
        [("sequence_number", bytesOf number), ("retire_prior_to", bytesOf retire),
          ("length", .num id.length), ("connection_id", bytesOf id),
          ("stateless_reset_token", bytesOf token)]
  | retireConnectionId {number : Buf} {a : Nat} : Varint number a →
      Fields r 0x19 number [("sequence_number", bytesOf number)]
  | path {ty : Nat} {data : Buf} : ty = 0x1a ∨ ty = 0x1b → data.length = 8 →
      Fields r ty data [("data", bytesOf data)]
  | close {error frame length reason : Buf} {a b : Nat} : Varint error a → Varint frame b →
      Varint length reason.length →
      Fields r 0x1c (error ++ frame ++ length ++ reason)
        [("error_code", bytesOf error), ("frame_type", bytesOf frame),
          ("reason_phrase_length", bytesOf length), ("reason_phrase", bytesOf reason)]
  | closeApp {error length reason : Buf} {a : Nat} : Varint error a →
      Varint length reason.length →
      Fields r 0x1d (error ++ length ++ reason)
        [("error_code", bytesOf error), ("frame_type", bytesOf []),
          ("reason_phrase_length", bytesOf length), ("reason_phrase", bytesOf reason)]
  | handshakeDone : Fields r 0x1e [] []

/-- STREAM frames without length extend to the end of the packet. -/
def openEnded (ty : Nat) : Prop := ty = 0x08 ∨ ty = 0x09 ∨ ty = 0x0c ∨ ty = 0x0d

end Verif.Spec.Quic
