import Verif.Spec.QuicSend

/-!
# A sender of QUIC datagrams

Not code of the crate: a program that uses it, for C132.
-/

namespace Verif.Spec.Quic

/-- A packet that is sent before others. -/
inductive SentPacket where
  | initial (reserved version : Nat) (dcid scid tokenLen token length pn : Buf) (fs : List SentFrame)
  | zeroRtt (reserved version : Nat) (dcid scid length pn : Buf) (fs : List SentFrame)
  | handshake (reserved version : Nat) (dcid scid length pn : Buf) (fs : List SentFrame)

/-- The last packet of a datagram, if it has no Length field. -/
inductive SentLast where
  | nothing
  | oneRtt (spin reserved key : Nat) (dcid pn : Buf) (fs : List SentFrame)
  | retry (unused version : Nat) (dcid scid token : Buf)
  | versionNegotiation (unused : Nat) (dcid scid versions : Buf)

namespace SentPacket

/-- The frames of the packet. -/
def frames : SentPacket → List SentFrame
  | .initial _ _ _ _ _ _ _ _ fs => fs
  | .zeroRtt _ _ _ _ _ _ fs => fs
  | .handshake _ _ _ _ _ _ fs => fs

/-- The bytes of the packet (§17.2). -/
def bytes : SentPacket → Buf
  | .initial reserved version dcid scid tokenLen token length pn fs =>
    longHeader 0 reserved pn.length version dcid scid ++ tokenLen ++ token ++ length ++ pn ++ wire fs
  | .zeroRtt reserved version dcid scid length pn fs =>
    longHeader 1 reserved pn.length version dcid scid ++ length ++ pn ++ wire fs
  | .handshake reserved version dcid scid length pn fs =>
    longHeader 2 reserved pn.length version dcid scid ++ length ++ pn ++ wire fs

/-- The fields fit, the lengths are right, and the frames can be sent. -/
def Valid : SentPacket → Prop
  | .initial reserved version dcid scid tokenLen token length pn fs =>
    HeaderOk version dcid scid ∧ PnOk pn ∧ reserved < 4 ∧ Varint tokenLen token.length ∧
      Varint length (pn.length + (wire fs).length) ∧ Sendable fs
  | .zeroRtt reserved version dcid scid length pn fs =>
    HeaderOk version dcid scid ∧ PnOk pn ∧ reserved < 4 ∧ Varint length (pn.length + (wire fs).length) ∧ Sendable fs
  | .handshake reserved version dcid scid length pn fs =>
    HeaderOk version dcid scid ∧ PnOk pn ∧ reserved < 4 ∧ Varint length (pn.length + (wire fs).length) ∧ Sendable fs

/-- All variable-length integers of the packet and its frames take one byte. -/
def OneByte (p : SentPacket) : Prop :=
  (∀ f ∈ p.frames, OneByteInts f.fields) ∧
  match p with
  | .initial _ _ _ _ tokenLen _ length _ _ => tokenLen.length = 1 ∧ length.length = 1
  | .zeroRtt _ _ _ _ length _ _ => length.length = 1
  | .handshake _ _ _ _ length _ _ => length.length = 1

/-- Writes the frames, and the packet with them into a new buffer before the bytes `rest`. -/
def write (m : Mode) (p : SentPacket) (rest : Buf) : Res Buf := do
  let payload ← writeFrames m p.frames
  let buf := List.replicate (p.bytes ++ rest).length 0
  match p with
  | .initial reserved version dcid scid tokenLen token length pn _ =>
    Verif.initial.populate m buf (initialStruct reserved version dcid scid tokenLen token length pn payload rest)
  | .zeroRtt reserved version dcid scid length pn _ =>
    Verif.zeroRtt.populate m buf (plainStruct 1 reserved version dcid scid length pn payload rest)
  | .handshake reserved version dcid scid length pn _ =>
    Verif.handshake.populate m buf (plainStruct 2 reserved version dcid scid length pn payload rest)

end SentPacket

/-- The frames of a payload are found: runs of padding as one, each at its place. -/
def FramesFound (m : Mode) (fs : List SentFrame) (payload : Buf) : Prop :=
  payload = wire fs ∧ ∃ gs, Frame.new m payload = .ok (some gs) ∧ gs.map shown = (runs (located fs)).map expected

/-- The packet is found as `q`: its kind, its accessors, its frames. -/
def SentPacket.Arrives (m : Mode) (q : QuicPacket) : SentPacket → Prop
  | .initial _ version dcid scid _ token _ pn fs => q.kind = .initial ∧ ∃ payload, FramesFound m fs payload ∧
    Accessors m q (some version) dcid (some scid) (some token) (some (beNat pn)) (some payload)
  | .zeroRtt _ version dcid scid _ pn fs => q.kind = .zeroRtt ∧ ∃ payload, FramesFound m fs payload ∧
    Accessors m q (some version) dcid (some scid) none (some (beNat pn)) (some payload)
  | .handshake _ version dcid scid _ pn fs => q.kind = .handshake ∧ ∃ payload, FramesFound m fs payload ∧
    Accessors m q (some version) dcid (some scid) none (some (beNat pn)) (some payload)

namespace SentLast

/-- The bytes of the packet (§17.2.1, §17.2.5, §17.3). -/
def bytes : SentLast → Buf
  | .nothing => []
  | .oneRtt spin reserved key dcid pn fs =>
    [UInt8.ofNat (0x40 + 4 * (8 * spin + 2 * reserved + key) + (pn.length - 1))] ++ dcid ++ pn ++ wire fs
  | .retry unused version dcid scid token =>
    [UInt8.ofNat (0xF0 + unused)] ++ beBytes 4 version ++
      [UInt8.ofNat dcid.length] ++ dcid ++ [UInt8.ofNat scid.length] ++ scid ++ token
  | .versionNegotiation unused dcid scid versions =>
    [UInt8.ofNat (0x80 + unused)] ++ [0, 0, 0, 0] ++
      [UInt8.ofNat dcid.length] ++ dcid ++ [UInt8.ofNat scid.length] ++ scid ++ versions

/-- The fields fit, and the frames can be sent. -/
def Valid : SentLast → Prop
  | .nothing => True
  | .oneRtt spin reserved key dcid pn fs =>
    dcid.length = 8 ∧ PnOk pn ∧ spin < 2 ∧ reserved < 4 ∧ key < 2 ∧ Sendable fs
  | .retry unused version dcid scid _ => HeaderOk version dcid scid ∧ unused < 16
  | .versionNegotiation unused dcid scid _ => dcid.length < 256 ∧ scid.length < 256 ∧ unused < 128

/-- All variable-length integers of the frames take one byte. -/
def OneByte : SentLast → Prop
  | .oneRtt _ _ _ _ _ fs => ∀ f ∈ fs, OneByteInts f.fields
  | _ => True

/-- Writes the frames, and the packet with them into a new buffer. -/
def write (m : Mode) (last : SentLast) : Res Buf :=
  let buf := List.replicate last.bytes.length 0
  match last with
  | .nothing => .ok []
  | .oneRtt spin reserved key dcid pn fs => do
    let payload ← writeFrames m fs
    Verif.oneRtt.populate m buf (oneRttStruct spin reserved key dcid pn payload)
  | .retry unused version dcid scid token => Verif.retry.populate m buf (retryStruct unused version dcid scid token)
  | .versionNegotiation unused dcid scid versions =>
    Verif.versionNegotiation.populate m buf (versionNegotiationStruct unused dcid scid versions)

/-- The packets that are found of it. -/
def Arrives (m : Mode) (qs : List QuicPacket) : SentLast → Prop
  | .nothing => qs = []
  | .oneRtt _ _ _ dcid pn fs => ∃ q, qs = [q] ∧ q.kind = .oneRtt ∧ ∃ payload, FramesFound m fs payload ∧
    Accessors m q none dcid none none (some (beNat pn)) (some payload)
  | .retry _ version dcid scid token => ∃ q, qs = [q] ∧ q.kind = .retry ∧ Shows m q (.retry version dcid scid token)
  | .versionNegotiation _ dcid scid versions => ∃ q, qs = [q] ∧ q.kind = .versionNegotiation ∧
    Shows m q (.versionNegotiation dcid scid versions)

end SentLast

/-- The bytes of a datagram. -/
def datagram (ps : List SentPacket) (last : SentLast) : Buf := ps.flatMap (·.bytes) ++ last.bytes

/-- Writes the packets of a datagram, the last one first. -/
def writeDatagram (m : Mode) : List SentPacket → SentLast → Res Buf
  | [], last => last.write m
  | p :: ps, last => do
    let rest ← writeDatagram m ps last
    p.write m rest

/-- All packets of a datagram are found, in their order, each with all bytes from its start on. -/
def AllArrive (m : Mode) (last : SentLast) : List SentPacket → List QuicPacket → Prop
  | [], qs => last.Arrives m qs ∧ ∀ q ∈ qs, q.packet = last.bytes
  | p :: ps, q :: qs => p.Arrives m q ∧ q.packet = datagram (p :: ps) last ∧ AllArrive m last ps qs
  | _ :: _, [] => False

end Verif.Spec.Quic
