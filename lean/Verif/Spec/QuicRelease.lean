import Verif.Spec.QuicApi

/-! # Specification: datagrams in release builds -/

namespace Verif.Spec.Quic
open Verif Verif.Spec

/-- The content of an Initial, 0-RTT or Handshake packet up to and including its Length field; `pnLen`
is the size of the packet number given in the first byte, `length` the value of the Length field. -/
structure Head where
  kind : QuicKind
  version : Nat
  dcid : Buf
  scid : Buf
  token : Option Buf
  pnLen : Nat
  length : Nat

/-- The bytes of an Initial, 0-RTT or Handshake packet up to and including its Length field (RFC 9000,
§17.2). -/
inductive LongHead : Head → Buf → Prop
  | initial {version p l : Nat} {dcid scid token : Buf} {reserved : Nat} {tokenLen length : Buf} :
      HeaderOk version dcid scid → 1 ≤ p ∧ p ≤ 4 → reserved < 4 → Varint tokenLen token.length →
      Varint length l →
      LongHead ⟨.initial, version, dcid, scid, some token, p, l⟩
        (longHeader 0 reserved p version dcid scid ++ tokenLen ++ token ++ length)
  | zeroRtt {version p l : Nat} {dcid scid : Buf} {reserved : Nat} {length : Buf} :
      HeaderOk version dcid scid → 1 ≤ p ∧ p ≤ 4 → reserved < 4 → Varint length l →
      LongHead ⟨.zeroRtt, version, dcid, scid, none, p, l⟩
        (longHeader 1 reserved p version dcid scid ++ length)
  | handshake {version p l : Nat} {dcid scid : Buf} {reserved : Nat} {length : Buf} :
      HeaderOk version dcid scid → 1 ≤ p ∧ p ≤ 4 → reserved < 4 → Varint length l →
      LongHead ⟨.handshake, version, dcid, scid, none, p, l⟩
        (longHeader 2 reserved p version dcid scid ++ length)

/-- Where a release build goes on after a packet with `body` after its Length field: after as many
bytes as the Length field says, even if this is inside the packet number; if bytes of the packet number
are missing, as many bytes later as are missing. -/
def Next (h : Head) (body rest : Buf) : Prop :=
  (h.pnLen ≤ body.length ∧ h.length ≤ body.length ∧ rest = body.drop h.length) ∨
  (body.length < h.pnLen ∧ h.length + (h.pnLen - body.length) ≤ body.length ∧
    rest = body.drop (h.length + (h.pnLen - body.length)))

/-- The packets a release build reports. -/
inductive ReleaseReports : Buf → List QuicPacket → Prop
  | nil : ReleaseReports [] []
  | last {buf : Buf} {k : QuicKind} : Ending buf k → ReleaseReports buf [⟨k, buf⟩]
  | cons {h : Head} {head body rest : Buf} {qs : List QuicPacket} :
      LongHead h head → Next h body rest → ReleaseReports rest qs →
      ReleaseReports (head ++ body) (⟨h.kind, head ++ body⟩ :: qs)

/-- Going on as above ends at bytes satisfying `P`. -/
inductive ReleaseThen (P : Buf → Prop) : Buf → Prop
  | here {buf : Buf} : P buf → ReleaseThen P buf
  | cons {h : Head} {head body rest : Buf} : LongHead h head → Next h body rest →
      ReleaseThen P rest → ReleaseThen P (head ++ body)

/-- Bytes with the first byte and version of an Initial, 0-RTT or Handshake packet, at least 7 of
them, after which a release build cannot go on. -/
def ReleaseBroken (buf : Buf) : Prop :=
  ∃ (b : UInt8) (version rest : Buf), buf = b :: (version ++ rest) ∧
    b.toNat / 64 = 3 ∧ b.toNat / 16 % 4 ≠ 3 ∧
    version.length = 4 ∧ version ≠ [0, 0, 0, 0] ∧ 2 ≤ rest.length ∧
    ¬ ∃ h head body more, LongHead h head ∧ Next h body more ∧ buf = head ++ body

end Verif.Spec.Quic
