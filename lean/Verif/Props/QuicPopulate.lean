import Verif.Proofs.QuicPopulate

/-!
# Populating QUIC packets (C50)

The structs are in `Verif/Spec/QuicApi.lean`, the bytes are those of `Verif/Spec/Quic.lean`.
-/

namespace Verif.Props
open Verif Verif.Spec Verif.Spec.Quic

/-- A buffer of zeroes. -/
def zeroes (n : Nat) : Buf := List.replicate n 0

/-- **C50** is false: a Handshake packet whose Length field takes two bytes cannot be populated. -/
theorem C50_populate_zeroed_false (m : Mode) :
    LongEnc (.handshake 1 [] [] [7] []) [0xE0, 0, 0, 0, 1, 0, 0, 0x40, 1, 7] ∧
    handshake.populate m (zeroes 10) (plainStruct 2 0 1 [] [] [0x40, 1] [7] [] []) = panic := by
  refine ⟨.handshake (version := 1) (dcid := []) (scid := []) (pn := [7]) (frames := []) (reserved := 0)
    (length := [0x40, 1]) ⟨by decide, by decide, by decide, by decide⟩ ⟨by decide, by decide⟩ (by decide)
    ⟨1, by decide, by decide, by decide, by decide⟩, ?_⟩
  cases m <;> decide +kernel

/-- **C50**, Initial packets: `from_packet` reads the struct from its bytes, and `populate` writes these
bytes over zeroes if both variable-length integers take one byte and panics otherwise. Missing: the
other sizes, for which the claim is false. -/
theorem C50_initial_partial (m : Mode) (reserved version : Nat)
    (dcid scid tokenLen token length pn frames remaining bs : Buf)
    (hh : HeaderOk version dcid scid) (hpn : PnOk pn) (hres : reserved < 4)
    (hvt : Varint tokenLen token.length) (hv : Varint length (pn.length + frames.length))
    (hbs : bs = longHeader 0 reserved pn.length version dcid scid ++ tokenLen ++ token ++ length ++ pn ++
      frames ++ remaining)
    (hsl : SliceLen bs.length) :
    initial.populate m (zeroes bs.length)
        (initialStruct reserved version dcid scid tokenLen token length pn frames remaining) =
      (if tokenLen.length = 1 ∧ length.length = 1 then .ok bs else panic) ∧
    initial.fromPacket m bs =
      .ok (initialStruct reserved version dcid scid tokenLen token length pn frames remaining) :=
  initial_populate m remaining hh hpn hres hvt hv hbs hsl

example := C50_initial_partial .debug 0 1 [7, 8] [9] [1] [0xAA] [4] [0x12, 0x34] [1, 1] [] _
  (by unfold HeaderOk; decide) (by unfold PnOk; decide) (by decide)
  ⟨0, by decide, by decide, by decide, by decide⟩ ⟨0, by decide, by decide, by decide, by decide⟩ rfl
  (by decide)

/-- **C50**, 0-RTT packets, as for Initial packets. -/
theorem C50_zero_rtt_partial (m : Mode) (reserved version : Nat)
    (dcid scid length pn frames remaining bs : Buf)
    (hh : HeaderOk version dcid scid) (hpn : PnOk pn) (hres : reserved < 4)
    (hv : Varint length (pn.length + frames.length))
    (hbs : bs = longHeader 1 reserved pn.length version dcid scid ++ length ++ pn ++ frames ++ remaining)
    (hsl : SliceLen bs.length) :
    zeroRtt.populate m (zeroes bs.length)
        (plainStruct 1 reserved version dcid scid length pn frames remaining) =
      (if length.length = 1 then .ok bs else panic) ∧
    zeroRtt.fromPacket m bs = .ok (plainStruct 1 reserved version dcid scid length pn frames remaining) :=
  plain_populate m (.inl rfl) remaining (by omega) hh hpn hres hv hbs hsl

example := C50_zero_rtt_partial .debug 0 1 [7, 8] [9] [4] [0x12, 0x34] [1, 1] [] _
  (by unfold HeaderOk; decide) (by unfold PnOk; decide) (by decide)
  ⟨0, by decide, by decide, by decide, by decide⟩ rfl (by decide)

/-- **C50**, Handshake packets, as for Initial packets. -/
theorem C50_handshake_partial (m : Mode) (reserved version : Nat)
    (dcid scid length pn frames remaining bs : Buf)
    (hh : HeaderOk version dcid scid) (hpn : PnOk pn) (hres : reserved < 4)
    (hv : Varint length (pn.length + frames.length))
    (hbs : bs = longHeader 2 reserved pn.length version dcid scid ++ length ++ pn ++ frames ++ remaining)
    (hsl : SliceLen bs.length) :
    handshake.populate m (zeroes bs.length)
        (plainStruct 2 reserved version dcid scid length pn frames remaining) =
      (if length.length = 1 then .ok bs else panic) ∧
    handshake.fromPacket m bs = .ok (plainStruct 2 reserved version dcid scid length pn frames remaining) :=
  plain_populate m (.inr rfl) remaining (by omega) hh hpn hres hv hbs hsl

/-- A Length field of two bytes: `populate` panics. -/
example := C50_handshake_partial .debug 0 1 [7, 8] [9] [0x40, 4] [0x12, 0x34] [1, 1] [] _
  (by unfold HeaderOk; decide) (by unfold PnOk; decide) (by decide)
  ⟨1, by decide, by decide, by decide, by decide⟩ rfl (by decide)

/-- **C50**, Retry packets. -/
theorem C50_retry (m : Mode) (unused version : Nat) (dcid scid token bs : Buf)
    (hh : HeaderOk version dcid scid) (hun : unused < 16)
    (hbs : bs = [UInt8.ofNat (0xF0 + unused)] ++ beBytes 4 version ++
          [UInt8.ofNat dcid.length] ++ dcid ++ [UInt8.ofNat scid.length] ++ scid ++ token)
    (hsl : SliceLen bs.length) :
    retry.populate m (zeroes bs.length) (retryStruct unused version dcid scid token) = .ok bs ∧
    retry.fromPacket m bs = .ok (retryStruct unused version dcid scid token) :=
  retry_populate m hh hun hbs hsl

example := C50_retry .debug 3 1 [7, 8] [9] [1, 2, 3] _ (by unfold HeaderOk; decide) (by decide) rfl
  (by decide)

/-- **C50**, Version Negotiation packets. -/
theorem C50_version_negotiation (m : Mode) (unused : Nat) (dcid scid versions bs : Buf)
    (hd : dcid.length < 256) (hs : scid.length < 256) (hun : unused < 128)
    (hbs : bs = [UInt8.ofNat (0x80 + unused)] ++ [0, 0, 0, 0] ++
          [UInt8.ofNat dcid.length] ++ dcid ++ [UInt8.ofNat scid.length] ++ scid ++ versions)
    (hsl : SliceLen bs.length) :
    versionNegotiation.populate m (zeroes bs.length)
      (versionNegotiationStruct unused dcid scid versions) = .ok bs ∧
    versionNegotiation.fromPacket m bs = .ok (versionNegotiationStruct unused dcid scid versions) :=
  vn_populate m hd hs hun hbs hsl

example := C50_version_negotiation .debug 3 [7, 8] [9] [0, 0, 0, 1] _ (by decide) (by decide) (by decide)
  rfl (by decide)

/-- **C50**, 1-RTT packets. The five bits after the fixed bit are spin bit, reserved bits and key
phase. -/
theorem C50_one_rtt (m : Mode) (spin reserved key : Nat) (dcid pn frames bs : Buf)
    (hd : dcid.length = 8) (hpn : PnOk pn) (h1 : spin < 2) (h2 : reserved < 4) (h3 : key < 2)
    (hbs : bs = [UInt8.ofNat (0x40 + 4 * (8 * spin + 2 * reserved + key) + (pn.length - 1))] ++ dcid ++ pn ++
      frames)
    (hsl : SliceLen bs.length) :
    oneRtt.populate m (zeroes bs.length) (oneRttStruct spin reserved key dcid pn frames) = .ok bs ∧
    oneRtt.fromPacket m bs = .ok (oneRttStruct spin reserved key dcid pn frames) :=
  oneRtt_populate m hd hpn h1 h2 h3 hbs hsl

/-- The hypotheses of `C50_initial_partial` hold of an Initial packet with a token and two frame bytes. -/
example : HeaderOk 1 [7, 8] [9] ∧ PnOk [0x12, 0x34] ∧ Varint [1] [0xAA].length ∧
    Varint [4] ([0x12, 0x34].length + [1, 1].length) ∧
    [0xC1, 0, 0, 0, 1, 2, 7, 8, 1, 9, 1, 0xAA, 4, 0x12, 0x34, 1, 1] =
      longHeader 0 0 2 1 [7, 8] [9] ++ [1] ++ [0xAA] ++ [4] ++ [0x12, 0x34] ++ [1, 1] ++ [] :=
  ⟨⟨by decide, by decide, by decide, by decide⟩, ⟨by decide, by decide⟩,
    ⟨0, by decide, by decide, by decide, by decide⟩, ⟨0, by decide, by decide, by decide, by decide⟩,
    by decide⟩

/-- The model on that packet. -/
example : initial.populate .debug (zeroes 17)
      (initialStruct 0 1 [7, 8] [9] [1] [0xAA] [4] [0x12, 0x34] [1, 1] []) =
    .ok [0xC1, 0, 0, 0, 1, 2, 7, 8, 1, 9, 1, 0xAA, 4, 0x12, 0x34, 1, 1] := by decide +kernel

/-- The hypotheses of the other theorems hold of small packets. -/
example : HeaderOk 1 [7] [] ∧ PnOk [1] ∧ Varint [2] ([1].length + [6].length) ∧
    ([1, 2, 3, 4, 5, 6, 7, 8] : Buf).length = 8 :=
  ⟨⟨by decide, by decide, by decide, by decide⟩, ⟨by decide, by decide⟩,
    ⟨0, by decide, by decide, by decide, by decide⟩, rfl⟩

end Verif.Props
