import Verif.Props.QuicRewrite
import Verif.Props.ModesMore

/-! # Setting fields of QUIC packets whose Length covers the packet number, release builds -/

set_option autoImplicit false

namespace Verif.Props
open Spec Spec.Quic

/-- **C105** in a release build, for an initial, 0-RTT or handshake packet whose Length is at least the
size of the packet number (field `pos` is the Length): setting a field of bytes leaves all other fields
and the size as they were, and the Length still covers the packet number. -/
theorem C105_covered_partial (q : QuicKind) (hq : LongHeader q.decl) (pos : Nat)
    (hpos : (q.decl.fields[pos]?).map (·.name) = some "length") (buf new : Buf)
    (hc : LengthCovers q.decl pos buf) (k : Nat) (f : Field) (old bs : Buf)
    (hsl : SliceLen buf.length) (hf : q.decl.fields[k]? = some f) (hsome : f.len.isSome = true)
    (hname : f.name ∈ byteFields) (hg : q.decl.get .release buf k = .ok (bytesOf old))
    (hset : q.decl.set .release buf k (bytesOf bs) = .ok new) :
    (∀ j, j ≠ k → q.decl.get .release new j = q.decl.get .release buf j) ∧
    q.decl.packetSize .release new = q.decl.packetSize .release buf ∧ LengthCovers q.decl pos new := by
  have hl := long_of hq
  obtain rfl := pos_of hl hpos
  have hd : QuicType q.decl := .inl ⟨q, rfl⟩
  have hfit := long_fits q hl hsl hc
  obtain ⟨-, -, -, -, hlen, -⟩ := C20_quic _ hd .release buf new k f _ hsl hf hsome hset
  have hsl' : SliceLen new.length := by rw [hlen]; exact hsl
  rw [← hfit.get hsl] at hg
  rw [← hfit.set hsl] at hset
  obtain ⟨ho, hsz⟩ := C105_bytes_partial _ hd .debug (.inl rfl) buf new k f old bs hsl hf hsome hname hg hset
  obtain ⟨h0, h1, -, -⟩ := long_at q hl
  have hk : k ≠ q.lengthPos := by
    rintro rfl
    rw [h0] at hf
    cases hf
    exact absurd hname (by decide)
  have hnew : LengthCovers q.decl q.lengthPos new := by
    intro l v p h2 hv h3
    rw [← (long_front q hl hsl' (by omega)).2.1] at h2 h3
    rw [raw_of_get h0 rfl (ho _ hk.symm), hfit.getRaw hsl] at h2
    by_cases hk1 : q.lengthPos + 1 = k
    · subst hk1
      have hle := (C103_returns _ hd .debug buf _ f old bs hsl hf hsome hg).mp ⟨new, hset⟩
      have hb := (C103_bytes _ hd .debug buf new _ f old bs hsl hf hsome hname hg hset).1
      rw [get_bytes_raw h1 rfl] at hg hb
      rw [h3] at hb
      cases hr : q.decl.getRaw .debug buf (q.lengthPos + 1) with
      | error e => rw [hr] at hg; cases hg
      | ok r =>
        rw [hr, ok_map] at hg
        rw [ok_map] at hb
        have e1 := congrArg List.length (Val.nums.inj (Except.ok.inj hg))
        have e2 := congrArg List.length (Val.nums.inj (Except.ok.inj hb))
        simp only [List.length_map, List.length_append, List.length_drop] at e1 e2
        have := hc l v r h2 hv (by rw [← hfit.getRaw hsl]; exact hr)
        omega
    · rw [raw_of_get h1 rfl (ho _ hk1), hfit.getRaw hsl] at h3
      exact hc l v p h2 hv h3
  have hfit' := long_fits q hl hsl' hnew
  refine ⟨fun j hj => ?_, ?_, hnew⟩
  · rw [← hfit'.get hsl', ← hfit.get hsl]
    exact ho j hj
  · rw [← hfit'.packetSize hsl', ← hfit.packetSize hsl]
    exact hsz

theorem shortInitial_covers : LengthCovers Verif.initial 12 shortInitial := by
  intro l v p hl hv hp
  have h1 : Verif.initial.getRaw .release shortInitial 12 = .ok [3] := by decide +kernel
  have h2 : Verif.initial.getRaw .release shortInitial 13 = .ok [7] := by decide +kernel
  rw [h1] at hl
  rw [h2] at hp
  cases hl
  cases hp
  obtain ⟨q, hq, h3, h4, h5⟩ := hv
  match q, hq with
  | 0, _ =>
    simp [beNat] at h5
    simp
    omega
  | 1, _ => simp at h3
  | 2, _ => simp at h3
  | 3, _ => simp at h3

example : Verif.initial.get .release [0xC0, 0, 0, 0, 1, 0, 0, 0, 3, 8, 1, 1] 14 =
    Verif.initial.get .release shortInitial 14 :=
  (C105_covered_partial .initial (.inl rfl) 12 rfl shortInitial [0xC0, 0, 0, 0, 1, 0, 0, 0, 3, 8, 1, 1]
    shortInitial_covers 13 (fbytes "packet_number" (lenPn 4)) [7] [8] (by unfold SliceLen; decide) rfl rfl (by decide)
    (by decide +kernel) (by decide +kernel)).1 14 (by decide)

/-- **C106** in a release build, for a first packet whose Length is at least the size of the packet
number: after a field of bytes of it was set, the datagram is parsed into a packet of the same kind and
the same packets behind it. -/
theorem C106_covered_partial (buf new : Buf) (p : QuicPacket) (ps : List QuicPacket) (hq : LongHeader p.kind.decl)
    (pos : Nat) (hpos : (p.kind.decl.fields[pos]?).map (·.name) = some "length")
    (hc : LengthCovers p.kind.decl pos buf) (k : Nat) (f : Field) (old bs : Buf) (hsl : SliceLen buf.length)
    (hnew : QuicPacket.new .release buf = .ok (some (p :: ps)))
    (hf : p.kind.decl.fields[k]? = some f) (hsome : f.len.isSome = true) (hname : f.name ∈ byteFields)
    (hg : p.kind.decl.get .release buf k = .ok (bytesOf old))
    (hset : p.kind.decl.set .release buf k (bytesOf bs) = .ok new) :
    QuicPacket.new .release new = .ok (some (⟨p.kind, new⟩ :: ps)) :=
  packets_again hnew hf hsome (C20_quic _ (.inl ⟨p.kind, rfl⟩) .release buf new k f _ hsl hf hsome hset)
    (C105_covered_partial p.kind hq pos hpos buf new hc k f old bs hsl hf hsome hname hg hset).1

example : QuicPacket.new .release ([0xC0, 0, 0, 0, 1, 0, 0, 0, 3, 8, 1, 1]) =
    .ok (some [⟨.initial, [0xC0, 0, 0, 0, 1, 0, 0, 0, 3, 8, 1, 1]⟩]) :=
  C106_covered_partial shortInitial _ ⟨.initial, shortInitial⟩ [] (.inl rfl) 12 rfl shortInitial_covers 13
    (fbytes "packet_number" (lenPn 4)) [7] [8] (by unfold SliceLen; decide) (by decide +kernel) rfl rfl (by decide)
    (by decide +kernel) (by decide +kernel)

end Verif.Props
