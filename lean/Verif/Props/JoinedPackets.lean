import Verif.Spec.JoinedPackets
import Verif.Props.Trailing

/-!
# C130: iterating over packets behind each other

`Complete`, `packetStarts` and `valuesThen` are in `Spec/JoinedPackets`.
-/

set_option autoImplicit false

namespace Verif.Props
open Verif Verif.Spec

/-- More fuel than bytes makes no difference. -/
theorem collect_fuel {c : Codec} {m : Mode} (fuel : Nat) (buf : Buf) (h : buf.length ≤ fuel) :
    c.collect m fuel buf = c.collect m buf.length buf := by
  induction fuel using Nat.strongRecOn generalizing buf with
  | ind fuel ih =>
    cases fuel with
    | zero => rw [Nat.le_zero.mp h]
    | succ fuel =>
      cases hb : buf.length with
      | zero => simp only [Codec.collect]; rw [next_eq, if_neg (by omega)]; rfl
      | succ n =>
        rw [Codec.collect, Codec.collect]
        cases hnx : c.next m buf with
        | error e => rfl
        | ok o =>
          cases o with
          | none => rfl
          | some pr =>
            obtain ⟨p, rest⟩ := pr
            simp only [ok_bind]
            cases c.fromPacket m p with
            | error e => rfl
            | ok v =>
              simp only [ok_bind]
              split
              · rename_i hlt
                rw [ih fuel (by omega) rest (by omega), ← ih n (by omega) rest (by omega)]
              · rfl

theorem next_complete {d : Decl} {m : Mode} {p rest : Buf} (hp : Complete d m p)
    (hs : d.packetSize m (p ++ rest) = d.packetSize m p) : d.codec.next m (p ++ rest) = .ok (some (p ++ rest, rest)) := by
  obtain ⟨h1, h2, h3⟩ := hp
  have hpos := List.length_pos_iff.mpr h1
  unfold Codec.next
  rw [if_pos (by rw [List.length_append]; exact ⟨by omega, Nat.le_trans h2 (by omega)⟩)]
  change (d.packetSize m (p ++ rest) >>= _) = _
  rw [hs, h3]
  simp only [ok_bind, List.length_append]
  rw [Nat.min_eq_left (by omega)]
  simp only [sliceFrom, List.length_append, Nat.le_add_right, ite_true, List.drop_left, ok_bind]

/-- The two iterations for any struct whose reads depend only on its own bytes. -/
theorem joined_iter {d : Decl} {m : Mode} (b : Buf) (ps : List Buf) (hps : ∀ p ∈ ps, Complete d m p)
    (hsame : ∀ p ∈ ps, ∀ rest, SliceLen (p ++ rest).length → SameReads d m (p ++ rest) p)
    (hsl : SliceLen (ps.flatten ++ b).length) :
    d.codec.items m (ps.flatten ++ b).length (ps.flatten ++ b) =
        (packetStarts ps b ++ ·) <$> d.codec.items m b.length b ∧
      d.codec.collect m (ps.flatten ++ b).length (ps.flatten ++ b) =
        valuesThen (d.fromPacket m) ps (d.codec.collect m b.length b) := by
  induction ps with
  | nil =>
    refine ⟨?_, rfl⟩
    simp only [List.flatten_nil, List.nil_append, packetStarts]
    cases d.codec.items m b.length b <;> rfl
  | cons p ps ih =>
    rw [List.flatten_cons, List.append_assoc] at hsl ⊢
    generalize hr : ps.flatten ++ b = rest at hsl
    have hp := hps p List.mem_cons_self
    have hs := hsame p List.mem_cons_self rest hsl
    have hnx := next_complete hp hs.1
    have hpos := List.length_pos_iff.mpr hp.1
    have hslr : SliceLen rest.length := by
      unfold SliceLen at *; rw [List.length_append] at hsl; omega
    obtain ⟨i1, i2⟩ := ih (fun q hq => hps q (List.mem_cons_of_mem _ hq))
      (fun q hq => hsame q (List.mem_cons_of_mem _ hq)) (by rw [hr]; exact hslr)
    rw [hr] at i1 i2
    obtain ⟨n, hn⟩ : ∃ n, (p ++ rest).length = n + 1 := ⟨(p ++ rest).length - 1, by rw [List.length_append]; omega⟩
    have hlt : rest.length < (p ++ rest).length := by rw [List.length_append]; omega
    have hle : rest.length ≤ n := by omega
    constructor
    · rw [hn, Codec.items, hnx]
      simp only [ok_bind]
      rw [if_pos hlt, items_fuel n rest hle, i1, packetStarts, hr]
      cases d.codec.items m b.length b <;> rfl
    · rw [hn, Codec.collect, hnx]
      simp only [ok_bind]
      change (d.fromPacket m (p ++ rest) >>= _) = _
      rw [hs.2.1, valuesThen]
      cases d.fromPacket m p with
      | error e => rfl
      | ok v =>
        simp only [ok_bind]
        rw [if_pos hlt, collect_fuel n rest hle, i2]

/-- **C130** for any struct the macro accepts, with the conditions of C81: iterating over complete packets
behind each other and before other bytes yields each of them and then what these bytes yield; collecting gives
the values of the packets alone and then those of the other bytes. -/
theorem C130_declared (d : Decl) (m : Mode) (hreg : regular d = true)
    (hclosed : closed d = true) (hloc : localLens d.fields)
    (hpay : ∀ f ∈ d.fields, f.payload = true → f.len.isSome = true)
    (hbytes : fixedBits d.fields % 8 = 0) (hnw : NoWrap m d) (ps : List Buf) (b : Buf)
    (hps : ∀ p ∈ ps, Complete d m p) (hsl : SliceLen (ps.flatten ++ b).length) :
    d.codec.items m (ps.flatten ++ b).length (ps.flatten ++ b) =
        (packetStarts ps b ++ ·) <$> d.codec.items m b.length b ∧
      d.codec.collect m (ps.flatten ++ b).length (ps.flatten ++ b) =
        valuesThen (d.fromPacket m) ps (d.codec.collect m b.length b) :=
  joined_iter b ps hps (fun p hp rest hs =>
    C81_declared_lengths_partial d m hreg hclosed hloc hpay hbytes hnw p (p ++ rest) p.length
      (by unfold SliceLen at *; rw [List.length_append] at hs; omega) (hps p hp).2.2 (Nat.le_refl _)
      (by rw [List.length_append]; omega) (by rw [List.take_left, List.take_length])) hsl

/-- **C130** for the packet types of the crate with declared lengths, which include all that are elements of
a vector, in every build. -/
theorem C130_crate (m : Mode) (d : Decl) (hd : d ∈ sizedDecls) (ps : List Buf) (b : Buf)
    (hps : ∀ p ∈ ps, Complete d m p) (hsl : SliceLen (ps.flatten ++ b).length) :
    d.codec.items m (ps.flatten ++ b).length (ps.flatten ++ b) =
        (packetStarts ps b ++ ·) <$> d.codec.items m b.length b ∧
      d.codec.collect m (ps.flatten ++ b).length (ps.flatten ++ b) =
        valuesThen (d.fromPacket m) ps (d.codec.collect m b.length b) :=
  joined_iter b ps hps (fun p hp rest hs =>
    C81_crate_partial m d hd p (p ++ rest) p.length
      (by unfold SliceLen at *; rw [List.length_append] at hs; omega) (hps p hp).2.2 (Nat.le_refl _)
      (by rw [List.length_append]; omega) (by rw [List.take_left, List.take_length])) hsl

/-- An MSS option, a window scale option, and a truncated option behind them. -/
example : tcpOption.codec.items .debug 9 [2, 4, 5, 180, 3, 3, 7, 8, 10] =
    .ok [[2, 4, 5, 180, 3, 3, 7, 8, 10], [3, 3, 7, 8, 10], [8, 10]] :=
  (C130_crate .debug tcpOption (by simp [sizedDecls]) [[2, 4, 5, 180], [3, 3, 7]] [8, 10]
    (by
      intro p hp
      rcases List.mem_cons.mp hp with rfl | hp
      · exact ⟨by decide, by decide, by decide⟩
      · rw [List.mem_singleton.mp hp]; exact ⟨by decide, by decide, by decide⟩)
    (by unfold SliceLen; decide)).1.trans (by decide +kernel)

example := C130_declared ndpOption .release (by decide) (by decide) (crateDecls_good ndpOption (by simp [crateDecls])).local
  (by simp [ndpOption, fprim, fpayload, fmisc]) (by decide)
  ((crateDecls_good ndpOption (by simp [crateDecls])).noWrap .release) [[1, 1, 2, 3, 4, 5, 6, 7]] [0] (by
    intro p hp
    rw [List.mem_singleton.mp hp]; exact ⟨by decide, by decide, by decide +kernel⟩) (by unfold SliceLen; decide)

/-- **C130** for the getter of a vector of packets: it returns the values of the packets in its bytes. -/
theorem C130_getter (m : Mode) (D d : Decl) (hd : d ∈ sizedDecls) (k : Nat) (f : Field) (buf : Buf) (ps : List Buf)
    (b : Buf) (hf : D.fields[k]? = some f) (hty : f.ty = .vecPkt d.codec) (hsl : SliceLen (ps.flatten ++ b).length)
    (hraw : D.getRaw m buf k = .ok (ps.flatten ++ b)) (hps : ∀ p ∈ ps, Complete d m p) :
    D.get m buf k = .list <$> valuesThen (d.fromPacket m) ps (d.codec.collect m b.length b) := by
  rw [← (C130_crate m d hd ps b hps hsl).2]
  unfold Decl.getRaw at hraw
  unfold Decl.get
  rw [hf] at hraw ⊢
  simp only at hraw ⊢
  rw [hty]
  unfold getField
  simp only
  rw [hraw]
  rfl

/-- The options of a TCP header with a NOP, an MSS option, and padding. -/
example : tcp.get .debug ([0, 80, 0, 80, 0, 0, 0, 1, 0, 0, 0, 2, 0x70, 0, 0, 0, 0, 0, 0, 0] ++ [1, 2, 4, 5, 180, 0, 0, 0]) 10 =
    .list <$> valuesThen (tcpOption.fromPacket .debug) [[1], [2, 4, 5, 180]] (tcpOption.codec.collect .debug 3 [0, 0, 0]) :=
  C130_getter .debug tcp tcpOption (by simp [sizedDecls]) 10
    { name := "options", ty := .vecPkt tcpOption.codec, len := some (lenNum 4 tcpOptionsLength) } _ [[1], [2, 4, 5, 180]] [0, 0, 0]
    rfl rfl (by unfold SliceLen; decide) (by decide +kernel) (by
      intro p hp
      rcases List.mem_cons.mp hp with rfl | hp
      · exact ⟨by decide, by decide, by decide⟩
      · rw [List.mem_singleton.mp hp]; exact ⟨by decide, by decide, by decide⟩)

end Verif.Props
