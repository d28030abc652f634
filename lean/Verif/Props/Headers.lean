import Verif.Props.Payloads
import Verif.Proofs.Headers

/-! # IPv6 extension headers, NDP options, GRE (C33-C37) -/

namespace Verif.Props
open Spec

/-! ## C33, C34 -/

/-- **C33**: what the two readers of a fragment header return: the 16-bit field without its low two
bits, and whether the last bit (more fragments) is clear. -/
theorem C33_readers (m : Mode) (buf : Buf) (h : 8 ≤ buf.length) :
    getFragmentOffset m buf = .ok (bitsAt buf 16 16 - bitsAt buf 16 16 % 4) ∧
    isLastFragment m buf = .ok (decide (bitsAt buf 31 1 = 0)) := by
  have hlt := bitsAt_lt buf 16 16
  have hs := bitsAt_split buf 16 15 1 (by omega)
  have hl := bitsAt_lt buf 31 1
  simp only [Nat.reduceAdd, Nat.reducePow] at hs
  refine ⟨?_, ?_⟩
  · rw [getFragmentOffset, fragment_raw m buf h, ok_bind]
    exact congrArg _ (and_fffc hlt)
  · rw [isLastFragment, fragment_raw m buf h, ok_bind]
    congr 1
    rw [show fragmentFlagsMore = 1 from rfl, and_one, show bitsAt buf 16 16 % 2 = bitsAt buf 31 1 by omega]
    rfl

example : getFragmentOffset .debug [6, 0, 0x12, 0x3B, 0, 0, 0, 1] = .ok 0x1238 ∧
    isLastFragment .debug [6, 0, 0x12, 0x3B, 0, 0, 0, 1] = .ok false :=
  C33_readers .debug [6, 0, 0x12, 0x3B, 0, 0, 0, 1] (by decide)

/-- **C33**: `set_fragment_offset(o)` makes `get_fragment_offset()` return `o` with the two flag
bits cleared; it keeps `is_last_fragment()` and every byte but the two of the field. -/
theorem C33_set_fragment_offset (m : Mode) (buf : Buf) (hsl : SliceLen buf.length)
    (h : 8 ≤ buf.length) (o : Nat) (ho : o < 2 ^ 16) :
    ∃ new, setFragmentOffset m buf o = .ok new ∧ getFragmentOffset m new = .ok (o - o % 4) ∧
      isLastFragment m new = isLastFragment m buf ∧
      new.length = buf.length ∧ new.take 2 = buf.take 2 ∧ new.drop 4 = buf.drop 4 := by
  have hlt := bitsAt_lt buf 16 16
  obtain ⟨new, h1, h2, h3, h4, h5⟩ := fragment_set m buf hsl h
    ((o - o % 4) + bitsAt buf 16 16 % 4) (by omega)
  have hn : 8 ≤ new.length := by omega
  refine ⟨new, ?_, ?_, ?_, h2, h4, h5⟩
  · rw [setFragmentOffset, fragment_raw m buf h, ok_bind, ← h1,
      show fragmentOffsetMask = 0xFFFC from rfl, show fragmentFlagsMask = 3 from rfl, and_fffc ho,
      and_three, or_low (by omega) (by omega)]
  · rw [(C33_readers m new hn).1, h3]; congr 1; omega
  · rw [isLastFragment, isLastFragment, fragment_raw m buf h, fragment_raw m new hn, h3, ok_bind, ok_bind,
      show fragmentFlagsMore = 1 from rfl, and_one, and_one]
    congr 2
    omega

example := C33_set_fragment_offset .debug [6, 0, 0, 3, 0, 0, 0, 1] (by decide) (by decide) 0x1239 (by decide)

/-- **C33**: `set_last_fragment(b)` makes `is_last_fragment()` return `b`; it keeps
`get_fragment_offset()` and every byte but the two of the field. -/
theorem C33_set_last_fragment (m : Mode) (buf : Buf) (hsl : SliceLen buf.length)
    (h : 8 ≤ buf.length) (b : Bool) :
    ∃ new, setLastFragment m buf b = .ok new ∧ isLastFragment m new = .ok b ∧
      getFragmentOffset m new = getFragmentOffset m buf ∧
      new.length = buf.length ∧ new.take 2 = buf.take 2 ∧ new.drop 4 = buf.drop 4 := by
  have hlt := bitsAt_lt buf 16 16
  have hv : (if b then bitsAt buf 16 16 &&& (0xFFFF - fragmentFlagsMore)
      else bitsAt buf 16 16 ||| fragmentFlagsMore) =
      bitsAt buf 16 16 - bitsAt buf 16 16 % 2 + (if b then 0 else 1) := by
    cases b
    · exact or_one _
    · exact and_fffe hlt
  obtain ⟨new, h1, h2, h3, h4, h5⟩ := fragment_set m buf hsl h
    (bitsAt buf 16 16 - bitsAt buf 16 16 % 2 + (if b then 0 else 1)) (by split <;> omega)
  have hn : 8 ≤ new.length := by omega
  refine ⟨new, ?_, ?_, ?_, h2, h4, h5⟩
  · rw [setLastFragment, fragment_raw m buf h, ok_bind, ← h1, hv]
  · rw [isLastFragment, fragment_raw m new hn, h3, ok_bind, show fragmentFlagsMore = 1 from rfl, and_one]
    congr 1
    cases b <;> simp <;> omega
  · rw [(C33_readers m new hn).1, (C33_readers m buf h).1, h3]
    congr 1
    split <;> omega

example : setFragmentOffset .debug [6, 0, 0, 3, 0, 0, 0, 1] 0x1239 = .ok [6, 0, 0x12, 0x3B, 0, 0, 0, 1] ∧
    setLastFragment .debug [6, 0, 0, 3, 0, 0, 0, 1] true = .ok [6, 0, 0, 2, 0, 0, 0, 1] := by
  decide +kernel

/-- **C34**, full claim (RFC 8200 section 4.5: offset in 8-byte units, two reserved bits, M flag). -/
def C34_statement : Prop := ∀ (m : Mode) (buf : Buf), 8 ≤ buf.length →
  getFragmentOffset m buf = .ok (8 * bitsAt buf 16 13)

/-- C34 is false: the mask keeps the first reserved bit. -/
theorem C34_false : ¬ C34_statement := by
  intro h
  have := h .debug [6, 0, 0, 4, 0, 0, 0, 1] (by decide)
  revert this; decide +kernel

/-- **C34**, exactly: the offset in bytes, plus 4 if the first reserved bit is set. -/
theorem C34_exact (m : Mode) (buf : Buf) (h : 8 ≤ buf.length) :
    getFragmentOffset m buf = .ok (8 * bitsAt buf 16 13 + 4 * bitsAt buf 29 1) := by
  have hs := bitsAt_split buf 16 13 3 (by omega)
  have hs2 := bitsAt_split buf 29 1 2 (by omega)
  have hl := bitsAt_lt buf 30 2
  simp only [Nat.reduceAdd, Nat.reducePow] at hs hs2 hl
  rw [(C33_readers m buf h).1]
  congr 1; omega

example : getFragmentOffset .debug [6, 0, 0, 0x0F, 0, 0, 0, 1] = .ok 12 :=
  C34_exact .debug [6, 0, 0, 0x0F, 0, 0, 0, 1] (by decide)

/-- **C34** when the first reserved bit is zero. Missing: headers with that bit set. -/
theorem C34_reserved_clear_partial (m : Mode) (buf : Buf) (h : 8 ≤ buf.length)
    (hres : bitsAt buf 29 1 = 0) : getFragmentOffset m buf = .ok (8 * bitsAt buf 16 13) := by
  rw [C34_exact m buf h, hres]; rfl

example : bitsAt [6, 0, 0x12, 0x3B, 0, 0, 0, 1] 29 1 = 0 ∧ bitsAt [6, 0, 0x12, 0x3B, 0, 0, 0, 1] 16 13 = 583 := by
  decide +kernel

/-! ## C35 -/

/-- **C35**: sizes of IPv6 extension and routing headers. -/
theorem C35_sizes (m : Mode) (buf : Buf) :
    (2 ≤ buf.length → extension.packetSize m buf = .ok (8 * (bitsAt buf 8 8 + 1))) ∧
    (4 ≤ buf.length → routing.packetSize m buf = .ok (8 * (bitsAt buf 8 8 + 1))) := by
  have hlt := bitsAt_lt buf 8 8
  constructor
  · intro h
    have hg : extension.get m buf 1 = .ok (.num (bitsAt buf 8 8)) :=
      layoutOk_get (L := extensionLayout) (by decide +kernel) (k := 1) rfl m buf h
    have hl : (extension.before m buf 3).lens = [ipv6ExtensionLength (bitsAt buf 8 8)].map .ok := by
      rw [before_lens_succ (d := extension) (k := 2) rfl rfl,
        lenNum_eq (by decide) (by decide) hg, (before_fixed (d := extension) (k := 2) (by decide) m buf).2]
      rfl
    have hs : extension.bits / 8 + [ipv6ExtensionLength (bitsAt buf 8 8)].sum =
        8 * (bitsAt buf 8 8 + 1) := by
      simp only [show extension.bits = 16 from rfl, List.sum_cons, List.sum_nil, ipv6ExtensionLength]
      omega
    rw [packetSize_eq (d := extension) hl (by omega), hs]
  · intro h
    have hg : routing.get m buf 1 = .ok (.num (bitsAt buf 8 8)) :=
      layoutOk_get (L := routingLayout) (by decide +kernel) (k := 1) rfl m buf h
    have hl : (routing.before m buf 5).lens = [routingExtensionLength (bitsAt buf 8 8)].map .ok := by
      rw [before_lens_succ (d := routing) (k := 4) rfl rfl,
        lenNum_eq (by decide) (by decide) hg, (before_fixed (d := routing) (k := 4) (by decide) m buf).2]
      rfl
    have hs : routing.bits / 8 + [routingExtensionLength (bitsAt buf 8 8)].sum =
        8 * (bitsAt buf 8 8 + 1) := by
      simp only [show routing.bits = 32 from rfl, List.sum_cons, List.sum_nil, routingExtensionLength]
      omega
    rw [packetSize_eq (d := routing) hl (by omega), hs]

example : extension.packetSize .debug [17, 1] = .ok 16 := (C35_sizes .debug [17, 1]).1 (by decide)

/-- **C35**: one step of `ExtensionIterable` yields the header at the front and moves by its size
(to the end, if the buffer is shorter); with fewer than two bytes left it stops. The same for
`RoutingIterable` with four bytes. -/
theorem C35_iterator_step (m : Mode) (buf : Buf) :
    (2 ≤ buf.length → extension.codec.next m buf =
      .ok (some (buf, buf.drop (8 * (bitsAt buf 8 8 + 1))))) ∧
    (buf.length < 2 → extension.codec.next m buf = .ok none) ∧
    (4 ≤ buf.length → routing.codec.next m buf =
      .ok (some (buf, buf.drop (8 * (bitsAt buf 8 8 + 1))))) ∧
    (buf.length < 4 → routing.codec.next m buf = .ok none) := by
  have e : extension.codec.minSize = 2 := by decide
  have r : routing.codec.minSize = 4 := by decide
  refine ⟨fun h => ?_, fun h => ?_, fun h => ?_, fun h => ?_⟩ <;> rw [next_eq]
  · rw [if_pos ⟨by omega, by omega⟩, show extension.codec.packetSize = extension.packetSize from rfl,
      (C35_sizes m buf).1 h]; rfl
  · rw [if_neg (by omega)]
  · rw [if_pos ⟨by omega, by omega⟩, show routing.codec.packetSize = routing.packetSize from rfl,
      (C35_sizes m buf).2 h]; rfl
  · rw [if_neg (by omega)]

example : extension.codec.next .debug [17, 0, 1, 2, 3, 4, 5, 6, 7] =
    .ok (some ([17, 0, 1, 2, 3, 4, 5, 6, 7], [7])) :=
  (C35_iterator_step .debug [17, 0, 1, 2, 3, 4, 5, 6, 7]).1 (by decide)

/-- Where a chain of extension headers continues: every header with its own size. -/
def chain : (fuel : Nat) → Buf → List Buf
  | 0, _ => []
  | fuel + 1, buf =>
    if buf.length < 2 then [] else buf :: chain fuel (buf.drop (8 * (bitsAt buf 8 8 + 1)))

/-- **C35**: walking a whole chain with `ExtensionIterable` never panics and yields the headers of
the chain. -/
theorem C35_chain (m : Mode) (fuel : Nat) (buf : Buf) :
    extension.codec.items m fuel buf = .ok (chain fuel buf) := by
  induction fuel generalizing buf with
  | zero => rfl
  | succ fuel ih =>
    simp only [Codec.items, chain]
    by_cases h : buf.length < 2
    · rw [(C35_iterator_step m buf).2.1 h, if_pos h]; rfl
    · rw [(C35_iterator_step m buf).1 (by omega), if_neg h, ok_bind]
      simp only []
      rw [if_pos (by rw [List.length_drop]; omega), ih]
      rfl

example : chain 24 ([6, 0] ++ List.replicate 6 1 ++ [17, 1] ++ List.replicate 14 2) =
    [[6, 0] ++ List.replicate 6 1 ++ [17, 1] ++ List.replicate 14 2, [17, 1] ++ List.replicate 14 2] := by
  decide +kernel

/-! ## C36 -/

/-- **C36**, full claim. -/
def C36_statement : Prop := ∀ (m : Mode) (buf : Buf), 2 ≤ buf.length → 1 ≤ bitsAt buf 8 8 →
  ndpOption.packetSize m buf = .ok (8 * bitsAt buf 8 8) ∧ ∃ v, ndpOption.fromPacket m buf = .ok v

/-- C36 is false: with length 32, debug builds panic and release builds compute size 2. -/
theorem C36_false : ¬ C36_statement ∧
    ndpOption.packetSize .debug [1, 32] = panic ∧ ndpOption.packetSize .release [1, 32] = .ok 2 := by
  refine ⟨fun h => ?_, by decide, by decide⟩
  have := (h .debug [1, 32] (by decide) (by decide)).1
  revert this; decide

/-- **C36**, exactly: for every length byte, in both build modes. -/
theorem C36_exact (m : Mode) (buf : Buf) (h : 2 ≤ buf.length) :
    (bitsAt buf 8 8 < 32 → ndpOption.packetSize m buf = .ok (max 2 (8 * bitsAt buf 8 8))) ∧
    (32 ≤ bitsAt buf 8 8 → m = .debug → ndpOption.packetSize m buf = panic) ∧
    (32 ≤ bitsAt buf 8 8 → m = .release →
      ndpOption.packetSize m buf = .ok (max 2 (8 * bitsAt buf 8 8 % 256))) := by
  have hlt := bitsAt_lt buf 8 8
  have hl : (ndpOption.before m buf 3).lens = [ndpOptionDataLength m (bitsAt buf 8 8)] := by
    rw [before_lens_succ (d := ndpOption) (k := 2) rfl rfl, ndp_len m buf h rfl,
      (before_fixed (d := ndpOption) (k := 2) (by decide) m buf).2]
    rfl
  have ok : ∀ n, ndpOptionDataLength m (bitsAt buf 8 8) = .ok n → n < 2 ^ 63 →
      ndpOption.packetSize m buf = .ok (2 + n) := by
    intro n hn hb
    rw [hn] at hl
    have := packetSize_eq (d := ndpOption) (m := m) (buf := buf) (sizes := [n]) hl
      (by simp only [show ndpOption.bits = 16 from rfl, List.sum_cons, List.sum_nil]; omega)
    rw [this]; rfl
  refine ⟨fun h32 => ?_, fun h32 hm => ?_, fun h32 hm => ?_⟩
  · rw [ok (bitsAt buf 8 8 * 8 - 2) (by unfold ndpOptionDataLength; rw [if_pos (by omega)]) (by omega)]
    congr 1; omega
  · subst hm
    have hp : ndpOptionDataLength .debug (bitsAt buf 8 8) = panic := by
      unfold ndpOptionDataLength; rw [if_neg (by omega)]
    rw [hp] at hl
    rw [Decl.packetSize, final_eq_before, show ndpOption.fields.length = 3 from rfl, hl]
    rfl
  · subst hm
    rw [ok (bitsAt buf 8 8 * 8 % 256 - 2)
      (by unfold ndpOptionDataLength; rw [if_neg (by omega)]) (by omega)]
    congr 1; omega

example : ndpOption.packetSize .release [1, 40] = .ok 64 :=
  (C36_exact .release [1, 40] (by decide)).2.2 (by decide) rfl

/-- **C36** for lengths 1 to 31: the size is `8 * length`, and reading the option returns its type,
length, and the data after its two-byte header, cut at the end of the buffer. Missing: lengths 32 to
255 (`C36_false`). -/
theorem C36_short_options_partial (m : Mode) (buf : Buf) (h : 2 ≤ buf.length)
    (h1 : 1 ≤ bitsAt buf 8 8) (h32 : bitsAt buf 8 8 < 32) :
    ndpOption.packetSize m buf = .ok (8 * bitsAt buf 8 8) ∧
    ndpOption.payload m buf = .ok ((buf.drop 2).take (8 * bitsAt buf 8 8 - 2)) ∧
    ndpOption.fromPacket m buf = .ok (.list [.nums [bitsAt buf 0 8], .num (bitsAt buf 8 8),
      .nums (((buf.drop 2).take (8 * bitsAt buf 8 8 - 2)).map (·.toNat))]) := by
  have hlen : ndpOptionDataLength m (bitsAt buf 8 8) = .ok (8 * bitsAt buf 8 8 - 2) := by
    unfold ndpOptionDataLength; rw [if_pos (by omega), Nat.mul_comm]
  have hb : bitsSum (ndpOption.fields.take 2) = 16 := rfl
  refine ⟨?_, ?_, ?_⟩
  · rw [(C36_exact m buf h).1 h32]; congr 1; omega
  · exact payload_fixed (d := ndpOption) (k := 2) rfl rfl rfl
      (by rw [fieldLen]; exact (ndp_len m buf h rfl).trans hlen) (by rw [hb]; omega)
  · have hraw : ndpOption.getRaw m buf 2 = .ok ((buf.drop 2).take (8 * bitsAt buf 8 8 - 2)) :=
      getRaw_fixed (d := ndpOption) (k := 2) rfl rfl
        (by rw [fieldLen]; exact (ndp_len m buf h rfl).trans hlen) h (by rw [hb]; omega)
    have h2 : ndpOption.get m buf 2 = .ok (.nums (((buf.drop 2).take (8 * bitsAt buf 8 8 - 2)).map (·.toNat))) := by
      rw [bytes_get (d := ndpOption) (k := 2) rfl rfl, hraw]; rfl
    have h0 : ndpOption.get m buf 0 = .ok (.nums [bitsAt buf 0 8]) :=
      layoutOk_get (L := ndpOptionLayout) (by decide +kernel) (k := 0) rfl m buf h
    have h1 : ndpOption.get m buf 1 = .ok (.num (bitsAt buf 8 8)) :=
      layoutOk_get (L := ndpOptionLayout) (by decide +kernel) (k := 1) rfl m buf h
    rw [fromPacket_mapM]
    simp only [show List.range ndpOption.fields.length = [0, 1, 2] from rfl, List.map_cons,
      List.map_nil, h0, h1, h2]
    rfl

example : ndpOption.fromPacket .debug [1, 1, 2, 3, 4, 5, 6, 7, 8, 9] =
    .ok (.list [.nums [1], .num 1, .nums [2, 3, 4, 5, 6, 7]]) := by decide +kernel

/-! ## C37 -/

/-- An optional integer of a GRE packet, as the one-element (or empty) vector of the struct. -/
def greUnit (present value : Nat) : Val :=
  .list (if present = 1 then [.list [.num value, .nums []]] else [])

/-- **C37**. For a GRE packet with routing bit 0 whose buffer holds the announced fields
(RFC 2890: checksum and reserved 16-bit words if C, 32-bit key if K, 32-bit sequence number if S, in
this order after the first four bytes), every accessor returns the field at its RFC position. -/
theorem C37_gre_positions (m : Mode) (buf : Buf) (hsl : SliceLen buf.length) (c k s : Nat)
    (hc : bitsAt buf 0 1 = c) (hr : bitsAt buf 1 1 = 0) (hk : bitsAt buf 2 1 = k)
    (hs : bitsAt buf 3 1 = s) (hlen : 4 + 4 * c + 4 * k + 4 * s ≤ buf.length) :
    gre.get m buf 9 = .ok (greUnit c (bitsAt buf 32 16)) ∧
    gre.get m buf 10 = .ok (greUnit c (bitsAt buf 48 16)) ∧
    gre.get m buf 11 = .ok (greUnit k (bitsAt buf (32 + 32 * c) 32)) ∧
    gre.get m buf 12 = .ok (greUnit s (bitsAt buf (32 + 32 * c + 32 * k) 32)) ∧
    gre.get m buf 13 = .ok (.nums []) ∧
    gre.get m buf 14 = .ok (.nums ((buf.drop (4 + 4 * c + 4 * k + 4 * s)).map (·.toNat))) ∧
    gre.payload m buf = .ok (buf.drop (4 + 4 * c + 4 * k + 4 * s)) ∧
    gre.packetSize m buf = .ok (4 + 4 * c + 4 * k + 4 * s) ∧
    ∃ v, gre.fromPacket m buf = .ok v := by
  obtain ⟨l9, l10, l11, l12, l13, l14, l15, e9, e10, e11, e12, e13⟩ := gre_lens m buf (by omega) hr
  have c2 := bitsAt_lt buf 0 1
  have k2 := bitsAt_lt buf 2 1
  have s2 := bitsAt_lt buf 3 1
  simp only [hc, hk, hs] at *
  simp only [Nat.pow_one] at c2 k2 s2
  unfold SliceLen at hsl
  have bs : ∀ j, 9 ≤ j → j ≤ 15 → bitsSum (gre.fields.take j) = 32 := by
    intro j h1 h2
    match j, h1, h2 with
    | 9, _, _ | 10, _, _ | 11, _, _ | 12, _, _ | 13, _, _ | 14, _, _ | 15, _, _ => rfl
  have raw : ∀ (j : Nat) (f : Field) (sizes : List Nat) (len a : Nat), 9 ≤ j → j ≤ 15 →
      gre.fields[j]? = some f →
      (gre.before m buf j).lens = sizes.map .ok → fieldLen m buf (gre.before m buf j) f = .ok len →
      4 + sizes.sum = a → a ≤ buf.length → len < 2 ^ 63 →
      gre.getRaw m buf j = .ok ((buf.drop a).take len) := by
    intro j f sizes len a h9 h15 hf hsz hle hsum ha hl
    have := (getRaw_eq (d := gre) hf hsz hle (by rw [bs j h9 h15]; omega)).1
      (by rw [bs j h9 h15]; omega)
    rw [this, bs j h9 h15, ← hsum]
  have r9 := raw 9 _ [] (2 * c) 4 (by omega) (by omega) rfl l9 (by rw [fieldLen]; exact e9) rfl
    (by omega) (by omega)
  have r10 := raw 10 _ [2 * c] (2 * c) (4 + 2 * c) (by omega) (by omega) rfl l10
    (by rw [fieldLen]; exact e10) (by simp) (by omega) (by omega)
  have r11 := raw 11 _ _ (4 * k) (4 + 4 * c) (by omega) (by omega) rfl l11
    (by rw [fieldLen]; exact e11) (by simp; omega) (by omega) (by omega)
  have r12 := raw 12 _ _ (4 * s) (4 + 4 * c + 4 * k) (by omega) (by omega) rfl l12
    (by rw [fieldLen]; exact e12) (by simp; omega) (by omega) (by omega)
  have r13 := raw 13 _ _ 0 (4 + 4 * c + 4 * k + 4 * s) (by omega) (by omega) rfl l13
    (by rw [fieldLen]; exact e13) (by simp; omega) (by omega) (by omega)
  have r14 := raw 14 _ _ buf.length (4 + 4 * c + 4 * k + 4 * s) (by omega) (by omega) rfl l14
    (by rw [fieldLen]; rfl) (by simp; omega) (by omega) (by omega)
  rw [List.take_of_length_le (by rw [List.length_drop]; omega)] at r14
  -- a vector of 16-bit units
  have unit16 : ∀ (j a : Nat), gre.getRaw m buf j = .ok ((buf.drop a).take (2 * c)) →
      (gre.fields[j]?).map (·.ty) = some (.vecPkt u16BE.codec) → a + 2 * c ≤ buf.length →
      gre.get m buf j = .ok (greUnit c (bitsAt buf (8 * a) 16)) := by
    intro j a hj hty ha
    obtain ⟨f, hf, hty⟩ := Option.map_eq_some_iff.mp hty
    rw [pkt_get hf hty, hj, ok_bind]
    rcases (show c = 0 ∨ c = 1 by omega) with rfl | rfl
    · rfl
    · rw [u16BE_collect m _ (by simp; omega), bitsAt_slice buf a 2]; rfl
  have unit32 : ∀ (j a p : Nat), p < 2 → gre.getRaw m buf j = .ok ((buf.drop a).take (4 * p)) →
      (gre.fields[j]?).map (·.ty) = some (.vecPkt u32BE.codec) → a + 4 * p ≤ buf.length →
      gre.get m buf j = .ok (greUnit p (bitsAt buf (8 * a) 32)) := by
    intro j a p hp hj hty ha
    obtain ⟨f, hf, hty⟩ := Option.map_eq_some_iff.mp hty
    rw [pkt_get hf hty, hj, ok_bind]
    rcases (show p = 0 ∨ p = 1 by omega) with rfl | rfl
    · rfl
    · rw [u32BE_collect m _ (by simp; omega), bitsAt_slice buf a 4]; rfl
  have g9 := unit16 9 4 r9 rfl (by omega)
  have g10 := unit16 10 (4 + 2 * c) r10 rfl (by omega)
  have g11 := unit32 11 (4 + 4 * c) k k2 r11 rfl (by omega)
  have g12 := unit32 12 (4 + 4 * c + 4 * k) s s2 r12 rfl (by omega)
  have g13 : gre.get m buf 13 = .ok (.nums []) := by
    rw [bytes_get (d := gre) (k := 13) rfl rfl, r13]; simp [Except.map]
  have g14 : gre.get m buf 14 =
      .ok (.nums ((buf.drop (4 + 4 * c + 4 * k + 4 * s)).map (·.toNat))) := by
    rw [bytes_get (d := gre) (k := 14) rfl rfl, r14]; rfl
  have g10' : gre.get m buf 10 = .ok (greUnit c (bitsAt buf 48 16)) := by
    rw [g10]
    rcases (show c = 0 ∨ c = 1 by omega) with rfl | rfl <;> rfl
  refine ⟨g9, g10', ?_, ?_, g13, g14, ?_, ?_, ?_⟩
  · rw [g11]; congr 3; omega
  · rw [g12]; congr 3; omega
  · have := payload_eq (d := gre) (m := m) (buf := buf) (k := 14) rfl rfl l14
      (len := buf.length) rfl (by rw [bs 14 (by omega) (by omega)]; simp; omega)
    rw [this, bs 14 (by omega) (by omega), List.take_of_length_le (by rw [List.length_drop]; omega)]
    congr 2; simp; omega
  · have hsum : gre.bits / 8 + [2 * c, 2 * c, 4 * k, 4 * s, 0].sum = 4 + 4 * c + 4 * k + 4 * s := by
      simp only [show gre.bits = 32 from rfl, List.sum_cons, List.sum_nil]; omega
    have := packetSize_eq (d := gre) (m := m) (buf := buf) l15 (by rw [hsum]; omega)
    rw [this, hsum]
  · rw [fromPacket_ok_iff]
    have g : ∀ j (sl : Slot), greLayout[j]? = some sl → ∃ v, gre.get m buf j = .ok v :=
      fun j sl h => ⟨_, layoutOk_get gre_layout h m buf
        (by rw [show gre.minSize = 4 from by decide]; omega)⟩
    intro j hj
    rw [show gre.fields.length = 15 from rfl] at hj
    match j, hj with
    | 0, _ | 1, _ | 2, _ | 3, _ | 4, _ | 5, _ | 6, _ | 7, _ | 8, _ => exact g _ _ rfl
    | 9, _ => exact ⟨_, g9⟩
    | 10, _ => exact ⟨_, g10⟩
    | 11, _ => exact ⟨_, g11⟩
    | 12, _ => exact ⟨_, g12⟩
    | 13, _ => exact ⟨_, g13⟩
    | 14, _ => exact ⟨_, g14⟩

/-- A GRE packet with all three optional fields. -/
def fullGre : Buf := [0xB0, 0, 8, 0, 1, 2, 3, 4, 5, 6, 7, 8, 9, 10, 11, 12, 0xAA]

example : bitsAt fullGre 0 1 = 1 ∧ bitsAt fullGre 1 1 = 0 ∧ bitsAt fullGre 2 1 = 1 ∧
    bitsAt fullGre 3 1 = 1 ∧ gre.payload .debug fullGre = .ok [0xAA] ∧
    gre.get .debug fullGre 12 = .ok (greUnit 1 0x090A0B0C) := by decide +kernel

/-- **C37**, outside its hypothesis: with the routing bit set, reading the payload panics
(`unimplemented!` in the length of `routing`), whatever the buffer. -/
theorem C37_routing_panics (m : Mode) (buf : Buf) (h : 4 ≤ buf.length) (hr : bitsAt buf 1 1 = 1) :
    gre.get m buf 13 = panic ∧ gre.get m buf 14 = panic ∧ gre.payload m buf = panic ∧
    gre.packetSize m buf = panic := by
  obtain ⟨l13, l14, e13⟩ := gre_routing_lens m buf h hr
  have k2 := bitsAt_lt buf 2 1
  have s2 := bitsAt_lt buf 3 1
  have b13 : (gre.before m buf 13).bit = 32 := before_bit gre m buf 13
  have co : curOff m 32 ([2, 2, 4 * bitsAt buf 2 1, 4 * bitsAt buf 3 1].map .ok) = .ok _ :=
    curOff_ok (by unfold usizeCard; simp only [List.sum_cons, List.sum_nil]; omega)
  have r13 : gre.getRaw m buf 13 = panic := by
    simp only [Decl.getRaw, show gre.fields[13]? = some _ from rfl, fieldLen, l13, b13, varSlice, co,
      ok_bind]
    dsimp only [fbytes]
    rw [e13]; rfl
  have p14 : curOff m (gre.before m buf 14).bit (gre.before m buf 14).lens = panic := by
    rw [l14]; exact curOff_panic ..
  have r14 : gre.getRaw m buf 14 = panic := by
    simp only [Decl.getRaw, show gre.fields[14]? = some _ from rfl, varSlice, p14]; rfl
  refine ⟨?_, ?_, ?_, ?_⟩
  · rw [bytes_get (d := gre) (k := 13) rfl rfl, r13]; rfl
  · rw [bytes_get (d := gre) (k := 14) rfl rfl, r14]; rfl
  · simp only [Decl.payload, Decl.payloadBounds, show gre.payloadIdx = some 14 from rfl,
      show gre.fields[14]? = some _ from rfl, p14]
    rfl
  · rw [Decl.packetSize, final_eq_before, show gre.fields.length = 15 from rfl,
      before_lens_succ_none (d := gre) (k := 14) rfl rfl, l14]
    exact curOff_panic ..

example : bitsAt [0x40, 0, 8, 0] 1 1 = 1 ∧ gre.payload .debug [0x40, 0, 8, 0] = panic := by
  decide +kernel

end Verif.Props
