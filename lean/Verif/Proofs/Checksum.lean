import Verif.Model.Checksum
import Verif.Spec.Checksum
import Verif.Proofs.Bits
import Verif.Proofs.Ops

/-! # Helper lemmas for the checksum functions -/

namespace Verif
open Spec

/-- The value of a `u32` computation with exact result `n`. -/
def u32res (m : Mode) (n : Nat) : Res Nat :=
  if n < u32Card then .ok n
  else match m with
    | .debug => panic
    | .release => .ok (n % u32Card)

theorem u32add_eq (m : Mode) (a b : Nat) : u32add m a b = u32res m (a + b) := rfl

theorem u32res_ok {m : Mode} {n : Nat} (h : n < u32Card) : u32res m n = .ok n := by
  unfold u32res; rw [if_pos h]

theorem u32res_add (m : Mode) (a b : Nat) :
    (u32res m a >>= fun s => u32add m s b) = u32res m (a + b) := by
  unfold u32res u32add
  by_cases h : a < u32Card
  · simp only [if_pos h, ok_bind]; rfl
  · have h' : ¬ a + b < u32Card := by omega
    simp only [if_neg h, if_neg h']
    cases m with
    | debug => rfl
    | release =>
      simp only [ok_bind]
      unfold u32Card at *
      split
      · congr 1; omega
      · congr 1; omega

theorem u16FromBe_eq (a b : UInt8) : u16FromBe a b = 256 * a.toNat + b.toNat := by
  unfold u16FromBe
  rw [Nat.shiftLeft_eq, Nat.mul_comm, ← Nat.two_pow_add_eq_or_of_lt (i := 8) b.toNat_lt]

/-- Exact sum of the words other than word `k`, the first being number `i`. -/
def rawSum (k : Nat) : (i : Nat) → Buf → Nat
  | i, a :: b :: rest => (if i ≠ k then 256 * a.toNat + b.toNat else 0) + rawSum k (i + 1) rest
  | i, [a] => if i ≠ k then 256 * a.toNat else 0
  | _, [] => 0

/-- The part of `rawSum` from complete words. -/
def evenSum (k : Nat) : (i : Nat) → Buf → Nat
  | i, a :: b :: rest => (if i ≠ k then 256 * a.toNat + b.toNat else 0) + evenSum k (i + 1) rest
  | _, _ => 0

theorem sumLoop_eq (m : Mode) (k : Nat) : ∀ (data : Buf) (i s : Nat),
    (u32res m s >>= fun s => sumLoop m k data i s) =
      (u32res m (s + evenSum k i data) >>= fun t => .ok (i + data.length / 2, t))
  | a :: b :: rest, i, s => by
    have ih := sumLoop_eq m k rest (i + 1)
    simp only [sumLoop, evenSum, List.length_cons]
    have hl : i + (rest.length + 1 + 1) / 2 = i + 1 + rest.length / 2 := by omega
    rw [hl]
    by_cases h : i ≠ k
    · simp only [if_pos h, u16FromBe_eq]
      rw [← Nat.add_assoc, ← ih, ← u32res_add]
      cases u32res m s <;> rfl
    · simp only [if_neg h, Nat.zero_add]
      rw [← ih]
      cases u32res m s <;> rfl
  | [a], i, s => by simp [sumLoop, evenSum]
  | [], i, s => by simp [sumLoop, evenSum]

theorem rawSum_even (k : Nat) : ∀ (data : Buf) (i : Nat), data.length % 2 = 0 →
    rawSum k i data = evenSum k i data
  | a :: b :: rest, i, h => by
    simp only [List.length_cons] at h
    simp only [rawSum, evenSum, rawSum_even k rest (i + 1) (by omega)]
  | [a], i, h => by simp at h
  | [], i, h => by simp [rawSum, evenSum]

theorem rawSum_odd (k : Nat) : ∀ (data : Buf) (i : Nat), data.length % 2 = 1 →
    ∃ last, data[data.length - 1]? = some last ∧
      rawSum k i data = evenSum k i data + if i + data.length / 2 ≠ k then 256 * last.toNat else 0
  | a :: b :: rest, i, h => by
    simp only [List.length_cons] at h
    obtain ⟨last, h1, h2⟩ := rawSum_odd k rest (i + 1) (by omega)
    refine ⟨last, ?_, ?_⟩
    · simp only [List.length_cons]
      rw [show rest.length + 1 + 1 - 1 = (rest.length - 1) + 1 + 1 by omega]
      simpa using h1
    · simp only [rawSum, evenSum, h2, List.length_cons]
      have he : i + (rest.length + 1 + 1) / 2 = i + 1 + rest.length / 2 := by omega
      simp only [he, Nat.add_assoc]
  | [a], i, h => ⟨a, by simp, by simp [rawSum, evenSum]⟩
  | [], i, h => by simp at h

/-- `sum_be_words` is the `u32` value of the exact sum. -/
theorem sumBeWords_eq (m : Mode) (data : Buf) (k : Nat) :
    sumBeWords m data k = u32res m (rawSum k 0 data) := by
  unfold sumBeWords
  split
  · rename_i h
    rw [List.length_eq_zero_iff] at h
    subst h
    rfl
  · have hl := sumLoop_eq m k data 0 0
    rw [u32res_ok (by decide), ok_bind] at hl
    rw [hl, Nat.zero_add, Nat.zero_add]
    by_cases ho : data.length % 2 = 1
    · obtain ⟨last, h1, h2⟩ := rawSum_odd k data 0 ho
      have hidx : index data (data.length - 1) = .ok last := by unfold index; rw [h1]
      have hand : data.length &&& 1 ≠ 0 := by rw [Nat.and_one_is_mod]; omega
      rw [Nat.zero_add] at h2
      by_cases hk : data.length / 2 ≠ k
      · rw [if_pos hk] at h2
        rw [h2, ← u32res_add]
        cases u32res m (evenSum k 0 data) with
        | error e => rfl
        | ok t =>
          simp only [ok_bind]
          have hc : (data.length / 2 ≠ k ∧ data.length &&& 1 ≠ 0) := ⟨hk, hand⟩
          simp only [if_pos hc, hidx, ok_bind, Nat.shiftLeft_eq]
          rw [Nat.mul_comm]
      · rw [if_neg hk] at h2
        rw [h2, Nat.add_zero]
        cases u32res m (evenSum k 0 data) with
        | error e => rfl
        | ok t =>
          simp only [ok_bind]
          have hc : ¬ (data.length / 2 ≠ k ∧ data.length &&& 1 ≠ 0) := fun h => hk h.1
          simp only [if_neg hc]
    · rw [rawSum_even k data 0 (by omega)]
      have hand : data.length &&& 1 = 0 := by rw [Nat.and_one_is_mod]; omega
      cases u32res m (evenSum k 0 data) with
      | error e => rfl
      | ok t =>
        simp only [ok_bind]
        have hc : ¬ (data.length / 2 ≠ k ∧ data.length &&& 1 ≠ 0) := fun h => h.2 hand
        simp only [if_neg hc]

theorem rawSum_past (k : Nat) : ∀ (data : Buf) (i : Nat), k < i → rawSum k i data = (words16 data).sum
  | a :: b :: rest, i, h => by
    have : i ≠ k := by omega
    simp only [rawSum, words16, List.sum_cons, if_pos this, rawSum_past k rest (i + 1) (by omega)]
  | [a], i, h => by
    have : i ≠ k := by omega
    simp [rawSum, words16, if_pos this]
  | [], i, h => by simp [rawSum, words16]

theorem putWord_succ (j : Nat) (hi lo a b : UInt8) (rest : Buf) :
    putWord (j + 1) hi lo (a :: b :: rest) = a :: b :: putWord j hi lo rest := by
  unfold putWord
  rw [show 2 * (j + 1) = 2 * j + 1 + 1 by omega]
  simp only [List.set_cons_succ]

/-- The exact sum is the sum of the words with word `k` taken as zero. -/
theorem rawSum_zeroWord : ∀ (data : Buf) (i j : Nat),
    rawSum (i + j) i data = (words16 (zeroWord j data)).sum
  | a :: b :: rest, i, 0 => by
    rw [rawSum, rawSum_past _ rest (i + 1) (by omega)]
    simp [zeroWord, putWord, words16]
  | a :: b :: rest, i, j + 1 => by
    have hne : i ≠ i + (j + 1) := by omega
    have ih := rawSum_zeroWord rest (i + 1) j
    rw [show i + 1 + j = i + (j + 1) by omega] at ih
    unfold zeroWord at *
    rw [putWord_succ]
    simp only [rawSum, words16, List.sum_cons, if_pos hne, ih]
  | [a], i, 0 => by simp [rawSum, zeroWord, putWord, words16]
  | [a], i, j + 1 => by
    have hne : i ≠ i + (j + 1) := by omega
    simp [rawSum, zeroWord, putWord, words16, Nat.mul_add]
  | [], i, j => by simp [rawSum, zeroWord, putWord, words16]

theorem words16_lt : ∀ (data : Buf), ∀ w ∈ words16 data, w < 65536
  | a :: b :: rest => by
    intro w hw
    have := a.toNat_lt; have := b.toNat_lt
    rcases List.mem_cons.mp hw with h | h
    · omega
    · exact words16_lt rest w h
  | [a] => by
    intro w hw
    have := a.toNat_lt
    simp only [words16, List.mem_singleton] at hw
    omega
  | [] => by simp [words16]

theorem words16_length : ∀ (data : Buf), (words16 data).length = (data.length + 1) / 2
  | a :: b :: rest => by simp only [words16, List.length_cons, words16_length rest]; omega
  | [a] => by simp [words16]
  | [] => by simp [words16]

theorem words_sum_le (ws : List Nat) (h : ∀ w ∈ ws, w < 65536) : ws.sum ≤ 65535 * ws.length := by
  induction ws with
  | nil => simp
  | cons w ws ih =>
    have h1 := h w (List.mem_cons_self ..)
    have h2 := ih fun x hx => h x (List.mem_cons_of_mem _ hx)
    simp only [List.sum_cons, List.length_cons]
    omega

theorem words16_append : ∀ (a b : Buf), a.length % 2 = 0 → words16 (a ++ b) = words16 a ++ words16 b
  | x :: y :: rest, b, h => by
    simp only [List.length_cons] at h
    simp [words16, words16_append rest b (by omega)]
  | [x], b, h => by simp at h
  | [], b, h => by simp [words16]

/-- The representative of a sum in one's complement arithmetic: zero only for zero. -/
def ocNorm (n : Nat) : Nat := if n = 0 then 0 else (n - 1) % 65535 + 1

theorem ocNorm_le (n : Nat) : ocNorm n ≤ 65535 := by
  unfold ocNorm; split <;> omega

theorem ocNorm_small {n : Nat} (h : n < 65536) : ocNorm n = n := by
  unfold ocNorm; split <;> omega

theorem ocNorm_mod (n : Nat) : ocNorm n % 65535 = n % 65535 := by
  unfold ocNorm; split <;> omega

theorem ocNorm_zero {n : Nat} : ocNorm n = 0 ↔ n = 0 := by
  unfold ocNorm; split <;> omega

/-- Values that agree modulo 65535 and about being zero have the same representative. -/
theorem ocNorm_congr {a b : Nat} (h : a % 65535 = b % 65535) (h0 : a = 0 ↔ b = 0) : ocNorm a = ocNorm b := by
  unfold ocNorm; split <;> split <;> omega

theorem ocAdd_norm (a b : Nat) (hb : b < 65536) : ocAdd (ocNorm a) b = ocNorm (a + b) := by
  unfold ocAdd ocNorm
  split <;> split <;> split <;> omega

theorem foldl_ocAdd (ws : List Nat) (h : ∀ w ∈ ws, w < 65536) (a : Nat) :
    ws.foldl ocAdd (ocNorm a) = ocNorm (a + ws.sum) := by
  induction ws generalizing a with
  | nil => simp
  | cons w ws ih =>
    rw [List.foldl_cons, ocAdd_norm _ _ (h w (List.mem_cons_self ..)),
      ih fun x hx => h x (List.mem_cons_of_mem _ hx), List.sum_cons, Nat.add_assoc]

theorem ocSum_eq (ws : List Nat) (h : ∀ w ∈ ws, w < 65536) : ocSum ws = ocNorm ws.sum := by
  have := foldl_ocAdd ws h 0
  rw [Nat.zero_add] at this
  exact this

theorem foldCarry_done {m : Mode} {fuel sum : Nat} (h : sum < 65536) : foldCarry m fuel sum = .ok sum := by
  have : sum >>> 16 = 0 := by rw [Nat.shiftRight_eq_div_pow]; omega
  cases fuel <;> simp [foldCarry, this]

theorem foldCarry_step {m : Mode} {fuel sum : Nat} (h : 65536 ≤ sum) (hs : sum < u32Card) :
    foldCarry m (fuel + 1) sum = foldCarry m fuel (sum / 65536 + sum % 65536) := by
  have h1 : sum >>> 16 ≠ 0 := by rw [Nat.shiftRight_eq_div_pow]; omega
  rw [foldCarry, if_pos h1, u32add_eq, Nat.shiftRight_eq_div_pow, show (0xFFFF : Nat) = 2 ^ 16 - 1 by decide,
    Nat.and_two_pow_sub_one_eq_mod, u32res_ok (by unfold u32Card at *; omega), ok_bind]

theorem foldCarry_eq {m : Mode} {fuel sum : Nat} (hf : 2 ≤ fuel) (hs : sum < u32Card) :
    foldCarry m fuel sum = .ok (ocNorm sum) := by
  by_cases h1 : sum < 65536
  · rw [foldCarry_done h1, ocNorm_small h1]
  · obtain ⟨f, rfl⟩ : ∃ f, fuel = f + 1 + 1 := ⟨fuel - 2, by omega⟩
    rw [foldCarry_step (by omega) hs]
    have hle : sum / 65536 + sum % 65536 < 131071 := by unfold u32Card at hs; omega
    have hc : ocNorm (sum / 65536 + sum % 65536) = ocNorm sum :=
      ocNorm_congr (by omega) (by omega)
    rw [← hc]
    generalize sum / 65536 + sum % 65536 = t at hle
    by_cases h2 : t < 65536
    · rw [foldCarry_done h2, ocNorm_small h2]
    · rw [foldCarry_step (by omega) (by unfold u32Card; omega), foldCarry_done (by omega)]
      congr 1
      unfold ocNorm
      split <;> omega

theorem finalizeChecksum_eq {m : Mode} {sum : Nat} (hs : sum < u32Card) :
    finalizeChecksum m sum = .ok (65535 - ocNorm sum) := by
  unfold finalizeChecksum
  rw [foldCarry_eq (by decide) hs, ok_bind]
  have := ocNorm_le sum
  unfold notAsU16 u32Card
  congr 1
  omega

/-- The address parts. -/
theorem ipv4WordSum_eq (m : Mode) (ip : Ipv4Addr) :
    ipv4WordSum m ip = .ok (words16 ip.octets.toList).sum ∧ (words16 ip.octets.toList).sum ≤ 2 * 65535 := by
  obtain ⟨⟨⟨l⟩, hl⟩⟩ := ip
  simp only [List.size_toArray] at hl
  match l, hl with
  | [a, b, c, d], _ =>
    have h1 : words16 (Vector.toList (⟨⟨[a, b, c, d]⟩, hl⟩ : Vector UInt8 4)) =
      [256 * a.toNat + b.toNat, 256 * c.toNat + d.toNat] := rfl
    rw [h1]
    have := a.toNat_lt; have := b.toNat_lt; have := c.toNat_lt; have := d.toNat_lt
    constructor
    · change u32add m (u16FromBe a b) (u16FromBe c d) = _
      rw [u16FromBe_eq, u16FromBe_eq, u32add_eq, u32res_ok (by unfold u32Card; omega)]
      simp
    · simp only [List.sum_cons, List.sum_nil]; omega

theorem foldlM_u32add (m : Mode) (ws : List Nat) (s : Nat) (h : s + ws.sum < u32Card) :
    ws.foldlM (u32add m) s = .ok (s + ws.sum) := by
  induction ws generalizing s with
  | nil => simp
  | cons w ws ih =>
    simp only [List.sum_cons] at *
    rw [List.foldlM_cons, u32add_eq, u32res_ok (by omega), ok_bind, ih _ (by omega), Nat.add_assoc]

theorem ipv6WordSum_eq (m : Mode) (ip : Ipv6Addr) :
    ipv6WordSum m ip = .ok (words16 ip.octets.toList).sum ∧ (words16 ip.octets.toList).sum ≤ 8 * 65535 := by
  have hlen : (words16 ip.octets.toList).length = 8 := by rw [words16_length]; simp
  have hb := words_sum_le _ (words16_lt ip.octets.toList)
  rw [hlen] at hb
  refine ⟨?_, by omega⟩
  have hseg : ip.segments = words16 ip.octets.toList := by
    obtain ⟨⟨⟨l⟩, hl⟩⟩ := ip
    simp only [List.size_toArray] at hl
    match l, hl with
    | [a, b, c, d, e, f, g, h, i, j, k, l, m, n, o, p], _ =>
      simp only [Ipv6Addr.segments, u16FromBe_eq]
      rfl
  unfold ipv6WordSum
  rw [hseg, foldlM_u32add _ _ _ (by unfold u32Card; omega), Nat.zero_add]

theorem zeroWord_length (k : Nat) (data : Buf) : (zeroWord k data).length = data.length := by
  simp [zeroWord, putWord]

theorem rawSum_eq (k : Nat) (data : Buf) : rawSum k 0 data = (words16 (zeroWord k data)).sum := by
  have := rawSum_zeroWord data 0 k
  rwa [Nat.zero_add] at this

theorem rawSum_le (k : Nat) (data : Buf) : rawSum k 0 data ≤ 65535 * ((data.length + 1) / 2) := by
  rw [rawSum_eq]
  have := words_sum_le _ (words16_lt (zeroWord k data))
  rwa [words16_length, zeroWord_length] at this

/-- The sum of the extra data in the `_adv` functions: an odd last byte is dropped. -/
theorem rawSum_extra (extra : Buf) : rawSum (extra.length / 2) 0 extra =
    (words16 (extra.take (extra.length / 2 * 2))).sum := by
  have key : ∀ (e : Buf) (i : Nat), rawSum (i + e.length / 2) i e = (words16 (e.take (e.length / 2 * 2))).sum := by
    intro e
    induction e using words16.induct with
    | case1 a b rest ih =>
      intro i
      have hne : i ≠ i + (rest.length + 1 + 1) / 2 := by omega
      have h1 := ih (i + 1)
      rw [show i + 1 + rest.length / 2 = i + (rest.length + 1 + 1) / 2 by omega] at h1
      simp only [rawSum, List.length_cons, if_pos hne, h1]
      rw [show (rest.length + 1 + 1) / 2 * 2 = rest.length / 2 * 2 + 1 + 1 by omega]
      simp [words16]
    | case2 a => intro i; simp [rawSum, words16]
    | case3 => intro i; simp [rawSum, words16]
  have := key extra 0
  rwa [Nat.zero_add] at this

theorem addrChecksum_eq {m : Mode} {data extra : Buf} {k s d : Nat} {p : UInt8} {rs rd : Res Nat}
    (hs : rs = .ok s) (hd : rd = .ok d) (hlen : data.length + extra.length < u32Card)
    (hsum : s + d + p.toNat + (data.length + extra.length) + rawSum k 0 data +
      rawSum (extra.length / 2) 0 extra < u32Card) :
    addrChecksum m data k extra rs rd p = .ok (65535 - ocNorm (s + d + p.toNat +
      (data.length + extra.length) + rawSum k 0 data + rawSum (extra.length / 2) 0 extra)) := by
  unfold addrChecksum
  have hu : uadd m data.length extra.length = .ok (data.length + extra.length) := by
    unfold uadd; rw [if_pos (by unfold usizeCard u32Card at *; omega)]
  have e1 : ∀ a b, a + b < u32Card → u32add m a b = .ok (a + b) := fun a b h => u32res_ok h
  rw [hs, hd, ok_bind, e1 0 s (by omega), ok_bind, ok_bind, e1 _ _ (by omega), ok_bind,
    e1 _ _ (by omega), ok_bind, hu, ok_bind, Nat.mod_eq_of_lt hlen, e1 _ _ (by omega), ok_bind,
    sumBeWords_eq, u32res_ok (by omega), ok_bind, e1 _ _ (by omega), ok_bind,
    sumBeWords_eq, u32res_ok (by omega), ok_bind, e1 _ _ (by omega), ok_bind,
    finalizeChecksum_eq (by omega), Nat.zero_add]

end Verif
