import Verif.Spec.Router
import Verif.Props.Incremental
import Verif.Props.Registers
import Verif.Props.Transfer

/-!
# C135: routers written with the crate

The routers are in `Spec/Router`.
-/

set_option autoImplicit false

namespace Verif.Props
open Verif Verif.Spec

/-- The checksum of an IPv4 header. -/
def sum4 (ip : Buf) : Nat := internetChecksum (words16 (zeroWord 5 (ip.take (head4 ip))))

/-- A packet behind a router. -/
def hop4 (ip : Buf) : Buf :=
  let ip₁ := ip.set 8 (UInt8.ofNat (bitsAt ip 64 8 - 1))
  storeWord 5 (sum4 ip₁) ip₁

theorem new4 {ip : Buf} (h : 20 ≤ ip.length) : (ipv4.newPacket ip).isSome = true :=
  (C06_new_iff ipv4 ip).1.mpr (by rw [show fixedBits ipv4.fields = 160 by decide]; omega)

theorem new6 {ip : Buf} (h : 40 ≤ ip.length) : (ipv6.newPacket ip).isSome = true :=
  (C06_new_iff ipv6 ip).1.mpr (by rw [show fixedBits ipv6.fields = 320 by decide]; omega)

theorem sum4_eq (m : Mode) {ip : Buf} (h : 20 ≤ ip.length) : ipv4HeaderChecksum m ip = .ok (sum4 ip) :=
  C29_ipv4_header_checksum m ip h

theorem hop4_length (ip : Buf) : (hop4 ip).length = ip.length := by
  unfold hop4
  rw [storeWord_length, List.length_set]

theorem hop4_writes (m : Mode) {ip : Buf} (h : 20 ≤ ip.length) (hsl : SliceLen ip.length) :
    ipv4.set m ip 8 (.num (bitsAt ip 64 8 - 1)) = .ok (ip.set 8 (UInt8.ofNat (bitsAt ip 64 8 - 1))) ∧
    ipv4.set m (ip.set 8 (UInt8.ofNat (bitsAt ip 64 8 - 1))) 10
      (.num (sum4 (ip.set 8 (UInt8.ofNat (bitsAt ip 64 8 - 1))))) = .ok (hop4 ip) := by
  have hl : (ip.set 8 (UInt8.ofNat (bitsAt ip 64 8 - 1))).length = ip.length := List.length_set
  exact ⟨set_byte (d := ipv4) (by decide) (k := 8) (j := 8) rfl rfl (by decide) (by decide) m ip hsl (new4 h) _,
    (set_word (d := ipv4) (by decide) (k := 10) (j := 5) rfl rfl (by decide) (by decide) m _ (by rw [hl]; exact hsl)
      (new4 (by rw [hl]; exact h)) _).2⟩

theorem forward4_value (m : Mode) {ip : Buf} (h : 20 ≤ ip.length) (hsl : SliceLen ip.length) :
    forward4 m ip = .ok (if bitsAt ip 80 16 = sum4 ip ∧ 2 ≤ bitsAt ip 64 8 then some (hop4 ip) else none) := by
  have h10 : ipv4.get m ip 10 = .ok (.num (bitsAt ip 80 16)) :=
    layoutOk_get (L := ipv4Layout) (by decide +kernel) (k := 10) rfl m ip h
  have h8 : ipv4.get m ip 8 = .ok (.num (bitsAt ip 64 8)) :=
    layoutOk_get (L := ipv4Layout) (by decide +kernel) (k := 8) rfl m ip h
  obtain ⟨w1, w2⟩ := hop4_writes m h hsl
  have hc := sum4_eq m h
  have hc' := sum4_eq m (ip := ip.set 8 (UInt8.ofNat (bitsAt ip 64 8 - 1))) (by rw [List.length_set]; exact h)
  obtain ⟨x, hx⟩ := Option.isSome_iff_exists.mp (new4 h)
  unfold forward4
  simp only [hx, h10, h8, hc, ok_bind, Val.asNum]
  by_cases g1 : bitsAt ip 80 16 = sum4 ip
  · by_cases g2 : 2 ≤ bitsAt ip 64 8
    · have : ¬ bitsAt ip 64 8 ≤ 1 := by omega
      simp only [g1, g2, this, ne_eq, not_true_eq_false, if_false, ok_bind, w1, hc', w2, and_self, if_true]
      rfl
    · have : bitsAt ip 64 8 ≤ 1 := by omega
      simp [g1, g2, this]
  · simp [g1]

theorem forward4_short (m : Mode) {ip : Buf} (h : ip.length < 20) : forward4 m ip = .ok none := by
  unfold forward4
  have : ipv4.newPacket ip = none := by
    unfold Decl.newPacket
    rw [if_neg (by rw [show ipv4.minSize = 20 by decide]; omega)]
  rw [this]

/-- The fields behind a router. -/
theorem hop4_fields {ip : Buf} (h : 20 ≤ ip.length) (hsl : SliceLen ip.length) (ht : 2 ≤ bitsAt ip 64 8) :
    bitsAt (hop4 ip) 64 8 = bitsAt ip 64 8 - 1 ∧ bitsAt (hop4 ip) 4 4 = bitsAt ip 4 4 ∧
    bitsAt (hop4 ip) 16 16 = bitsAt ip 16 16 ∧ bitsAt (hop4 ip) 72 8 = bitsAt ip 72 8 ∧
    bitsAt (hop4 ip) 80 16 = sum4 (hop4 ip) := by
  have hl := hop4_length ip
  obtain ⟨w1, w2⟩ := hop4_writes .debug h hsl
  obtain ⟨-, hr⟩ := C93_registers ipv4 (by simp [crateDecls]) .debug (noInner 0)
    [.set 8 (.num (bitsAt ip 64 8 - 1)), .set 10 (.num (sum4 (ip.set 8 (UInt8.ofNat (bitsAt ip 64 8 - 1)))))] ip (hop4 ip)
    hsl (new4 h) (by simp only [runWrites, Write.run, w1, w2, ok_bind])
  have hget : ∀ (b : Buf), 20 ≤ b.length → ∀ k s, ipv4Layout[k]? = some s → ipv4.get .debug b k = .ok (s.read b) :=
    fun b hb k s hs => layoutOk_get (L := ipv4Layout) (by decide +kernel) hs .debug b hb
  have hlt := bitsAt_lt ip 64 8
  have e8 := (hr 8 _ rfl rfl).1 _ rfl
  have e10 := (hr 10 _ rfl rfl).1 _ rfl
  have e1 := (hr 1 _ rfl rfl).2 rfl
  have e4 := (hr 4 _ rfl rfl).2 rfl
  have e9 := (hr 9 _ rfl rfl).2 rfl
  rw [hget _ (by omega) 8 _ rfl] at e8
  rw [hget _ (by omega) 10 _ rfl] at e10
  rw [hget _ (by omega) 1 _ rfl, hget _ h 1 _ rfl] at e1
  rw [hget _ (by omega) 4 _ rfl, hget _ h 4 _ rfl] at e4
  rw [hget _ (by omega) 9 _ rfl, hget _ h 9 _ rfl] at e9
  have a8 : bitsAt (hop4 ip) 64 8 = (bitsAt ip 64 8 - 1) % 2 ^ 8 := Val.num.inj (Except.ok.inj e8)
  have a1 : bitsAt (hop4 ip) 4 4 = bitsAt ip 4 4 := Val.num.inj (Except.ok.inj e1)
  have a4 : bitsAt (hop4 ip) 16 16 = bitsAt ip 16 16 := Val.num.inj (Except.ok.inj e4)
  have a9 : [bitsAt (hop4 ip) 72 8] = [bitsAt ip 72 8] := Val.nums.inj (Except.ok.inj e9)
  have a10 : bitsAt (hop4 ip) 80 16 = sum4 (ip.set 8 (UInt8.ofNat (bitsAt ip 64 8 - 1))) % 2 ^ 16 :=
    Val.num.inj (Except.ok.inj e10)
  refine ⟨by rw [a8]; omega, a1, a4, List.head_eq_of_cons_eq a9, ?_⟩
  rw [a10]
  unfold sum4
  rw [Nat.mod_eq_of_lt (internetChecksum_lt _)]
  have hh : head4 (hop4 ip) = head4 (ip.set 8 (UInt8.ofNat (bitsAt ip 64 8 - 1))) := by
    unfold head4
    rw [hl, List.length_set]
    simp [hop4, storeWord, putWord, List.getD_eq_getElem?_getD]
  rw [hh]
  unfold hop4
  rw [storeWord_take, zeroWord_storeWord_self]

theorem hop4_bytes (ip : Buf) : SameExcept [8, 10, 11] (hop4 ip) ip := by
  refine ⟨hop4_length ip, ?_⟩
  intro i hi
  simp only [List.mem_cons, List.not_mem_nil, or_false, not_or] at hi
  unfold hop4 storeWord putWord
  rw [List.getElem?_set_ne (by omega), List.getElem?_set_ne (by omega), List.getElem?_set_ne (by omega)]

theorem hop4_drop (ip : Buf) {k : Nat} (h : 12 ≤ k) : (hop4 ip).drop k = ip.drop k := by
  apply List.ext_getElem?
  intro i
  rw [List.getElem?_drop, List.getElem?_drop]
  exact (hop4_bytes ip).2 _ (by simp; omega)

/-- The receiver behind a router sees what it would have seen before it. -/
theorem hop4_accept (m : Mode) {t : Transport Ipv4Addr} (ht : t ∈ transports4) {ip : Buf} (h : 20 ≤ ip.length)
    (hsl : SliceLen ip.length) (hc : bitsAt ip 80 16 = sum4 ip) (httl : 2 ≤ bitsAt ip 64 8) :
    accept4 m t (hop4 ip) = accept4 m t ip := by
  obtain ⟨j, tok⟩ := transports4_ok t ht
  have hl := hop4_length ip
  obtain ⟨-, f1, f4, f9, f10⟩ := hop4_fields h hsl httl
  obtain ⟨s, d, seg, b, a1, a2, -, -, a3, -, a4, a5⟩ := accept4_value tok (m := m) h hsl
  obtain ⟨s', d', seg', b', b1, b2, -, -, b3, -, b4, b5⟩ := accept4_value tok (m := m) (ip := hop4 ip) (by omega)
    (by rw [hl]; exact hsl)
  rw [hop4_drop ip (by omega), ← a1] at b1
  rw [hop4_drop ip (by omega), ← a2] at b2
  rw [hop4_drop ip (by omega), f1, f4, ← a3] at b3
  have := v4_ext b1
  subst this
  have := v4_ext b2
  subst this
  subst b3
  rw [a4] at b4
  cases b4
  rw [a5, b5, f9]
  congr 1
  have c1 : bitsAt (hop4 ip) 80 16 = internetChecksum (words16 (zeroWord 5 ((hop4 ip).take (head4 (hop4 ip))))) := f10
  have c2 : bitsAt ip 80 16 = internetChecksum (words16 (zeroWord 5 (ip.take (head4 ip)))) := hc
  simp only [c1, c2, true_and]

/-- **C135** An IPv4 router: it never panics. It forwards a packet exactly if the header is complete and holds its
checksum and the time to live is at least 2. Then the time to live is one less, the header holds its checksum, all bytes but
those of these two fields are the same, and every receiver gets the same. -/
theorem C135_forward4 (m : Mode) (ip : Buf) (hsl : SliceLen ip.length) :
    (20 ≤ ip.length ∧ Holds (ipv4.get m ip 10) (ipv4HeaderChecksum m ip) ∧ 2 ≤ bitsAt ip 64 8 →
      ∃ out, forward4 m ip = .ok (some out) ∧ SameExcept [8, 10, 11] out ip ∧
        bitsAt out 64 8 = bitsAt ip 64 8 - 1 ∧ Holds (ipv4.get m out 10) (ipv4HeaderChecksum m out) ∧
        ∀ t ∈ transports4, accept4 m t out = accept4 m t ip) ∧
    (¬ (20 ≤ ip.length ∧ Holds (ipv4.get m ip 10) (ipv4HeaderChecksum m ip) ∧ 2 ≤ bitsAt ip 64 8) →
      forward4 m ip = .ok none) := by
  have hget : ∀ b : Buf, 20 ≤ b.length → ipv4.get m b 10 = .ok (.num (bitsAt b 80 16)) := fun b hb =>
    layoutOk_get (L := ipv4Layout) (by decide +kernel) (k := 10) rfl m b hb
  have hiff : ∀ b : Buf, 20 ≤ b.length →
      (Holds (ipv4.get m b 10) (ipv4HeaderChecksum m b) ↔ bitsAt b 80 16 = sum4 b) := by
    intro b hb
    rw [hget b hb, sum4_eq m hb]
    constructor
    · rintro ⟨c, h1, h2⟩
      rw [Val.num.inj (Except.ok.inj h1), Except.ok.inj h2]
    · intro h
      exact ⟨_, rfl, by rw [h]⟩
  constructor
  · rintro ⟨h, hh, ht⟩
    rw [hiff ip h] at hh
    refine ⟨hop4 ip, by rw [forward4_value m h hsl, if_pos ⟨hh, ht⟩], hop4_bytes ip, (hop4_fields h hsl ht).1, ?_,
      fun t htm => hop4_accept m htm h hsl hh ht⟩
    rw [hiff _ (by rw [hop4_length]; exact h)]
    exact (hop4_fields h hsl ht).2.2.2.2
  · intro hn
    by_cases h : 20 ≤ ip.length
    · rw [hiff ip h] at hn
      rw [forward4_value m h hsl, if_neg (fun hc => hn ⟨h, hc⟩)]
    · exact forward4_short m (by omega)

/-- A packet behind an IPv6 router. -/
def hop6 (ip : Buf) : Buf := ip.set 7 (UInt8.ofNat (bitsAt ip 56 8 - 1))

theorem hop6_set (m : Mode) {ip : Buf} (h : 40 ≤ ip.length) (hsl : SliceLen ip.length) :
    ipv6.set m ip 5 (.num (bitsAt ip 56 8 - 1)) = .ok (hop6 ip) :=
  set_byte (d := ipv6) (by decide) (k := 5) (j := 7) rfl rfl (by decide) (by decide) m ip hsl (new6 h) _

theorem forward6_value (m : Mode) {ip : Buf} (h : 40 ≤ ip.length) (hsl : SliceLen ip.length) :
    forward6 m ip = .ok (if 2 ≤ bitsAt ip 56 8 then some (hop6 ip) else none) := by
  have h5 : ipv6.get m ip 5 = .ok (.num (bitsAt ip 56 8)) :=
    layoutOk_get (L := ipv6Layout) (by decide +kernel) (k := 5) rfl m ip h
  have w := hop6_set m h hsl
  obtain ⟨x, hx⟩ := Option.isSome_iff_exists.mp (new6 h)
  unfold forward6
  simp only [hx, h5, ok_bind, Val.asNum]
  by_cases g : 2 ≤ bitsAt ip 56 8
  · have : ¬ bitsAt ip 56 8 ≤ 1 := by omega
    simp only [g, this, if_false, ok_bind, w, if_true]
    rfl
  · have : bitsAt ip 56 8 ≤ 1 := by omega
    simp [g, this]

theorem forward6_short (m : Mode) {ip : Buf} (h : ip.length < 40) : forward6 m ip = .ok none := by
  unfold forward6
  have : ipv6.newPacket ip = none := by
    unfold Decl.newPacket
    rw [if_neg (by rw [show ipv6.minSize = 40 by decide]; omega)]
  rw [this]

theorem hop6_fields {ip : Buf} (h : 40 ≤ ip.length) (hsl : SliceLen ip.length) :
    bitsAt (hop6 ip) 56 8 = bitsAt ip 56 8 - 1 ∧ bitsAt (hop6 ip) 32 16 = bitsAt ip 32 16 ∧
    bitsAt (hop6 ip) 48 8 = bitsAt ip 48 8 := by
  have hl : (hop6 ip).length = ip.length := List.length_set
  obtain ⟨-, hr⟩ := C93_registers ipv6 (by simp [crateDecls]) .debug (noInner 0) [.set 5 (.num (bitsAt ip 56 8 - 1))] ip
    (hop6 ip) hsl (new6 h) (by simp only [runWrites, Write.run, hop6_set .debug h hsl, ok_bind])
  have hget : ∀ (b : Buf), 40 ≤ b.length → ∀ k s, ipv6Layout[k]? = some s → ipv6.get .debug b k = .ok (s.read b) :=
    fun b hb k s hs => layoutOk_get (L := ipv6Layout) (by decide +kernel) hs .debug b hb
  have hlt := bitsAt_lt ip 56 8
  have e5 := (hr 5 _ rfl rfl).1 _ rfl
  have e3 := (hr 3 _ rfl rfl).2 rfl
  have e4 := (hr 4 _ rfl rfl).2 rfl
  rw [hget _ (by omega) 5 _ rfl] at e5
  rw [hget _ (by omega) 3 _ rfl, hget _ h 3 _ rfl] at e3
  rw [hget _ (by omega) 4 _ rfl, hget _ h 4 _ rfl] at e4
  have a5 : bitsAt (hop6 ip) 56 8 = (bitsAt ip 56 8 - 1) % 2 ^ 8 := Val.num.inj (Except.ok.inj e5)
  have a3 : bitsAt (hop6 ip) 32 16 = bitsAt ip 32 16 := Val.num.inj (Except.ok.inj e3)
  have a4 : [bitsAt (hop6 ip) 48 8] = [bitsAt ip 48 8] := Val.nums.inj (Except.ok.inj e4)
  exact ⟨by rw [a5]; omega, a3, List.head_eq_of_cons_eq a4⟩

theorem hop6_bytes (ip : Buf) : SameExcept [7] (hop6 ip) ip := by
  refine ⟨List.length_set, ?_⟩
  intro i hi
  simp only [List.mem_singleton] at hi
  unfold hop6
  rw [List.getElem?_set_ne (by omega)]

theorem hop6_drop (ip : Buf) {k : Nat} (h : 8 ≤ k) : (hop6 ip).drop k = ip.drop k := by
  apply List.ext_getElem?
  intro i
  rw [List.getElem?_drop, List.getElem?_drop]
  exact (hop6_bytes ip).2 _ (by simp; omega)

theorem hop6_accept (m : Mode) {t : Transport Ipv6Addr} (ht : t ∈ transports6) {ip : Buf} (h : 40 ≤ ip.length)
    (hsl : SliceLen ip.length) : accept6 m t (hop6 ip) = accept6 m t ip := by
  obtain ⟨j, tok⟩ := transports6_ok t ht
  have hl : (hop6 ip).length = ip.length := List.length_set
  obtain ⟨-, f3, f4⟩ := hop6_fields h hsl
  obtain ⟨s, d, seg, b, a1, a2, a3, -, a4, a5⟩ := accept6_value tok (m := m) h hsl
  obtain ⟨s', d', seg', b', b1, b2, b3, -, b4, b5⟩ := accept6_value tok (m := m) (ip := hop6 ip) (by omega)
    (by rw [hl]; exact hsl)
  rw [hop6_drop ip (by omega), ← a1] at b1
  rw [hop6_drop ip (by omega), ← a2] at b2
  rw [hop6_drop ip (by omega), f3, ← a3] at b3
  have := v6_ext b1
  subst this
  have := v6_ext b2
  subst this
  subst b3
  rw [a4] at b4
  cases b4
  rw [a5, b5, f4]

/-- **C135** An IPv6 router. -/
theorem C135_forward6 (m : Mode) (ip : Buf) (hsl : SliceLen ip.length) :
    (40 ≤ ip.length ∧ 2 ≤ bitsAt ip 56 8 →
      ∃ out, forward6 m ip = .ok (some out) ∧ SameExcept [7] out ip ∧ bitsAt out 56 8 = bitsAt ip 56 8 - 1 ∧
        ∀ t ∈ transports6, accept6 m t out = accept6 m t ip) ∧
    (¬ (40 ≤ ip.length ∧ 2 ≤ bitsAt ip 56 8) → forward6 m ip = .ok none) := by
  constructor
  · rintro ⟨h, ht⟩
    exact ⟨hop6 ip, by rw [forward6_value m h hsl, if_pos ht], hop6_bytes ip, (hop6_fields h hsl).1,
      fun t htm => hop6_accept m htm h hsl⟩
  · intro hn
    by_cases h : 40 ≤ ip.length
    · rw [forward6_value m h hsl, if_neg (fun hc => hn ⟨h, hc⟩)]
    · exact forward6_short m (by omega)

/-- **C135** The way through any number of IPv4 routers: if a receiver accepts the packet and the time to live is more
than their number, it arrives and the receiver gets the same. -/
theorem C135_path4 (m : Mode) (n : Nat) (ip : Buf) (hsl : SliceLen ip.length) (t : Transport Ipv4Addr)
    (ht : t ∈ transports4) (r : Ipv4Addr × Ipv4Addr × Buf) (h : accept4 m t ip = .ok (some r)) (hn : n < bitsAt ip 64 8) :
    ∃ out, route (forward4 m) n ip = .ok (some out) ∧ bitsAt out 64 8 = bitsAt ip 64 8 - n ∧
      accept4 m t out = .ok (some r) := by
  induction n generalizing ip with
  | zero => exact ⟨ip, rfl, rfl, h⟩
  | succ n ih =>
    obtain ⟨j, tok⟩ := transports4_ok t ht
    have h20 : 20 ≤ ip.length := by
      cases hx : ipv4.newPacket ip with
      | none => rw [show accept4 m t ip = .ok none by unfold accept4; rw [hx]] at h; cases h
      | some x =>
        have := (C06_new_iff ipv4 ip).1.mp (by rw [hx]; rfl)
        rw [show fixedBits ipv4.fields = 160 by decide] at this
        omega
    have hc : bitsAt ip 80 16 = sum4 ip := by
      obtain ⟨s, d, seg, b, -, -, -, -, -, -, -, a5⟩ := accept4_value tok (m := m) h20 hsl
      rw [h] at a5
      split at a5
      · rename_i hh; exact hh.1
      · cases a5
    have hh := hop4_accept m ht h20 hsl hc (by omega)
    have hf := (hop4_fields h20 hsl (by omega)).1
    obtain ⟨out, o1, o2, o3⟩ := ih (hop4 ip) (by rw [hop4_length]; exact hsl) (by rw [hh, h]) (by omega)
    refine ⟨out, ?_, by omega, o3⟩
    simp only [route, forward4_value m h20 hsl, if_pos (show bitsAt ip 80 16 = sum4 ip ∧ 2 ≤ bitsAt ip 64 8 from ⟨hc, by omega⟩),
      ok_bind, o1]

/-- **C135** The way through IPv6 routers. -/
theorem C135_path6 (m : Mode) (n : Nat) (ip : Buf) (hsl : SliceLen ip.length) (t : Transport Ipv6Addr)
    (ht : t ∈ transports6) (r : Ipv6Addr × Ipv6Addr × Buf) (h : accept6 m t ip = .ok (some r)) (hn : n < bitsAt ip 56 8) :
    ∃ out, route (forward6 m) n ip = .ok (some out) ∧ bitsAt out 56 8 = bitsAt ip 56 8 - n ∧
      accept6 m t out = .ok (some r) := by
  induction n generalizing ip with
  | zero => exact ⟨ip, rfl, rfl, h⟩
  | succ n ih =>
    have h40 : 40 ≤ ip.length := by
      cases hx : ipv6.newPacket ip with
      | none => rw [show accept6 m t ip = .ok none by unfold accept6; rw [hx]] at h; cases h
      | some x =>
        have := (C06_new_iff ipv6 ip).1.mp (by rw [hx]; rfl)
        rw [show fixedBits ipv6.fields = 320 by decide] at this
        omega
    have hh := hop6_accept m ht h40 hsl
    have hf := (hop6_fields h40 hsl).1
    obtain ⟨out, o1, o2, o3⟩ := ih (hop6 ip) (by rw [hop6, List.length_set]; exact hsl) (by rw [hh, h]) (by omega)
    refine ⟨out, ?_, by omega, o3⟩
    simp only [route, forward6_value m h40 hsl, if_pos (show 2 ≤ bitsAt ip 56 8 by omega), ok_bind, o1]

/-- **C135** No packet goes round in circles, whatever its bytes: as many routers as its time to live, and at least one,
drop it. So do any 255 routers. -/
theorem C135_circle (m : Mode) (n : Nat) (ip : Buf) (hsl : SliceLen ip.length) (h1 : 1 ≤ n) :
    (bitsAt ip 64 8 ≤ n → route (forward4 m) n ip = .ok none) ∧
    (bitsAt ip 56 8 ≤ n → route (forward6 m) n ip = .ok none) := by
  constructor
  · intro hn
    induction n generalizing ip with
    | zero => omega
    | succ n ih =>
      by_cases h20 : 20 ≤ ip.length
      · simp only [route, forward4_value m h20 hsl, ok_bind]
        split
        · rfl
        · rename_i out heq
          split at heq
          · rename_i hc
            cases heq
            have hf := (hop4_fields h20 hsl hc.2).1
            exact ih (hop4 ip) (by rw [hop4_length]; exact hsl) (by omega) (by omega)
          · cases heq
      · simp only [route, forward4_short m (show ip.length < 20 by omega), ok_bind]
  · intro hn
    induction n generalizing ip with
    | zero => omega
    | succ n ih =>
      by_cases h40 : 40 ≤ ip.length
      · simp only [route, forward6_value m h40 hsl, ok_bind]
        split
        · rfl
        · rename_i out heq
          split at heq
          · cases heq
            have hf := (hop6_fields h40 hsl).1
            exact ih (hop6 ip) (by rw [hop6, List.length_set]; exact hsl) (by omega) (by omega)
          · cases heq
      · simp only [route, forward6_short m (show ip.length < 40 by omega), ok_bind]

/-- The datagrams of C113 go through 63 routers, but not through 64; a wrong checksum stops the first of them at once. -/
example := C135_path4 .debug 63 datagram4 (by unfold SliceLen; decide) transports4[1] (List.getElem_mem _)
  (⟨#v[10, 0, 0, 1]⟩, ⟨#v[10, 0, 0, 2]⟩, datagram4.drop 20) (by decide +kernel) (by decide +kernel)

example := C135_path6 .debug 63 datagram6 (by unfold SliceLen; decide) transports6[0] (List.getElem_mem _)
  (⟨#v[254, 128, 0, 0, 0, 0, 0, 0, 0, 0, 0, 0, 0, 0, 0, 1]⟩, ⟨#v[254, 128, 0, 0, 0, 0, 0, 0, 0, 0, 0, 0, 0, 0, 0, 2]⟩,
    datagram6.drop 40) (by decide +kernel) (by decide +kernel)

example := (C135_circle .release 64 datagram4 (by unfold SliceLen; decide) (by decide)).1 (by decide +kernel)

example := (C135_forward4 .debug datagram4 (by unfold SliceLen; decide)).1
  ⟨by decide, ⟨26056, by decide +kernel, by decide +kernel⟩, by decide +kernel⟩

example : forward4 .debug (0x46 :: datagram4.drop 1) = .ok none ∧
    forward6 .debug datagram6 = .ok (some (datagram6.take 7 ++ 63 :: datagram6.drop 8)) := by decide +kernel

end Verif.Props
