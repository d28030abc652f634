import Verif.Spec.Traceroute
import Verif.Props.Ping
import Verif.Props.Tagging
import Verif.Props.Fragments
import Verif.Props.Transfer

/-!
# C142: traceroute

The programs are in `Spec/Traceroute`.
-/

set_option autoImplicit false

namespace Verif.Props
open Verif Verif.Spec

theorem populate_expired (m : Mode) {quote : Buf} (h : SliceLen (8 + quote.length)) :
    timeExceeded.populate m (List.replicate (8 + quote.length) 0)
      (.list [.nums [11], .nums [0], .num 0, .num 0, Spec.bytesVal quote]) = .ok ([11, 0, 0, 0, 0, 0, 0, 0] ++ quote) := by
  have hl : ([11, 0, 0, 0, 0, 0, 0, 0] ++ quote : Buf).length = 8 + quote.length := by
    rw [List.length_append]; rfl
  rw [← hl]
  apply populate_bytes (by decide) (by unfold timeExceeded; simp [fmisc, fprim, fpayloadRest])
    (by simp [timeExceeded, fmisc, fprim, fpayloadRest, typedFields, typed, Spec.bytesVal])
    (by simp [timeExceeded, fmisc, fprim, fpayloadRest, lensAgree]) (by rw [hl]; exact h)
  rw [bitsOf_append, show bitsOf [11, 0, 0, 0, 0, 0, 0, 0] = toBits 8 11 ++ (toBits 8 0 ++ (toBits 16 0 ++ toBits 32 0)) by decide]
  simp [timeExceeded, fmisc, fprim, fpayloadRest, encFields, encField, Spec.bytesVal, bytes_flatMap]

/-- The answer of a router is what the sender reads. -/
theorem expired4_ok (m : Mode) (router : Ipv4Addr) {ip : Buf} (h : 20 ≤ ip.length) (hsl : SliceLen ip.length) :
    ∃ src out, src.octets.toList = (ip.drop 12).take 4 ∧ expired4 m router ip = .ok out ∧
      readExpired m out = .ok (some (router, src, ip.take (min ip.length (4 * bitsAt ip 4 4 + 8)))) := by
  obtain ⟨-, ⟨src, hs1, hs2⟩, -⟩ := C72_ipv4 ⟨ipv4, 11, "source", 12⟩ (by simp [v4Fields]) m ip hsl (new4 h)
  have r1 : ipv4.get m ip 1 = .ok (.num (bitsAt ip 4 4)) := get4 m h (k := 1) rfl
  have hlt := bitsAt_lt ip 4 4
  generalize hn : min ip.length (4 * bitsAt ip 4 4 + 8) = n
  have hs : slice ip 0 n = .ok (ip.take n) := by
    simp only [slice, Nat.zero_le, show n ≤ ip.length by omega, and_self, if_true, List.drop_zero]
  have hql : (ip.take n).length = n := by rw [List.length_take]; omega
  generalize ip.take n = quote at *
  have hpop := populate_expired m (quote := quote) (by unfold SliceLen; omega)
  have hml : ([11, 0, 0, 0, 0, 0, 0, 0] ++ quote : Buf).length = 8 + quote.length := by
    rw [List.length_append]; rfl
  have hmem : icmpOver4 ∈ transports4 := by simp [transports4]
  obtain ⟨frame, msg, c, f1, f2, f3⟩ := C113_v4_delivered m [] ⟨5, 0, 0, 0, 0, 0, 64, router, src, []⟩ icmpOver4 hmem
    ([11, 0, 0, 0, 0, 0, 0, 0] ++ quote) []
    ⟨by simp, by simp, by simp, by rw [hml]; simp only; omega⟩
    ((C06_new_iff icmp _).1.mpr (by rw [show fixedBits icmp.fields = 32 by decide, hml]; omega))
    (fun x hx => ⟨trivial, by
      simp only [stackWire, List.append_nil]
      rw [hx, hml]; unfold SliceLen; simp only; omega⟩)
    (by rw [hml]; unfold SliceLen; simp only [List.length_nil]; omega)
  rw [List.append_nil] at f3
  have hmsl : SliceLen ([11, 0, 0, 0, 0, 0, 0, 0] ++ quote : Buf).length := by rw [hml]; unfold SliceLen; omega
  have hset := (set_word (d := icmp) (by decide) (k := 2) (j := 1) rfl rfl (by decide) (by decide) m
    ([11, 0, 0, 0, 0, 0, 0, 0] ++ quote) hmsl
    ((C06_new_iff icmp _).1.mpr (by rw [show fixedBits icmp.fields = 32 by decide, hml]; omega)) c).2
  have hmsg : storeWord 1 c ([11, 0, 0, 0, 0, 0, 0, 0] ++ quote) = msg := Except.ok.inj (hset.symm.trans f2)
  have hmsgl : msg.length = 8 + quote.length := by rw [← hmsg, storeWord_length, hml]
  have hty : icmp.getAs Newtype.ofPrimitive m msg 0 = .ok 11 := by
    rw [get_type m (by omega), List.getD_eq_getElem?_getD, ← hmsg, storeWord_get _ _ _ (by omega)]
    rfl
  have hpay : timeExceeded.payload m msg = .ok quote := by
    rw [C09_open_payloads timeExceeded 8 (by simp [openPayloads]) m msg (by rw [hmsgl, ← hml]; exact hmsl)]
    congr 1
    apply List.ext_getElem?
    intro i
    rw [List.getElem?_drop, ← hmsg, storeWord_get _ _ _ (by omega), List.getElem?_append_right (by simp)]
    congr 1
    simp
  obtain ⟨y, hy⟩ := Option.isSome_iff_exists.mp ((C06_new_iff timeExceeded msg).1.mpr
    (by rw [show fixedBits timeExceeded.fields = 64 by decide]; omega))
  have hacc : accept4 m icmpOver4 frame = .ok (some (router, src, msg)) := f3
  refine ⟨src, frame, hs2, ?_, ?_⟩
  · simp only [expired4, hs1, ok_bind, r1, Val.asNum, hn, hs, hpop, f1]
  · simp only [readExpired, hacc, ok_bind, hty, ne_eq, not_true_eq_false, if_false, hy, hpay]
    rfl

theorem holds4 (m : Mode) {b : Buf} (hb : 20 ≤ b.length) :
    Holds (ipv4.get m b 10) (ipv4HeaderChecksum m b) ↔ bitsAt b 80 16 = sum4 b := by
  rw [show ipv4.get m b 10 = .ok (.num (bitsAt b 80 16)) from get4 m hb (k := 10) rfl, sum4_eq m hb]
  constructor
  · rintro ⟨c, h1, h2⟩
    exact (Val.num.inj (Except.ok.inj h1)).trans (Except.ok.inj h2).symm
  · intro h
    exact ⟨sum4 b, by rw [h], rfl⟩

theorem trace_some {m : Mode} {r : Ipv4Addr} {rs : List Ipv4Addr} {ip ip' : Buf} (h : forward4 m ip = .ok (some ip')) :
    trace m (r :: rs) ip = trace m rs ip' := by
  rw [trace, h]; rfl

theorem trace_none {m : Mode} {r : Ipv4Addr} {rs : List Ipv4Addr} {ip : Buf} (h : forward4 m ip = .ok none)
    (hl : 20 ≤ ip.length) :
    trace m (r :: rs) ip = if bitsAt ip 80 16 = sum4 ip then (expired4 m r ip).map Outcome.answered else .ok .dropped := by
  obtain ⟨x, hx⟩ := Option.isSome_iff_exists.mp (new4 hl)
  have h10 : ipv4.get m ip 10 = .ok (.num (bitsAt ip 80 16)) := get4 m hl (k := 10) rfl
  rw [trace, h]
  simp only [ok_bind, hx, h10, Val.asNum, sum4_eq m hl]
  by_cases hc : bitsAt ip 80 16 = sum4 ip
  · simp only [hc, ne_eq, not_true_eq_false, if_false, if_true]
    cases expired4 m r ip <;> rfl
  · simp only [hc, ne_eq, not_false_eq_true, if_true, if_false]
    rfl

theorem sameExcept_trans {ps : List Nat} {a b c : Buf} (h : SameExcept ps a b) (g : SameExcept ps b c) : SameExcept ps a c :=
  ⟨h.1.trans g.1, fun i hi => (h.2 i hi).trans (g.2 i hi)⟩

/-- **C142** A packet whose header holds its checksum, on its way over any routers. If its time to live is more than their
number, it arrives, the time to live less by that number and the other bytes as sent. If not, the router at the place that
the time to live counts answers; from the answer the sender reads the address of that router, its own address and the bytes
of its packet up to eight behind the header, but for the time to live and the checksum. -/
theorem C142_trace (m : Mode) (rs : List Ipv4Addr) (ip : Buf) (hsl : SliceLen ip.length) (h : 20 ≤ ip.length)
    (hc : Holds (ipv4.get m ip 10) (ipv4HeaderChecksum m ip)) :
    (rs = [] ∨ rs.length < bitsAt ip 64 8 →
      ∃ out, trace m rs ip = .ok (.delivered out) ∧ bitsAt out 64 8 = bitsAt ip 64 8 - rs.length ∧
        SameExcept [8, 10, 11] out ip ∧ Holds (ipv4.get m out 10) (ipv4HeaderChecksum m out)) ∧
    (rs ≠ [] ∧ bitsAt ip 64 8 ≤ rs.length →
      ∃ router src out quote, rs[bitsAt ip 64 8 - 1]? = some router ∧ src.octets.toList = (ip.drop 12).take 4 ∧
        trace m rs ip = .ok (.answered out) ∧ readExpired m out = .ok (some (router, src, quote)) ∧
        SameExcept [8, 10, 11] quote (ip.take (4 * bitsAt ip 4 4 + 8))) := by
  rw [holds4 m h] at hc
  induction rs generalizing ip with
  | nil =>
    refine ⟨fun _ => ⟨ip, rfl, rfl, ⟨rfl, fun _ _ => rfl⟩, (holds4 m h).mpr hc⟩, fun hn => absurd rfl hn.1⟩
  | cons r rs ih =>
    have hf := forward4_value m h hsl
    by_cases ht : 2 ≤ bitsAt ip 64 8
    · rw [if_pos ⟨hc, ht⟩] at hf
      have hl := hop4_length ip
      obtain ⟨f8, f1, -, -, f10⟩ := hop4_fields h hsl ht
      obtain ⟨i1, i2⟩ := ih (hop4 ip) (by rw [hl]; exact hsl) (by omega) f10
      rw [trace_some hf]
      constructor
      · intro hlt
        have hlt : rs.length + 1 < bitsAt ip 64 8 := by
          rcases hlt with hlt | hlt
          · cases hlt
          · exact hlt
        obtain ⟨out, a1, a2, a3, a4⟩ := i1 (.inr (by clear i1 i2 ih; omega))
        exact ⟨out, a1, by rw [a2, f8, List.length_cons]; clear i1 i2 ih; omega, sameExcept_trans a3 (hop4_bytes ip), a4⟩
      · rintro ⟨-, hle⟩
        rw [List.length_cons] at hle
        obtain ⟨router, src, out, quote, a1, a2, a3, a4, a5⟩ := i2
          ⟨by intro hn; rw [hn, List.length_nil] at hle; clear i1 i2 ih; omega, by clear i1 i2 ih; omega⟩
        refine ⟨router, src, out, quote, ?_, by rw [a2, hop4_drop ip (by omega)], a3, a4, ?_⟩
        · rw [f8] at a1
          rw [show bitsAt ip 64 8 - 1 = (bitsAt ip 64 8 - 1 - 1) + 1 by clear i1 i2 ih; omega, List.getElem?_cons_succ, a1]
        · rw [f1] at a5
          refine sameExcept_trans a5 ⟨by rw [List.length_take, List.length_take, hl], fun i hi => ?_⟩
          rw [List.getElem?_take, List.getElem?_take, (hop4_bytes ip).2 i hi]
    · rw [if_neg (fun hn => ht hn.2)] at hf
      constructor
      · intro hlt
        rcases hlt with hlt | hlt
        · cases hlt
        · rw [List.length_cons] at hlt
          have : rs.length = 0 := by omega
          omega
      · intro _
        obtain ⟨src, out, e1, e2, e3⟩ := expired4_ok m r h hsl
        refine ⟨r, src, out, _, ?_, e1, ?_, e3, ?_⟩
        · rw [show bitsAt ip 64 8 - 1 = 0 by omega]; rfl
        · rw [trace_none hf h, if_pos hc, e2]; rfl
        · refine ⟨by rw [List.length_take, List.length_take]; omega, fun i _ => ?_⟩
          rw [List.getElem?_take, List.getElem?_take]
          by_cases hi : i < ip.length
          · by_cases hj : i < 4 * bitsAt ip 4 4 + 8
            · rw [if_pos (by omega), if_pos hj]
            · rw [if_neg (by omega), if_neg hj]
          · rw [List.getElem?_eq_none (by omega)]; simp

/-- **C142** Other bytes are dropped by the first router: nothing is answered to what has no right header. -/
theorem C142_dropped (m : Mode) (r : Ipv4Addr) (rs : List Ipv4Addr) (ip : Buf) (hsl : SliceLen ip.length)
    (h : ¬ (20 ≤ ip.length ∧ Holds (ipv4.get m ip 10) (ipv4HeaderChecksum m ip))) :
    trace m (r :: rs) ip = .ok .dropped := by
  by_cases hl : 20 ≤ ip.length
  · have hc : ¬ bitsAt ip 80 16 = sum4 ip := fun hc => h ⟨hl, (holds4 m hl).mpr hc⟩
    rw [trace_none (by rw [forward4_value m hl hsl, if_neg (fun hn => hc hn.1)]) hl, if_neg hc]
  · have hn : ipv4.newPacket ip = none := by
      unfold Decl.newPacket
      rw [if_neg (by rw [show ipv4.minSize = 20 by decide]; omega)]
    rw [trace, forward4_short m (by omega)]
    simp only [ok_bind, hn]
    rfl

/-- The packet with time to live `t`. -/
def probe4 (ip : Buf) (t : Nat) : Buf := storeWord 5 (sum4 (ip.set 8 (UInt8.ofNat t))) (ip.set 8 (UInt8.ofNat t))

theorem probe4_length (ip : Buf) (t : Nat) : (probe4 ip t).length = ip.length := by
  unfold probe4
  rw [storeWord_length, List.length_set]

theorem probe4_writes (m : Mode) {ip : Buf} (h : 20 ≤ ip.length) (hsl : SliceLen ip.length) (t : Nat) :
    ipv4.set m ip 8 (.num t) = .ok (ip.set 8 (UInt8.ofNat t)) ∧
    ipv4.set m (ip.set 8 (UInt8.ofNat t)) 10 (.num (sum4 (ip.set 8 (UInt8.ofNat t)))) = .ok (probe4 ip t) := by
  have hl : (ip.set 8 (UInt8.ofNat t)).length = ip.length := List.length_set
  exact ⟨set_byte (d := ipv4) (by decide) (k := 8) (j := 8) rfl rfl (by decide) (by decide) m ip hsl (new4 h) _,
    (set_word (d := ipv4) (by decide) (k := 10) (j := 5) rfl rfl (by decide) (by decide) m _ (by rw [hl]; exact hsl)
      (new4 (by rw [hl]; exact h)) _).2⟩

theorem probe4_fields {ip : Buf} (h : 20 ≤ ip.length) (hsl : SliceLen ip.length) {t : Nat} (ht : t < 256) :
    bitsAt (probe4 ip t) 64 8 = t ∧ bitsAt (probe4 ip t) 80 16 = sum4 (probe4 ip t) := by
  have hl := probe4_length ip t
  obtain ⟨w1, w2⟩ := probe4_writes .debug h hsl t
  obtain ⟨-, hr⟩ := C93_registers ipv4 (by simp [crateDecls]) .debug (noInner 0)
    [.set 8 (.num t), .set 10 (.num (sum4 (ip.set 8 (UInt8.ofNat t))))] ip (probe4 ip t)
    hsl (new4 h) (by simp only [runWrites, Write.run, w1, w2, ok_bind])
  have e8 := (hr 8 _ rfl rfl).1 _ rfl
  have e10 := (hr 10 _ rfl rfl).1 _ rfl
  rw [get4 .debug (by omega) (k := 8) rfl] at e8
  rw [get4 .debug (by omega) (k := 10) rfl] at e10
  have a8 : bitsAt (probe4 ip t) 64 8 = t % 2 ^ 8 := Val.num.inj (Except.ok.inj e8)
  have a10 : bitsAt (probe4 ip t) 80 16 = sum4 (ip.set 8 (UInt8.ofNat t)) % 2 ^ 16 := Val.num.inj (Except.ok.inj e10)
  refine ⟨by rw [a8]; omega, ?_⟩
  rw [a10]
  unfold sum4
  rw [Nat.mod_eq_of_lt (internetChecksum_lt _)]
  have hh : head4 (probe4 ip t) = head4 (ip.set 8 (UInt8.ofNat t)) := by
    unfold head4
    rw [hl, List.length_set]
    simp [probe4, storeWord, putWord, List.getD_eq_getElem?_getD]
  rw [hh]
  unfold probe4
  rw [storeWord_take, zeroWord_storeWord_self]

/-- **C142** Who answers a packet sent with time to live `t`: the router at that place of the way, if there is one. -/
theorem C142_ask (m : Mode) (rs : List Ipv4Addr) (ip : Buf) (hsl : SliceLen ip.length) (h : 20 ≤ ip.length) (t : Nat)
    (h1 : 1 ≤ t) (h2 : t < 256) : ask m rs ip t = .ok rs[t - 1]? := by
  have hl := probe4_length ip t
  obtain ⟨w1, w2⟩ := probe4_writes m h hsl t
  obtain ⟨f8, f10⟩ := probe4_fields h hsl h2
  have hs := sum4_eq m (ip := ip.set 8 (UInt8.ofNat t)) (by rw [List.length_set]; exact h)
  obtain ⟨c1, c2⟩ := C142_trace m rs (probe4 ip t) (by rw [hl]; exact hsl) (by omega) ((holds4 m (by omega)).mpr f10)
  rw [f8] at c1 c2
  simp only [ask, w1, hs, w2, ok_bind]
  by_cases hd : rs = [] ∨ rs.length < t
  · obtain ⟨out, o1, -⟩ := c1 hd
    rw [o1, List.getElem?_eq_none (by
      rcases hd with rfl | hd
      · exact Nat.zero_le _
      · omega)]
    rfl
  · obtain ⟨router, src, out, quote, o1, -, o2, o3, -⟩ := c2 ⟨fun hn => hd (.inl hn), Nat.le_of_not_lt fun hn => hd (.inr hn)⟩
    rw [o2, o1]
    simp only [ok_bind, o3]
    rfl

/-- **C142** Times to live from one on find the routers of the way, in their order and no others, whatever the packet. -/
theorem C142_discover (m : Mode) (rs : List Ipv4Addr) (ip : Buf) (hsl : SliceLen ip.length) (h : 20 ≤ ip.length) (n : Nat)
    (hn : n ≤ 255) : discover m rs ip n 1 = .ok (rs.take n) := by
  have key : ∀ n t, n + t ≤ 255 → discover m rs ip n (t + 1) = .ok ((rs.drop t).take n) := by
    intro n
    induction n with
    | zero => intro t _; rfl
    | succ n ih =>
      intro t ht
      rw [discover, C142_ask m rs ip hsl h (t + 1) (by omega) (by omega), ok_bind, Nat.add_sub_cancel]
      cases hr : rs[t]? with
      | none =>
        rw [List.drop_eq_nil_of_le (List.getElem?_eq_none_iff.mp hr)]
        rfl
      | some r =>
        obtain ⟨hlt, hg⟩ := List.getElem?_eq_some_iff.mp hr
        simp only [ih (t + 1) (by omega), ok_bind]
        rw [List.drop_eq_getElem_cons hlt, hg, List.take_succ_cons]
        rfl
  exact key n 0 (by omega)

example := C142_discover .debug [⟨#v[10, 0, 0, 9]⟩, ⟨#v[10, 9, 9, 9]⟩] datagram4 (by unfold SliceLen; decide) (by decide) 30
  (by decide)

example : discover .debug [⟨#v[10, 0, 0, 9]⟩, ⟨#v[10, 9, 9, 9]⟩] datagram4 4 1 =
    .ok [⟨#v[10, 0, 0, 9]⟩, ⟨#v[10, 9, 9, 9]⟩] := by decide +kernel

example := C142_ask .debug [⟨#v[10, 0, 0, 9]⟩, ⟨#v[10, 9, 9, 9]⟩] datagram4 (by unfold SliceLen; decide) (by decide) 2
  (by decide) (by decide)

example := (C142_trace .debug (List.replicate 63 ⟨#v[10, 9, 9, 9]⟩) datagram4 (by unfold SliceLen; decide) (by decide)
  ⟨26056, by decide +kernel, by decide +kernel⟩).1 (by decide +kernel)

example := (C142_trace .release (List.replicate 64 ⟨#v[10, 9, 9, 9]⟩) datagram4 (by unfold SliceLen; decide) (by decide)
  ⟨26056, by decide +kernel, by decide +kernel⟩).2 (by decide +kernel)

example := C142_dropped .debug ⟨#v[10, 9, 9, 9]⟩ [] (0x46 :: datagram4.drop 1) (by unfold SliceLen; decide)
  (fun hn => absurd ((holds4 .debug hn.1).mp hn.2) (by decide +kernel))

/-- The quoted bytes, the time to live one as at the last router. -/
example : ((trace .debug (List.replicate 64 ⟨#v[10, 9, 9, 9]⟩) datagram4).bind fun o =>
    match o with
    | .answered out => readExpired .debug out
    | _ => .ok none).map (·.map fun r => (r.1.octets.toList, r.2.1.octets.toList, r.2.2.length, r.2.2.getD 8 0)) =
      .ok (some ([10, 9, 9, 9], [10, 0, 0, 1], min datagram4.length 28, 1)) := by decide +kernel

end Verif.Props
