import Verif.Spec.Ping
import Verif.Props.Reflect

/-!
# C138: answers to echo requests

The program is in `Spec/Ping`.
-/

set_option autoImplicit false

namespace Verif.Props
open Verif Verif.Spec

theorem set_type (m : Mode) {msg : Buf} (hsl : SliceLen msg.length) (hnew : (icmp.newPacket msg).isSome = true) :
    icmp.setAs Newtype.toPrimitive m msg 0 0 = .ok (msg.set 0 0) := by
  have h4 : 4 ≤ msg.length := by
    have := (C06_new_iff icmp msg).1.mp hnew
    rw [show fixedBits icmp.fields = 32 by decide] at this
    omega
  obtain ⟨new, h1, h2, h3⟩ := C03_declared_setter icmp (by decide) 0 _ rfl (by decide) (by decide) m
    (noInner 0) (.nums [0]) rfl msg hsl hnew
  unfold Decl.setAs Newtype.toPrimitive
  rw [h1]
  congr 1
  apply bitsOf_inj
  rw [h3, List.set_eq_take_append_cons_drop, if_pos (by omega),
    show (0 : UInt8) :: msg.drop (0 + 1) = [0] ++ msg.drop (0 + 1) from rfl,
    ← List.append_assoc, bitsOf_append, bitsOf_append, bitsOf_take, bitsOf_drop]
  congr 2

theorem get_type (m : Mode) {msg : Buf} (h : 4 ≤ msg.length) :
    icmp.getAs Newtype.ofPrimitive m msg 0 = .ok (msg.getD 0 0).toNat := by
  have h0 : icmp.get m msg 0 = .ok (.nums [bitsAt msg 0 8]) :=
    layoutOk_get (d := icmp) (L := icmpLayout) (by decide +kernel) (k := 0) rfl m msg h
  have hb : bitsAt msg 0 8 = (msg.getD 0 0).toNat := by
    cases msg with
    | nil => simp at h
    | cons x rest =>
      rw [bitsAt_congr (a := x :: rest) (b := [x]) (k := 1) rfl (by decide)]
      exact ofBits_byteBits x
  simp only [Decl.getAs, h0, ok_bind, Newtype.ofPrimitive, hb]

/-- **C138** The program never panics. It answers exactly the accepted packets with an echo request: the answer is accepted,
goes from the old destination to the old source, has type 0 (echo reply), and differs from the packet that came only in the
addresses, the type and the checksum of the message, so identifier, sequence number and data are the same. -/
theorem C138_pong (m : Mode) (ip : Buf) (hsl : SliceLen ip.length) :
    (pong4 m ip = .ok none ∧ ∀ s d msg, accept4 m icmpOver4 ip = .ok (some (s, d, msg)) → (msg.getD 0 0).toNat ≠ 8) ∨
    ∃ s d msg out msg', accept4 m icmpOver4 ip = .ok (some (s, d, msg)) ∧ (msg.getD 0 0).toNat = 8 ∧
      pong4 m ip = .ok (some out) ∧ accept4 m icmpOver4 out = .ok (some (d, s, msg')) ∧
      msg'.getD 0 0 = 0 ∧ SameExcept [0, 2, 3] msg' msg ∧
      SameExcept [12, 13, 14, 15, 16, 17, 18, 19, segmentAt ip, segmentAt ip + 2, segmentAt ip + 3] out ip := by
  have hm : icmpOver4 ∈ transports4 := by simp [transports4]
  obtain ⟨j, tok⟩ := transports4_ok _ hm
  have hj : j = 1 := by
    have := tok.pos
    rw [show fixedBits (icmpOver4.d.fields.take icmpOver4.sumField) = 16 by decide] at this
    omega
  subst hj
  cases ha : accept4 m icmpOver4 ip with
  | error e =>
    exfalso
    by_cases h : 20 ≤ ip.length
    · obtain ⟨_, _, _, _, -, -, -, -, -, -, -, a5⟩ := accept4_value tok (m := m) h hsl
      rw [a5] at ha
      cases ha
    · unfold accept4 at ha
      have : ipv4.newPacket ip = none := by
        unfold Decl.newPacket
        rw [if_neg (by rw [show ipv4.minSize = 20 by decide]; omega)]
      rw [this] at ha
      cases ha
  | ok r =>
    cases r with
    | none => exact .inl ⟨by simp only [pong4, ha, ok_bind]; rfl, by intro s d msg h; cases h⟩
    | some v =>
      obtain ⟨s, d, msg⟩ := v
      obtain ⟨A, O, T, hA, hOl, hat, hip, hl, hck⟩ := pieces4 hm hsl ha
      have hn : (icmp.newPacket msg).isSome = true := by
        cases hp : icmp.newPacket msg with
        | none => unfold Transport.check at hck; rw [hp] at hck; cases hck
        | some x => rfl
      have h4 : 4 ≤ msg.length := by
        have := (C06_new_iff icmp msg).1.mp hn
        rw [show fixedBits icmp.fields = 32 by decide] at this
        omega
      have hg := get_type m h4
      by_cases h8 : (msg.getD 0 0).toNat = 8
      · right
        have w1 := set_type m (by unfold SliceLen; omega) hn
        have hl1 : (msg.set 0 0).length = msg.length := List.length_set
        obtain ⟨c, -, -, c2, c3⟩ := stamp_check tok (m := m) (seg := msg.set 0 0) (s := d) (d := s)
          (by rw [(C06_new_iff _ _).1, hl1]; exact (C06_new_iff _ _).1.mp hn) (by omega)
        have hl2 : (storeWord 1 c (msg.set 0 0)).length = msg.length := by rw [storeWord_length, hl1]
        have hgi : ∀ i, i ≠ 0 → i ≠ 2 → i ≠ 3 → (storeWord 1 c (msg.set 0 0))[i]? = msg[i]? := by
          intro i i0 i2 i3
          rw [storeWord_get _ _ _ (by omega), List.getElem?_set_ne (by omega)]
        have hz : (storeWord 1 c (msg.set 0 0)).getD 0 0 = 0 := by
          rw [List.getD_eq_getElem?_getD, storeWord_get _ _ _ (by omega), List.getElem?_set_self (by omega)]
          rfl
        generalize storeWord 1 c (msg.set 0 0) = msg' at *
        have hO : 20 + O.length = max 20 (4 * bitsAt ip 4 4) := by omega
        have hsl0 := hsl
        have ha0 := ha
        rw [hip] at hsl0 hO ha0
        obtain ⟨o1, o2⟩ := answer4 hm hA hsl0 hO ha0 hl2 (by intro e; rw [e] at hl2; simp at hl2; omega) c3
        rw [← hip] at o1
        have hll : (A ++ d.octets.toList ++ s.octets.toList ++ O ++ (msg' ++ T)).length = ip.length := by
          conv => rhs; rw [hip]
          simp [hl2]
        refine ⟨s, d, msg, _, msg', rfl, h8, ?_, o2, hz, ⟨hl2, ?_⟩, ⟨hll, ?_⟩⟩
        · simp only [pong4, ha, ok_bind, hg, h8, ne_eq, not_true_eq_false, if_false, w1, c2]
          obtain ⟨x1, y1, o1⟩ := bind_eq_ok.mp o1
          obtain ⟨x2, y2, o1⟩ := bind_eq_ok.mp o1
          simp only [y1, y2, o1, ok_bind]
          rfl
        · intro i hi
          simp only [List.mem_cons, List.not_mem_nil, or_false, not_or] at hi
          exact hgi i hi.1 hi.2.1 hi.2.2
        · intro i hi
          simp only [List.mem_cons, List.not_mem_nil, or_false, not_or] at hi
          have hs4 : s.octets.toList.length = 4 := by simp
          have hd4 : d.octets.toList.length = 4 := by simp
          have h2 : (A ++ d.octets.toList ++ s.octets.toList ++ O ++ (msg ++ T))[i]? = ip[i]? := by
            conv => rhs; rw [hip]
            have := mid_get (x := A) (new := d.octets.toList ++ s.octets.toList) (old := s.octets.toList ++ d.octets.toList)
              (y := O ++ (msg ++ T)) (by simp) (i := i) (by simp only [List.length_append, hA, hs4, hd4]; omega)
            simpa only [List.append_assoc] using this
          rw [← h2]
          have hX : (A ++ d.octets.toList ++ s.octets.toList ++ O).length = segmentAt ip := by
            simp only [List.length_append, hA, hs4, hd4]; omega
          generalize A ++ d.octets.toList ++ s.octets.toList ++ O = X at hX
          by_cases hi1 : i < X.length
          · rw [List.getElem?_append_left hi1, List.getElem?_append_left hi1]
          · rw [List.getElem?_append_right (l₁ := X) (l₂ := msg' ++ T) (by omega),
              List.getElem?_append_right (l₁ := X) (l₂ := msg ++ T) (by omega)]
            by_cases hi2 : i - X.length < msg.length
            · rw [List.getElem?_append_left (l₁ := msg') (by omega), List.getElem?_append_left (l₁ := msg) hi2]
              exact hgi _ (by omega) (by omega) (by omega)
            · rw [List.getElem?_append_right (l₁ := msg') (by omega), List.getElem?_append_right (l₁ := msg) (by omega), hl2]
      · left
        refine ⟨?_, ?_⟩
        · simp only [pong4, ha, ok_bind, hg, ne_eq, h8, not_false_eq_true, if_true]
          rfl
        · intro s' d' msg' h
          simp only [Except.ok.injEq, Option.some.injEq, Prod.mk.injEq] at h
          rw [← h.2.2]
          exact h8

/-- **C138** Two such programs do not answer each other for ever: an answer is not answered. -/
theorem C138_once (m : Mode) (ip out : Buf) (hsl : SliceLen ip.length) (h : pong4 m ip = .ok (some out)) :
    pong4 m out = .ok none := by
  rcases C138_pong m ip hsl with ⟨h1, -⟩ | ⟨s, d, msg, out', msg', -, -, h1, h2, h3, -, h4⟩
  · rw [h] at h1
    cases h1
  · rw [h] at h1
    cases h1
    rcases C138_pong m out (by rw [h4.1]; exact hsl) with ⟨h5, -⟩ | ⟨s₂, d₂, msg₂, _, _, h5, h6, -⟩
    · exact h5
    · rw [h2] at h5
      simp only [Except.ok.injEq, Option.some.injEq, Prod.mk.injEq] at h5
      rw [← h5.2.2, h3] at h6
      cases h6

/-- An echo request from 10.0.0.1 to 10.0.0.2 with data 1, 2, 3, and a byte behind it. -/
def pingPacket : Buf := [69, 0, 0, 31, 0, 1, 0, 0, 64, 1, 102, 219, 10, 0, 0, 1, 10, 0, 0, 2] ++
  [8, 0, 243, 245, 0, 7, 0, 1, 1, 2, 3] ++ [9]

example := C138_pong .debug pingPacket (by unfold SliceLen; decide)

example := C138_once .debug pingPacket _ (by unfold SliceLen; decide)
  (by decide +kernel : pong4 .debug pingPacket = .ok (some ([69, 0, 0, 31, 0, 1, 0, 0, 64, 1, 102, 219, 10, 0, 0, 2, 10, 0, 0, 1] ++ [0, 0, 251, 245, 0, 7, 0, 1, 1, 2, 3] ++ [9])))

/-- It is answered; the answer is not. -/
example : pong4 .debug pingPacket = .ok (some ([69, 0, 0, 31, 0, 1, 0, 0, 64, 1, 102, 219, 10, 0, 0, 2, 10, 0, 0, 1] ++
      [0, 0, 251, 245, 0, 7, 0, 1, 1, 2, 3] ++ [9])) ∧
    pong4 .debug ([69, 0, 0, 31, 0, 1, 0, 0, 64, 1, 102, 219, 10, 0, 0, 2, 10, 0, 0, 1] ++
      [0, 0, 251, 245, 0, 7, 0, 1, 1, 2, 3] ++ [9]) = .ok none := by decide +kernel

end Verif.Props
