import Verif.Props.Tunnel
import Verif.Props.FragmentsRouted

/-!
# C143: GRE tunnels over IPv4 routers
-/

set_option autoImplicit false

namespace Verif.Props
open Verif Verif.Spec

theorem route_ok (m : Mode) (n : Nat) {f : Buf} (h : 20 ≤ f.length) (hsl : SliceLen f.length) (hc : bitsAt f 80 16 = sum4 f)
    (hn : n < bitsAt f 64 8) :
    ∃ g, route (forward4 m) n f = .ok (some g) ∧ g.length = f.length ∧ bitsAt g 72 8 = bitsAt f 72 8 := by
  induction n generalizing f with
  | zero => exact ⟨f, rfl, rfl, rfl⟩
  | succ n ih =>
    have hl := hop4_length f
    obtain ⟨f8, -, -, f9, f10⟩ := hop4_fields h hsl (by omega)
    obtain ⟨g, g1, g2, g3⟩ := ih (f := hop4 f) (by omega) (by rw [hl]; exact hsl) f10 (by omega)
    refine ⟨g, ?_, g2.trans hl, g3.trans f9⟩
    rw [route, forward4_value m h hsl, if_pos ⟨hc, by omega⟩]
    exact g1

/-- **C143** A tunnel over IPv4: what goes in comes out behind any number of routers below the time to live of the outer
header, whatever else that header holds. -/
theorem C143_routed (m : Mode) (n : Nat) (head : Buf) (hl : Nat) (h5 : 5 ≤ hl) (hh : head.length = 4 * hl)
    (hb : bitsAt head 4 4 = hl) (hp : bitsAt head 72 8 = 47) (hn : n < bitsAt head 64 8) (h : GreHead) (hf : h.Fits)
    (inner : Buf) (hlen : 4 * hl + (h.size + inner.length) ≤ 65535) :
    ∃ out g, sendGre m head h inner = .ok out ∧ route (forward4 m) n out = .ok (some g) ∧
      receiveGre m g = .ok (some (h, inner)) := by
  have hsz : SliceLen (h.size + inner.length) := Nat.lt_of_le_of_lt (Nat.le_trans (Nat.le_add_left _ _) hlen) (by decide)
  obtain ⟨b, b1, b2, b3⟩ := C143_enter_leave m h hf inner hsz
  obtain ⟨f, f1, f2, f3, f4, -, -⟩ := oneFragment_ok m (data := b) (off := 0) false hh h5 hb (by rw [b2]; exact hlen) (by decide)
  rw [b2] at f3
  have h20 : 20 ≤ f.length := by omega
  have hd20 : 20 ≤ head.length := by omega
  have hfsl : SliceLen f.length := by
    rw [f3]; exact Nat.lt_of_le_of_lt hlen (by decide)
  have e8 := f4 8 (by decide)
  have e9 := f4 9 (by decide)
  rw [get4 m h20 (k := 8) rfl, get4 m hd20 (k := 8) rfl] at e8
  rw [get4 m h20 (k := 9) rfl, get4 m hd20 (k := 9) rfl] at e9
  have a8 : bitsAt f 64 8 = bitsAt head 64 8 := Val.num.inj (Except.ok.inj e8)
  have a9 : [bitsAt f 72 8] = [bitsAt head 72 8] := Val.nums.inj (Except.ok.inj e9)
  have a9 := List.head_eq_of_cons_eq a9
  have hc : bitsAt f 80 16 = sum4 f := by
    rw [readPiece_value m h20] at f2
    by_cases hc : bitsAt f 80 16 = sum4 f
    · exact hc
    · rw [if_neg hc] at f2; cases f2
  obtain ⟨g, g1, g2, g3⟩ := route_ok m n h20 hfsl hc (by rw [a8]; exact hn)
  refine ⟨f, g, ?_, g1, ?_⟩
  · simp only [sendGre, b1, ok_bind, f1]
  · have r9 : ipv4.get m g 9 = .ok (.nums [bitsAt g 72 8]) := get4 m (by omega) (k := 9) rfl
    rw [g3, a9, hp] at r9
    have hr := (route_piece m n hfsl g1).trans f2
    simp only [receiveGre, hr, ok_bind, r9, b3, Nat.mul_zero, ne_eq, not_true_eq_false, Bool.false_eq_true, or_self, if_false]

/-- **C143** The end of a tunnel over IPv4 never panics, whatever the bytes. -/
theorem C143_receive_total (m : Mode) (ip : Buf) (hsl : SliceLen ip.length) : ∃ r, receiveGre m ip = .ok r := by
  by_cases h : 20 ≤ ip.length
  · have r9 : ipv4.get m ip 9 = .ok (.nums [bitsAt ip 72 8]) := get4 m h (k := 9) rfl
    simp only [receiveGre, readPiece_value m h, ok_bind, r9]
    by_cases hc : bitsAt ip 80 16 = sum4 ip
    · simp only [hc, if_true]
      generalize hd : (ip.drop (max 20 (4 * bitsAt ip 4 4))).take (bitsAt ip 16 16 - 4 * bitsAt ip 4 4) = d
      have hdl : SliceLen d.length := by
        refine Nat.lt_of_le_of_lt ?_ hsl
        rw [← hd, List.length_take, List.length_drop]
        omega
      have htot : ∃ r, leaveGre m d = .ok r := by
        obtain ⟨v1, v2⟩ := C143_leave m d hdl _ _ _ rfl rfl rfl
        by_cases hv : 4 + 4 * bitsAt d 0 1 + 4 * bitsAt d 2 1 + 4 * bitsAt d 3 1 ≤ d.length ∧ bitsAt d 1 1 = 0
        · exact ⟨_, v1 hv⟩
        · exact ⟨_, v2 hv⟩
      split
      · exact ⟨_, rfl⟩
      · split
        · exact ⟨_, rfl⟩
        · exact htot
    · simp only [hc, if_false]
      exact ⟨_, rfl⟩
  · have hn : ipv4.newPacket ip = none := by
      unfold Decl.newPacket
      rw [if_neg (by rw [show ipv4.minSize = 20 by decide]; omega)]
    simp only [receiveGre, readPiece, hn, ok_bind]
    exact ⟨_, rfl⟩

/-- An outer header with options. -/
def outerHead : Buf := [70, 0, 0, 0, 0, 9, 0, 0, 64, 47, 0, 0, 10, 0, 0, 1, 10, 0, 0, 2, 1, 1, 1, 0]

example := C143_routed .debug 63 outerHead 6 (by decide) (by decide) (by decide +kernel) (by decide +kernel) (by decide +kernel)
  fullHead fullHead_fits [1, 2, 3] (by simp [GreHead.size, fullHead])

example := C143_receive_total .debug outerHead (by unfold SliceLen; decide)

/-- Another protocol. -/
example : ((sendGre .debug (outerHead.set 9 17) fullHead [1, 2, 3]).bind (receiveGre .debug)) = .ok none := by decide +kernel

end Verif.Props
