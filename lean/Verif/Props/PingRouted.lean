import Verif.Props.Ping
import Verif.Props.Fragments
import Verif.Props.Router

/-!
# C138: ping over routers
-/

set_option autoImplicit false

namespace Verif.Props
open Verif Verif.Spec

theorem route_length (m : Mode) (n : Nat) {f g : Buf} (hsl : SliceLen f.length) (h : route (forward4 m) n f = .ok (some g)) :
    g.length = f.length := by
  induction n generalizing f with
  | zero => rw [Option.some.inj (Except.ok.inj h)]
  | succ n ih =>
    by_cases h20 : 20 ≤ f.length
    · rw [route, forward4_value m h20 hsl] at h
      by_cases hc : bitsAt f 80 16 = sum4 f ∧ 2 ≤ bitsAt f 64 8
      · rw [if_pos hc] at h
        have hl := hop4_length f
        exact (ih (by rw [hl]; exact hsl) h).trans hl
      · rw [if_neg hc] at h; cases h
    · rw [route, forward4_short m (by omega)] at h; cases h

/-- **C138** Ping over routers: an echo request that a receiver would accept, sent over `a` routers to a host that answers, and
the answer over `b` routers back, with the time to live left. If it is more than `a + b`, the sender accepts an echo reply from
the host to itself, with identifier, sequence number and data as sent. -/
theorem C138_routed (m : Mode) (a b : Nat) (ip : Buf) (hsl : SliceLen ip.length) (s d : Ipv4Addr) (msg : Buf)
    (h : accept4 m icmpOver4 ip = .ok (some (s, d, msg))) (h8 : (msg.getD 0 0).toNat = 8) (ht : a + b < bitsAt ip 64 8) :
    ∃ there out back msg', route (forward4 m) a ip = .ok (some there) ∧ pong4 m there = .ok (some out) ∧
      route (forward4 m) b out = .ok (some back) ∧ accept4 m icmpOver4 back = .ok (some (d, s, msg')) ∧
      msg'.getD 0 0 = 0 ∧ SameExcept [0, 2, 3] msg' msg := by
  have hm : icmpOver4 ∈ transports4 := by simp [transports4]
  obtain ⟨there, t1, t2, t3⟩ := C135_path4 m a ip hsl icmpOver4 hm _ h (by omega)
  have hl := route_length m a hsl t1
  rcases C138_pong m there (by rw [hl]; exact hsl) with ⟨-, hno⟩ | ⟨s', d', msg₁, out, msg', p1, -, p2, p3, p4, p5, p6⟩
  · exact absurd h8 (hno _ _ _ t3)
  · rw [t3] at p1
    simp only [Except.ok.injEq, Option.some.injEq, Prod.mk.injEq] at p1
    obtain ⟨rfl, rfl, rfl⟩ := p1
    have htake : out.take 12 = there.take 12 := by
      apply List.ext_getElem?
      intro i
      rw [List.getElem?_take, List.getElem?_take]
      split
      · refine p6.2 i ?_
        have : 20 ≤ segmentAt there := by unfold segmentAt; omega
        simp only [List.mem_cons, List.not_mem_nil, or_false]
        omega
      · rfl
    have httl : bitsAt out 64 8 = bitsAt there 64 8 := bitsAt_take htake (by omega)
    obtain ⟨back, b1, -, b3⟩ := C135_path4 m b out (by rw [p6.1, hl]; exact hsl) icmpOver4 hm _ p3 (by omega)
    exact ⟨there, out, back, msg', t1, p2, b1, b3, p4, p5⟩

example := C138_routed .debug 31 32 pingPacket (by unfold SliceLen; decide) ⟨#v[10, 0, 0, 1]⟩ ⟨#v[10, 0, 0, 2]⟩
  [8, 0, 243, 245, 0, 7, 0, 1, 1, 2, 3] (by decide +kernel) (by decide) (by decide +kernel)

end Verif.Props
