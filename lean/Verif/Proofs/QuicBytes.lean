import Verif.Proofs.Bits
import Verif.Spec.Quic

/-! Helper lemmas: numbers in network order. -/

namespace Verif
open Spec

theorem beBytes_length (n v : Nat) : (Quic.beBytes n v).length = n := by simp [Quic.beBytes]

theorem beBytes_succ (n v : Nat) :
    Quic.beBytes (n + 1) v = UInt8.ofNat (v / 256 ^ n) :: Quic.beBytes n v := by
  unfold Quic.beBytes
  rw [List.range_succ_eq_map, List.map_cons, List.map_map]
  congr 1
  apply List.map_congr_left
  intro i hi
  simp only [Function.comp]
  congr 3
  omega

theorem beNat_beBytes_mod (n v : Nat) : beNat (Quic.beBytes n v) = v % 256 ^ n := by
  induction n with
  | zero => simp [Quic.beBytes, beNat, Nat.mod_one]
  | succ n ih =>
    rw [beBytes_succ, beNat_cons, ih, beBytes_length]
    have : (UInt8.ofNat (v / 256 ^ n)).toNat = v / 256 ^ n % 256 := by simp
    rw [this, Nat.pow_succ, Nat.mod_mul]
    rw [Nat.mul_comm]; omega

theorem beNat_beBytes {n v : Nat} (h : v < 256 ^ n) : beNat (Quic.beBytes n v) = v := by
  rw [beNat_beBytes_mod, Nat.mod_eq_of_lt h]

end Verif
