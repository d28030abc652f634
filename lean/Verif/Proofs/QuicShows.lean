import Verif.Proofs.QuicLong

/-! Helper lemmas: accessors of QUIC packets. -/

namespace Verif
open Spec

theorem beBytes_beNat (v : Buf) : Quic.beBytes v.length (beNat v) = v := by
  induction v with
  | nil => rfl
  | cons b t ih =>
    have hlt := beNat_lt t
    have hb := b.toNat_lt
    have hp : 0 < 256 ^ t.length := Nat.pow_pos (by omega)
    rw [List.length_cons, beBytes_succ, beNat_cons]
    have h1 : (b.toNat * 256 ^ t.length + beNat t) / 256 ^ t.length = b.toNat := by
      rw [Nat.mul_comm, Nat.mul_add_div hp, Nat.div_eq_of_lt hlt, Nat.add_zero]
    congr 1
    · rw [h1, UInt8.ofNat_toNat]
    · have h2 : ∀ (n x y : Nat), Quic.beBytes n (x * 256 ^ n + y) = Quic.beBytes n y := by
        intro n x y
        unfold Quic.beBytes
        apply List.map_congr_left
        intro i hi
        have hi := List.mem_range.mp hi
        rw [← UInt8.toNat_inj, UInt8.toNat_ofNat', UInt8.toNat_ofNat']
        have h3 : x * 256 ^ n = 256 ^ (n - 1 - i) * (256 * (x * 256 ^ i)) := by
          rw [show n = (n - 1 - i) + 1 + i by omega, Nat.pow_add, Nat.pow_add]
          rw [show n - 1 - i + 1 + i - 1 - i = n - 1 - i by omega]
          simp only [Nat.pow_one, Nat.mul_assoc, Nat.mul_left_comm]
        rw [h3, Nat.mul_add_div (Nat.pow_pos (by omega)), Nat.mul_add_mod]
      rw [h2]; exact ih

theorem version_read (b : UInt8) {v : Buf} (hv : v.length = 4) (t : Buf) :
    bitsAt (b :: (v ++ t)) 8 32 = beNat v := by
  rw [show (8 : Nat) = 8 * 1 from rfl, show (32 : Nat) = 8 * 4 from rfl, Props.C55_whole_bytes]
  simp [← hv]

theorem packetNumber_ok {pn : Buf} (h : pn.length ≤ 8) :
    packetNumber (pn.map UInt8.toNat) = .ok (beNat pn) := by
  rw [packetNumber, if_pos (by simpa using h), List.foldl_append]
  have h0 : ∀ n, (List.replicate n 0).foldl (fun a b => a * 256 + b) 0 = 0 := by
    intro n
    induction n with
    | zero => rfl
    | succ n ih => rw [List.replicate_succ, List.foldl_cons]; exact ih
  rw [h0]
  have := foldl_be pn 0
  simp only [Nat.zero_mul, Nat.zero_add] at this
  exact congrArg _ this

/-- Getters of a packet with a Length field. -/
theorem long_common {k : QuicKind} (hk : k.long = true) (m : Mode) {b : UInt8} {v : Buf}
    (hv : v.length = 4) {pre length pn frames rest : Buf} {vals : List Val} {buf : Buf}
    (hbuf : buf = b :: (v ++ (pre ++ (length ++ (pn ++ (frames ++ rest))))))
    (hmin : 7 ≤ buf.length) (hsl : SliceLen buf.length)
    (hscan : ∀ is X, scan m (k.items ++ is) (k.head.map (·.read buf)) (pre ++ X) = scan m is vals X)
    (hvl : vals.length = k.lengthPos) (h4 : vals[4]? = some (.num (bitsAt buf 6 2)))
    (hpn : pn.length = bitsAt buf 6 2 + 1)
    (hl : Quic.Varint length (pn.length + frames.length)) :
    QuicPacket.remaining m ⟨k, buf⟩ = .ok rest ∧
      (∀ j x, vals[j]? = some x → k.decl.get m buf j = .ok x) ∧
      k.decl.getRaw m buf (k.lengthPos + 1) = .ok pn ∧
      k.decl.getRaw m buf (k.lengthPos + 2) = .ok frames := by
  have hmin' : k.decl.minSize ≤ buf.length := by
    rw [quic_minSize]; cases k <;> first | exact hmin | cases hk
  have hhs : k.headSize = 5 := by cases k <;> first | rfl | cases hk
  have hdrop : buf.drop 5 = pre ++ (length ++ (pn ++ (frames ++ rest))) := by
    rw [hbuf, ← List.cons_append, List.drop_left' (by simp [hv])]
  have hs0 : scan m k.items (k.head.map (·.read buf)) (buf.drop 5) =
      some (vals, length ++ (pn ++ (frames ++ rest))) := by
    have := hscan [] (length ++ (pn ++ (frames ++ rest)))
    rw [List.append_nil] at this
    rw [hdrop, this, scan]
  have ha := quic_scan k m buf hmin' hsl (by rw [hhs]; exact hs0)
  have hlen : (k.decl.fields.take k.head.length ++ k.mid).length = k.lengthPos := by
    cases k <;> first | rfl | cases hk
  have hfields := long_fields k hk
  refine ⟨?_, ?_, ?_⟩
  · rw [remaining_long k hk m buf hmin hsl, hs0, ← hpn]
    exact tailRest_enc m hl rest
  · exact fun j x hj => get_alive hfields ha hj
  have hsplit : ∀ a c : List Field, St.run m buf .init (a ++ c) = St.run m buf (St.run m buf .init a) c :=
    fun a c => run_append ..
  have hle : (length ++ (pn ++ (frames ++ rest))).length ≤ buf.length := by
    rw [hbuf]; simp only [List.length_cons, List.length_append]; omega
  have hsl' := hsl
  unfold SliceLen at hsl'
  simp only [List.length_append] at hle
  -- after Length
  have ha1 : Alive buf (St.run m buf .init (k.decl.fields.take k.head.length ++ k.mid ++
      [fbytes "length" lenVarintLength])) (vals ++ [bytesVal length]) (pn ++ (frames ++ rest)) := by
    rw [hsplit]
    have := ha.step_vec (m := m) hsl (f := fbytes "length" lenVarintLength) rfl rfl
      (n := length.length) (by simp only [lenVarintLength, ok_bind]; exact (varint_enc hl _).1) (by simp)
    rw [List.take_left, List.drop_left] at this
    exact this
  have hpnlen : lenPn 4 m (env (vals ++ [bytesVal length])) (.ok (pn ++ (frames ++ rest))) = .ok pn.length := by
    have h5 : (vals ++ [bytesVal length])[4]? = some (.num (bitsAt buf 6 2)) := by
      rw [List.getElem?_append_left (List.getElem?_eq_some_iff.mp h4).1, h4]
    rw [lenPn, lenNum, env, h5, hpn]; rfl
  have ha2 : Alive buf (St.run m buf .init (k.decl.fields.take k.head.length ++ k.mid ++
      [fbytes "length" lenVarintLength] ++ [fbytes "packet_number" (lenPn 4)]))
      (vals ++ [bytesVal length] ++ [bytesVal pn]) (frames ++ rest) := by
    rw [hsplit]
    have := ha1.step_vec (m := m) hsl (f := fbytes "packet_number" (lenPn 4)) rfl rfl
      (n := pn.length) hpnlen (by simp)
    rw [List.take_left, List.drop_left] at this
    exact this
  constructor
  · have := getRaw_alive (d := k.decl) (f := fbytes "packet_number" (lenPn 4))
      (post := [fbytes "frames" (lenFrames k.lengthPos (k.lengthPos + 1)), frest "remaining"])
      (by rw [List.append_assoc _ [_]]; exact hfields) hsl ha1 rfl hpnlen (by omega)
      (k := k.lengthPos + 1) (by rw [List.length_append, hlen]; rfl)
    rw [List.take_left] at this
    exact this
  · have hfl : lenFrames k.lengthPos (k.lengthPos + 1) m (env (vals ++ [bytesVal length] ++ [bytesVal pn]))
        (.ok (frames ++ rest)) = .ok frames.length := by
      have e1 : env (vals ++ [bytesVal length] ++ [bytesVal pn]) k.lengthPos = .ok (bytesVal length) := by
        rw [env, List.append_assoc, List.getElem?_append_right (by omega), hvl]; simp
      have e2 : env (vals ++ [bytesVal length] ++ [bytesVal pn]) (k.lengthPos + 1) = .ok (bytesVal pn) := by
        rw [env, List.append_assoc, List.getElem?_append_right (by omega), hvl]; simp
      rw [lenFrames, e1, e2]
      simp only [ok_bind, Val.asNums, (varint_enc hl []).2]
      unfold usub
      rw [List.length_map, if_pos (by omega)]
      congr 1; omega
    have := getRaw_alive (d := k.decl) (f := fbytes "frames" (lenFrames k.lengthPos (k.lengthPos + 1)))
      (post := [frest "remaining"])
      (by rw [List.append_assoc _ [_], List.append_assoc _ [_]]; exact hfields) hsl ha2 rfl hfl (by omega)
      (k := k.lengthPos + 2) (by rw [List.length_append, List.length_append, hlen]; rfl)
    rw [List.take_left] at this
    exact this

end Verif
