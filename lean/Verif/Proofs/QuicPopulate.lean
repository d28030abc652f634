import Verif.Proofs.QuicEnc
import Verif.Proofs.Populate

/-! Helper lemmas: `populate` of QUIC packets. -/

namespace Verif
open Spec

/-- Wire formats of inner packets, for declarations without inner packets. -/
def noInner : Nat → Wire := fun _ => ⟨fun _ => [], id, fun _ => False⟩

/-- On zeroes each length expression leaves enough space for its field. -/
def zeroFit (m : Mode) : (seen : List Val) → List Field → List Val → Prop
  | seen, f :: fs, v :: vs =>
    (∀ e, f.len = some e → ∀ r : Nat, (encField (noInner 0) f.ty v).length / 8 ≤ r →
      ∃ n, e m (env seen) (.ok (List.replicate r 0)) = .ok n ∧
        (encField (noInner 0) f.ty v).length / 8 ≤ n ∧ n ≤ r) ∧
      zeroFit m (seen ++ [normField (noInner 0) f.ty v]) fs vs
  | _, _, _ => True

theorem zeroFit_get {m : Mode} {seen : List Val} {fs : List Field} {vs : List Val} (i : Nat)
    (h : zeroFit m seen fs vs) {k : Nat} {f : Field} {v : Val} (hf : fs[k]? = some f)
    (hv : vs[k]? = some v) {e : LenExpr} (he : f.len = some e) {r : Nat}
    (hr : (encField (noInner 0) f.ty v).length / 8 ≤ r) :
    ∃ n, e m (env (seen ++ normFields noInner i (fs.take k) (vs.take k))) (.ok (List.replicate r 0)) =
        .ok n ∧ (encField (noInner 0) f.ty v).length / 8 ≤ n ∧ n ≤ r := by
  induction fs generalizing seen vs k i with
  | nil => simp at hf
  | cons g fs ih => cases vs with
    | nil => simp at hv
    | cons w vs => cases k with
      | zero =>
        simp only [List.getElem?_cons_zero, Option.some.injEq] at hf hv
        subst hf hv
        simpa [normFields] using h.1 e he r hr
      | succ k =>
        simp only [List.getElem?_cons_succ] at hf hv
        have := ih (i + 1) h.2 hf hv
        rw [List.append_assoc] at this
        exact this

theorem bitsOf_zeros (n : Nat) : bitsOf (List.replicate n 0) = List.replicate (8 * n) false := by
  induction n with
  | zero => rfl
  | succ n ih =>
    rw [List.replicate_succ, show 8 * (n + 1) = 8 * n + 8 by omega, Nat.add_comm, ← List.replicate_append_replicate,
      ← ih]
    rfl

/-- `Settable` on zeroes. -/
theorem settable_zero {m : Mode} {d : Decl} {vs : List Val} {size j : Nat}
    (hz : zeroFit m [] (d.fields.take j) (vs.take j))
    (hfit : (encFields noInner 0 (d.fields.take j) (vs.take j)).length ≤ 8 * size) {k : Nat} (hk : k < j) :
    Settable m noInner d vs (bitsOf (List.replicate size 0)) k := by
  intro f v e hf hv he rest hrest
  rw [bitsOf_zeros, List.drop_replicate] at hrest
  have hlen := congrArg List.length hrest
  rw [bitsOf_length, List.length_replicate] at hlen
  have hrest' : rest = List.replicate rest.length 0 := by
    apply bitsOf_inj
    rw [bitsOf_zeros, hrest, hlen]
  have hf' : (d.fields.take j)[k]? = some f := by rw [List.getElem?_take_of_lt hk, hf]
  have hv' : (vs.take j)[k]? = some v := by rw [List.getElem?_take_of_lt hk, hv]
  have hsp := congrArg List.length (encFields_split noInner 0 (d.fields.take j) (vs.take j) k)
  rw [List.length_append, List.take_take, List.take_take, Nat.min_eq_left (by omega),
    drop_of_getElem? hf', drop_of_getElem? hv', encFields, List.length_append] at hsp
  have hE : ∀ i, noInner i = noInner 0 := fun _ => rfl
  rw [hE] at hsp ⊢
  have := zeroFit_get 0 hz hf' hv' he (r := rest.length) (by omega)
  rw [← hrest', List.take_take, List.take_take, Nat.min_eq_left (by omega), List.nil_append] at this
  exact this

/-- A declaration without inner packets. -/
def Flat (d : Decl) : Prop := ∀ f ∈ d.fields, ∀ c, f.ty ≠ .vecPkt c

theorem Flat.lawful {d : Decl} (h : Flat d) (m : Mode) : LawfulElems m noInner d :=
  fun _ f c hf hc => absurd hc (h f (List.mem_of_getElem? hf) c)

/-- `populate` on zeroes and `from_packet`. -/
theorem populate_zero {m : Mode} {d : Decl} {vs : List Val} {bs : Buf} (hreg : regular d = true)
    (hflat : Flat d) (htyped : typedFields noInner 0 d.fields vs)
    (hlens : lensLocal m noInner 0 [] d.fields vs) (henc : encFields noInner 0 d.fields vs = bitsOf bs)
    (hnorm : normFields noInner 0 d.fields vs = vs) (hsl : SliceLen bs.length) :
    (zeroFit m [] d.fields vs → d.populate m (List.replicate bs.length 0) (.list vs) = .ok bs) ∧
    d.fromPacket m bs = .ok (.list vs) := by
  constructor
  · intro hz
    have hlen := typedFields_length htyped
    have e1 : d.fields.take d.fields.length = d.fields := List.take_length
    have e2 : vs.take d.fields.length = vs := by rw [← hlen, List.take_length]
    obtain ⟨new, h1, h2, h3⟩ := populate_on hreg (hflat.lawful m) htyped hlens
      (List.replicate bs.length 0) (by rw [List.length_replicate]; exact hsl)
      (fun k => by
        by_cases hk : k < d.fields.length
        · exact settable_zero (by rw [e1, e2]; exact hz)
            (by rw [e1, e2, henc, bitsOf_length]; omega) hk
        · intro f v e hf
          rw [List.getElem?_eq_none (by omega)] at hf
          cases hf)
      (by rw [henc, bitsOf_length, List.length_replicate]; omega)
    rw [h1]
    congr 1
    apply bitsOf_inj
    rw [h3, henc, List.drop_eq_nil_of_le, List.append_nil]
    rw [bitsOf_length, bitsOf_length, List.length_replicate]
    omega
  · have := fromPacket_enc hsl hreg (hflat.lawful m) htyped (tail := []) (lensLocal_on _ hlens)
      (by rw [henc, List.append_nil]) (.inr rfl)
    rw [this, hnorm]

theorem populateFrom_append (d : Decl) (m : Mode) (k : Nat) (a b : List Val) (buf : Buf) :
    d.populateFrom m k (a ++ b) buf =
      (d.populateFrom m k a buf >>= fun buf' => d.populateFrom m (k + a.length) b buf') := by
  induction a generalizing k buf with
  | nil => simp [Decl.populateFrom]
  | cons v a ih =>
    rw [List.cons_append, Decl.populateFrom, Decl.populateFrom]
    cases d.set m buf k v with
    | error e => rfl
    | ok b' =>
      rw [ok_bind, ok_bind, ih, List.length_cons, show k + 1 + a.length = k + (a.length + 1) by omega]

/-- `populate` on zeroes panics at a byte vector that is longer than its length expression says. -/
theorem populate_zero_panic {m : Mode} {d : Decl} {vs : List Val} {size : Nat} (hreg : regular d = true)
    (hflat : Flat d) (htyped : typedFields noInner 0 d.fields vs)
    (hlens : lensLocal m noInner 0 [] d.fields vs) {j : Nat} {f : Field} {ns : List Nat} {e : LenExpr}
    (hf : d.fields[j]? = some f) (hv : vs[j]? = some (.nums ns)) (hty : f.ty = .vecPrim (u 8))
    (he : f.len = some e)
    (hz : zeroFit m [] (d.fields.take j) (vs.take j)) (hns : 0 < ns.length)
    (hfit : (encFields noInner 0 (d.fields.take j) (vs.take j)).length + 8 * ns.length ≤ 8 * size)
    (hsl : SliceLen size)
    (hbig : ∀ r, ∀ get, 0 < r → ∃ n, e m get (.ok (List.replicate r 0)) = .ok n ∧ n < ns.length) :
    d.populate m (List.replicate size 0) (.list vs) = panic := by
  have hlen := typedFields_length htyped
  have hj := (List.getElem?_eq_some_iff.mp hf).1
  obtain ⟨b, h1, h2, h3⟩ := populateFrom_enc hreg (hflat.lawful m) htyped hlens
    (bitsOf (List.replicate size 0)) j (by omega)
    (fun k hk => settable_zero hz (by omega) hk)
    (by rw [bitsOf_length, List.length_replicate]; omega) 0 (by omega)
    (List.replicate size 0) (by rw [List.length_replicate]; exact hsl) (by simp [encFields])
  rw [List.drop_zero] at h1
  rw [List.length_replicate] at h2
  rw [Decl.populate, if_pos hlen]
  have hsplit : vs = vs.take j ++ (.nums ns :: vs.drop (j + 1)) := by
    rw [← drop_of_getElem? hv, List.take_append_drop]
  rw [hsplit, populateFrom_append, h1, ok_bind, List.length_take, Nat.min_eq_left (by omega), Nat.zero_add,
    Decl.populateFrom]
  obtain ⟨hb, hsz⟩ := before_enc (m := m) (k := j) (by rw [h2]; exact hsl) hreg (hflat.lawful m) hj htyped
    (lensLocal_on _ (lensLocal_take hlens j)) h3
  generalize encSizes noInner 0 (d.fields.take j) (vs.take j) = sizes at hb hsz
  have hregj := regularFields_drop hreg j
  rw [drop_of_getElem? hf, Nat.zero_add] at hregj
  simp only [regularFields, Bool.and_eq_true] at hregj
  obtain ⟨⟨-, hshape⟩, -⟩ := hregj
  rw [hty, if_pos (by rfl)] at hshape
  simp only [Bool.and_eq_true, beq_iff_eq] at hshape
  have hb8 := hshape.1
  have hsl' := hsl
  unfold SliceLen at hsl'
  have hco : curOff m (bitsSum (d.fields.take j)) (sizes.map .ok) =
      .ok (bitsSum (d.fields.take j) / 8 + sizes.sum) := curOff_ok (by unfold usizeCard; omega)
  have hrest : b.drop (bitsSum (d.fields.take j) / 8 + sizes.sum) =
      List.replicate (size - (bitsSum (d.fields.take j) / 8 + sizes.sum)) 0 := by
    apply bitsOf_inj
    rw [bitsOf_zeros, bitsOf_drop, h3, show 8 * (bitsSum (List.take j d.fields) / 8 + sizes.sum) =
        (encFields noInner 0 (d.fields.take j) (vs.take j)).length by omega, List.drop_left, bitsOf_zeros,
        List.drop_replicate]
    congr 1; omega
  have hset : d.set m b j (.nums ns) = panic := by
    rw [Decl.set, hf]
    dsimp only
    rw [hty, hb]
    dsimp only
    rw [hco, ok_bind, he]
    dsimp only
    obtain ⟨n, hn, hlt⟩ := hbig (size - (bitsSum (d.fields.take j) / 8 + sizes.sum))
      (env (normFields noInner 0 (d.fields.take j) (vs.take j))) (by omega)
    rw [lenExpr, env_eq_get]
    dsimp only
    rw [hco, ok_bind, sliceFrom, if_pos (by omega), hrest, hn, ok_bind, if_neg (by omega)]
    rfl
  rw [hset]; rfl

/-! ## Pieces of the encodings -/

theorem bytes_enc (bs : Buf) : encField (noInner 0) (.vecPrim (u 8)) (Quic.bytesOf bs) = bitsOf bs := by
  simp only [Quic.bytesOf, encField, u, flatMap_toBits8, List.map_map]
  congr 1
  conv => rhs; rw [← List.map_id bs]
  apply List.map_congr_left
  intro a _
  simp

theorem bytes_norm (bs : Buf) : normField (noInner 0) (.vecPrim (u 8)) (Quic.bytesOf bs) = Quic.bytesOf bs := by
  simp only [Quic.bytesOf, normField, u, List.map_map]
  congr 1
  apply List.map_congr_left
  intro a _
  exact Nat.mod_eq_of_lt a.toNat_lt

theorem byte_bits (n : Nat) : toBits 8 n = bitsOf [UInt8.ofNat n] := by
  have := flatMap_toBits8 [n]
  simpa using this

theorem toBits_add (a b v : Nat) : toBits (a + b) v = toBits a (v / 2 ^ b) ++ toBits b v := by
  apply List.ext_getElem?
  intro i
  by_cases h : i < a
  · rw [List.getElem?_append_left (by simpa using h), toBits_getElem? _ _ _ (by omega), toBits_getElem? _ _ _ h,
      ← Nat.shiftRight_eq_div_pow, Nat.testBit_shiftRight]
    congr 2; omega
  · rw [List.getElem?_append_right (by simpa using h), toBits_length]
    by_cases h2 : i < a + b
    · rw [toBits_getElem? _ _ _ h2, toBits_getElem? _ _ _ (by omega)]
      congr 2; omega
    · rw [List.getElem?_eq_none (by simp; omega), List.getElem?_eq_none (by simp; omega)]

theorem beBytes_bits (n v : Nat) : toBits (8 * n) v = bitsOf (Quic.beBytes n v) := by
  induction n with
  | zero => rfl
  | succ n ih =>
    rw [show 8 * (n + 1) = 8 + 8 * n by omega, toBits_add, ih, beBytes_succ, byte_bits,
      show (2 : Nat) ^ (8 * n) = 256 ^ n by rw [Nat.pow_mul], ← bitsOf_append]
    rfl

theorem word_bits (v : Nat) : toBits 32 v = bitsOf (Quic.beBytes 4 v) := beBytes_bits 4 v

theorem first_bits (ty reserved pn : Nat) (h1 : ty < 4) (h2 : reserved < 4) (h3 : pn < 4) :
    toBits 1 1 ++ (toBits 1 1 ++ (toBits 2 ty ++ (toBits 2 reserved ++ toBits 2 pn))) =
      bitsOf [UInt8.ofNat (0xC0 + 16 * ty + 4 * reserved + pn)] := by
  have key : ∀ a < 4, ∀ b < 4, ∀ c < 4,
      toBits 1 1 ++ (toBits 1 1 ++ (toBits 2 a ++ (toBits 2 b ++ toBits 2 c))) =
        bitsOf [UInt8.ofNat (0xC0 + 16 * a + 4 * b + c)] := by decide +kernel
  exact key ty h1 reserved h2 pn h3

/-! ## Length expressions -/

theorem agree_both {m : Mode} {seen : List Val} {e : LenExpr} {n : Nat}
    (h : ∀ rest, e m (env seen) rest = .ok n) (r : Nat) (hr : n ≤ r) :
    ∃ k, e m (env seen) (.ok (List.replicate r 0)) = .ok k ∧ n ≤ k ∧ k ≤ r :=
  ⟨n, h _, Nat.le_refl _, hr⟩

theorem varintLength_zero {r : Nat} (h : 0 < r) : varintLength (List.replicate r 0) = .ok 1 := by
  cases r with
  | zero => omega
  | succ r => rfl

/-! ## The long header -/

/-- The first ten fields of Initial, 0-RTT and Handshake packets. -/
def longFields : List Field := [
  fmisc "header_form" [1],
  fmisc "fixed_bit" [1],
  fmisc "long_packet_type" [2],
  fprim "reserved" 2,
  fprim "packet_number_len" 2,
  fmisc "version" [32],
  fprim "dest_id_len" 8,
  fbytes "dest_id" (lenU8 6),
  fprim "src_id_len" 8,
  fbytes "src_id" (lenU8 8)]

theorem noInner_eq (i : Nat) : noInner i = noInner 0 := rfl

section
variable {ty reserved version : Nat} {dcid scid pn : Buf} (hty : ty < 4) (hres : reserved < 4)
  (hpn : Quic.PnOk pn) (hh : Quic.HeaderOk version dcid scid)
include hty hres hpn

theorem longStruct_enc (fs : List Field) (vs : List Val) :
    encFields noInner 0 (longFields ++ fs) (Quic.longStruct ty reserved version dcid scid pn ++ vs) =
      bitsOf (Quic.longHeader ty reserved pn.length version dcid scid) ++ encFields noInner 10 fs vs := by
  have hp : pn.length - 1 < 4 := by have := hpn.1; have := hpn.2; omega
  simp only [longFields, Quic.longStruct, List.cons_append, List.nil_append, encFields, fmisc, fprim, fbytes,
    noInner_eq, bytes_enc, List.map_cons, List.map_nil]
  simp only [encField, List.zipWith_cons_cons, List.zipWith_nil_right, List.flatten_cons, List.flatten_nil,
    List.append_nil, u]
  rw [← List.append_assoc (toBits 1 1), Quic.longHeader]
  have := first_bits ty reserved (pn.length - 1) hty hres hp
  simp only [bitsOf_append, ← this, byte_bits, word_bits, List.append_assoc]

include hh
theorem longStruct_norm (fs : List Field) (vs : List Val) :
    normFields noInner 0 (longFields ++ fs) (Quic.longStruct ty reserved version dcid scid pn ++ vs) =
      Quic.longStruct ty reserved version dcid scid pn ++ normFields noInner 10 fs vs := by
  have hp : pn.length - 1 < 4 := by have := hpn.1; have := hpn.2; omega
  obtain ⟨h1, h2, h3, h4⟩ := hh
  simp only [longFields, Quic.longStruct, List.cons_append, List.nil_append, normFields, fmisc, fprim, fbytes,
    noInner_eq, bytes_norm, List.map_cons, List.map_nil]
  simp only [normField, List.zipWith_cons_cons, List.zipWith_nil_right, u, Nat.reducePow]
  rw [Nat.mod_eq_of_lt hty, Nat.mod_eq_of_lt hres, Nat.mod_eq_of_lt hp, Nat.mod_eq_of_lt h2,
    Nat.mod_eq_of_lt h3, Nat.mod_eq_of_lt h4]

theorem longStruct_lens (m : Mode) (fs : List Field) (vs : List Val) :
    (lensLocal m noInner 10 (Quic.longStruct ty reserved version dcid scid pn) fs vs →
      lensLocal m noInner 0 [] (longFields ++ fs) (Quic.longStruct ty reserved version dcid scid pn ++ vs)) ∧
    (zeroFit m (Quic.longStruct ty reserved version dcid scid pn) fs vs →
      zeroFit m [] (longFields ++ fs) (Quic.longStruct ty reserved version dcid scid pn ++ vs)) := by
  have hp : pn.length - 1 < 4 := by have := hpn.1; have := hpn.2; omega
  obtain ⟨h1, h2, h3, h4⟩ := hh
  have hn := bytes_norm dcid
  have hn' := bytes_norm scid
  have e0 : ∀ i, (noInner i) = noInner 0 := fun _ => rfl
  have l1 : ∀ bs : Buf, (bitsOf bs).length / 8 = bs.length := by intro bs; rw [bitsOf_length]; omega
  simp only [longFields, Quic.longStruct, List.cons_append, List.nil_append, lensLocal, zeroFit, fmisc, fprim,
    fbytes, noInner_eq, bytes_norm, bytes_enc, List.map_cons, List.map_nil, l1]
  simp only [normField, List.zipWith_cons_cons, List.zipWith_nil_right, u, Nat.reducePow,
    Nat.mod_eq_of_lt hty, Nat.mod_eq_of_lt hres, Nat.mod_eq_of_lt hp, Nat.mod_eq_of_lt h2,
    Nat.mod_eq_of_lt h3, Nat.mod_eq_of_lt h4]
  refine ⟨fun h => ?_, fun h => ?_⟩
  · refine ⟨by simp, by simp, by simp, by simp, by simp, by simp, by simp, ?_, by simp, ?_, h⟩
    · intro e he rest tail _; cases he; rfl
    · intro e he rest tail _; cases he; rfl
  · refine ⟨by simp, by simp, by simp, by simp, by simp, by simp, by simp, ?_, by simp, ?_, h⟩
    · intro e he r hr; cases he; exact ⟨_, rfl, Nat.le_refl _, hr⟩
    · intro e he r hr; cases he; exact ⟨_, rfl, Nat.le_refl _, hr⟩
end

/-! ## The fields after the long header -/

theorem bitsOf_prefix {rest bs : Buf} {tail : List Bool} (h : bitsOf rest = bitsOf bs ++ tail) :
    ∃ t, rest = bs ++ t := by
  refine ⟨rest.drop bs.length, ?_⟩
  have hl := congrArg List.length h
  simp only [bitsOf_length, List.length_append] at hl
  have : rest.take bs.length = bs := by
    apply bitsOf_inj
    rw [bitsOf_take, h, ← bitsOf_length, List.take_left]
  conv => lhs; rw [← List.take_append_drop bs.length rest, this]

/-- The fields from `length` on; field `k` is `length`. -/
def tailOf (k : Nat) : List Field := [
  fbytes "length" lenVarintLength,
  fbytes "packet_number" (lenPn 4),
  fbytes "frames" (lenFrames k (k + 1)),
  frest "remaining"]

theorem env_append_left {a b : List Val} {i : Nat} (h : i < a.length) : env (a ++ b) i = env a i := by
  simp [env, List.getElem?_append_left h]

theorem env_append_right {a b : List Val} {i : Nat} (h : a.length ≤ i) :
    env (a ++ b) i = env b (i - a.length) := by
  simp [env, List.getElem?_append_right h]

theorem tail_lens (m : Mode) (i : Nat) (seen : List Val) {length pn frames : Buf} (remaining : Buf)
    (hlen : 4 < seen.length) (hseen : env seen 4 = .ok (.num (pn.length - 1))) (hpn : Quic.PnOk pn)
    (hv : Quic.Varint length (pn.length + frames.length)) :
    lensLocal m noInner i seen (tailOf seen.length)
      [Quic.bytesOf length, Quic.bytesOf pn, Quic.bytesOf frames, Quic.bytesOf remaining] ∧
    (length.length = 1 → zeroFit m seen (tailOf seen.length)
      [Quic.bytesOf length, Quic.bytesOf pn, Quic.bytesOf frames, Quic.bytesOf remaining]) := by
  have l1 : ∀ bs : Buf, (bitsOf bs).length / 8 = bs.length := by intro bs; rw [bitsOf_length]; omega
  have hp1 := hpn.1
  have hpnl : ∀ rest, lenPn 4 m (env (seen ++ [Quic.bytesOf length])) rest = .ok pn.length := by
    intro rest
    rw [lenPn, lenNum, env_append_left hlen, hseen, ok_bind]
    show Except.ok (pn.length - 1 + 1) = _
    rw [Nat.sub_add_cancel hp1]
  have hfr : ∀ rest, lenFrames seen.length (seen.length + 1) m
      (env (seen ++ [Quic.bytesOf length] ++ [Quic.bytesOf pn])) rest = .ok frames.length := by
    intro rest
    have e1 : env (seen ++ [Quic.bytesOf length] ++ [Quic.bytesOf pn]) seen.length = .ok (Quic.bytesOf length) := by
      rw [List.append_assoc, env_append_right (Nat.le_refl _), Nat.sub_self]; rfl
    have e2 : env (seen ++ [Quic.bytesOf length] ++ [Quic.bytesOf pn]) (seen.length + 1) =
        .ok (Quic.bytesOf pn) := by
      rw [List.append_assoc, env_append_right (by omega), Nat.add_sub_cancel_left]; rfl
    rw [lenFrames, e1, e2]
    show (do
      let l ← varint (length.map UInt8.toNat)
      usub m l (pn.map UInt8.toNat).length) = _
    rw [(varint_enc hv []).2, ok_bind, List.length_map]
    have hu : usub m (pn.length + frames.length) pn.length = .ok (pn.length + frames.length - pn.length) := by
      unfold usub; rw [if_pos (by omega)]
    rw [hu, Nat.add_sub_cancel_left]
  simp only [tailOf, lensLocal, zeroFit, fbytes, frest, noInner_eq, bytes_norm, bytes_enc, l1]
  refine ⟨⟨?_, ?_, ?_, by simp⟩, fun h1 => ⟨?_, ?_, ?_, by simp⟩⟩
  · intro e he rest tail hb
    cases he
    obtain ⟨t, rfl⟩ := bitsOf_prefix hb
    exact (varint_enc hv t).1
  · intro e he rest tail hb; cases he; exact hpnl _
  · intro e he rest tail hb; cases he; exact hfr _
  · intro e he r hr
    cases he
    exact ⟨1, varintLength_zero (by omega), by omega, by omega⟩
  · intro e he r hr; cases he; exact ⟨_, hpnl _, Nat.le_refl _, hr⟩
  · intro e he r hr; cases he; exact ⟨_, hfr _, Nat.le_refl _, hr⟩

theorem plain_fields : zeroRtt.fields = longFields ++ tailOf 10 ∧ handshake.fields = longFields ++ tailOf 10 :=
  ⟨rfl, rfl⟩

theorem plain_flat {d : Decl} (hd : d = zeroRtt ∨ d = handshake) : Flat d ∧ regular d = true := by
  rcases hd with rfl | rfl
  · exact ⟨by simp [Flat, plain_fields, longFields, tailOf, fmisc, fprim, fbytes, frest], by decide⟩
  · exact ⟨by simp [Flat, plain_fields, longFields, tailOf, fmisc, fprim, fbytes, frest], by decide⟩

theorem varint_pos {bs : Buf} {v : Nat} (h : Quic.Varint bs v) : 0 < bs.length := by
  obtain ⟨p, -, h, -⟩ := h
  rw [h]; exact Nat.two_pow_pos p

/-- 0-RTT and Handshake structs. -/
theorem plain_populate (m : Mode) {d : Decl} (hd : d = zeroRtt ∨ d = handshake) {ty reserved version : Nat}
    {dcid scid length pn frames : Buf} (remaining : Buf) (hty : ty < 4)
    (hh : Quic.HeaderOk version dcid scid) (hpn : Quic.PnOk pn) (hres : reserved < 4)
    (hv : Quic.Varint length (pn.length + frames.length)) {bs : Buf}
    (hbs : bs = Quic.longHeader ty reserved pn.length version dcid scid ++ length ++ pn ++ frames ++ remaining)
    (hsl : SliceLen bs.length) :
    d.populate m (List.replicate bs.length 0)
        (Quic.plainStruct ty reserved version dcid scid length pn frames remaining) =
      (if length.length = 1 then .ok bs else panic) ∧
    d.fromPacket m bs = .ok (Quic.plainStruct ty reserved version dcid scid length pn frames remaining) := by
  have hfields : d.fields = longFields ++ tailOf 10 := by
    rcases hd with rfl | rfl
    · exact plain_fields.1
    · exact plain_fields.2
  obtain ⟨hflat, hreg⟩ := plain_flat hd
  have hl10 : (Quic.longStruct ty reserved version dcid scid pn).length = 10 := rfl
  obtain ⟨hlong, hzero⟩ := longStruct_lens hty hres hpn hh m (tailOf 10)
    [Quic.bytesOf length, Quic.bytesOf pn, Quic.bytesOf frames, Quic.bytesOf remaining]
  obtain ⟨t1, t2⟩ := tail_lens m 10 (Quic.longStruct ty reserved version dcid scid pn) remaining
    (by rw [hl10]; omega) rfl hpn hv
  have htyped : typedFields noInner 0 d.fields (Quic.longStruct ty reserved version dcid scid pn ++
      [Quic.bytesOf length, Quic.bytesOf pn, Quic.bytesOf frames, Quic.bytesOf remaining]) := by
    rw [hfields]
    simp [longFields, tailOf, Quic.longStruct, typedFields, typed, fmisc, fprim, fbytes, frest, Quic.bytesOf]
  have henc : encFields noInner 0 d.fields (Quic.longStruct ty reserved version dcid scid pn ++
      [Quic.bytesOf length, Quic.bytesOf pn, Quic.bytesOf frames, Quic.bytesOf remaining]) = bitsOf bs := by
    rw [hfields, longStruct_enc hty hres hpn]
    simp only [tailOf, fbytes, frest, encFields, noInner_eq, bytes_enc, hbs, bitsOf_append, List.append_assoc,
      List.append_nil]
  have hnorm : normFields noInner 0 d.fields (Quic.longStruct ty reserved version dcid scid pn ++
      [Quic.bytesOf length, Quic.bytesOf pn, Quic.bytesOf frames, Quic.bytesOf remaining]) =
      Quic.longStruct ty reserved version dcid scid pn ++
      [Quic.bytesOf length, Quic.bytesOf pn, Quic.bytesOf frames, Quic.bytesOf remaining] := by
    rw [hfields, longStruct_norm hty hres hpn hh]
    simp only [tailOf, fbytes, frest, normFields, noInner_eq, bytes_norm]
  have hlocal := hlong t1
  rw [← hfields] at hlocal hzero
  obtain ⟨p1, p2⟩ := populate_zero (m := m) hreg hflat htyped hlocal henc hnorm hsl
  refine ⟨?_, p2⟩
  by_cases h1 : length.length = 1
  · rw [if_pos h1]
    exact p1 (hzero (t2 h1))
  · rw [if_neg h1]
    have hpos := varint_pos hv
    have hz := (longStruct_lens hty hres hpn hh m [] []).2 trivial
    have ht : d.fields.take 10 = longFields ++ [] := by rw [hfields]; rfl
    refine populate_zero_panic (j := 10) hreg hflat htyped hlocal (f := fbytes "length" lenVarintLength)
      (by rw [hfields]; rfl) (ns := length.map (·.toNat)) rfl rfl rfl
      (by rw [ht]; exact hz) (by simpa using hpos) ?_ hsl ?_
    · rw [ht]
      have := longStruct_enc (version := version) (dcid := dcid) (scid := scid) hty hres hpn [] []
      show (encFields noInner 0 (longFields ++ []) (Quic.longStruct ty reserved version dcid scid pn ++ [])).length + _ ≤ _
      rw [this, hbs]
      simp only [encFields, List.append_nil, bitsOf_length, List.length_map, List.length_append]
      omega
    · intro r get hr
      exact ⟨1, varintLength_zero hr, by rw [List.length_map]; omega⟩

/-! ## Initial packets -/

/-- The fields between long header and `length`. -/
def tokenFields : List Field := [
  fbytes "token_length" lenVarintLength,
  fbytes "token" (lenVarint 10)]

theorem initial_fields : initial.fields = longFields ++ (tokenFields ++ tailOf 12) := rfl

theorem initial_flat : Flat initial ∧ regular initial = true :=
  ⟨by simp [Flat, initial_fields, longFields, tokenFields, tailOf, fmisc, fprim, fbytes, frest], by decide⟩

theorem token_lens (m : Mode) (seen : List Val) (hseen : seen.length = 10) {tokenLen token : Buf}
    (hv : Quic.Varint tokenLen token.length) (fs : List Field) (vs : List Val) :
    (lensLocal m noInner 12 (seen ++ [Quic.bytesOf tokenLen, Quic.bytesOf token]) fs vs →
      lensLocal m noInner 10 seen (tokenFields ++ fs) ([Quic.bytesOf tokenLen, Quic.bytesOf token] ++ vs)) ∧
    (tokenLen.length = 1 → zeroFit m (seen ++ [Quic.bytesOf tokenLen, Quic.bytesOf token]) fs vs →
      zeroFit m seen (tokenFields ++ fs) ([Quic.bytesOf tokenLen, Quic.bytesOf token] ++ vs)) := by
  have l1 : ∀ bs : Buf, (bitsOf bs).length / 8 = bs.length := by intro bs; rw [bitsOf_length]; omega
  have htok : ∀ rest, lenVarint 10 m (env (seen ++ [Quic.bytesOf tokenLen])) rest = .ok token.length := by
    intro rest
    have e1 : env (seen ++ [Quic.bytesOf tokenLen]) 10 = .ok (Quic.bytesOf tokenLen) := by
      rw [env_append_right (by omega), hseen]; rfl
    rw [lenVarint, e1]
    exact (varint_enc hv []).2
  simp only [tokenFields, lensLocal, zeroFit, fbytes, noInner_eq, bytes_norm, bytes_enc, l1, List.cons_append,
    List.nil_append, List.append_assoc]
  refine ⟨fun h => ⟨?_, ?_, h⟩, fun h1 h => ⟨?_, ?_, h⟩⟩
  · intro e he rest tail hb
    cases he
    obtain ⟨t, rfl⟩ := bitsOf_prefix hb
    exact (varint_enc hv t).1
  · intro e he rest tail hb; cases he; exact htok _
  · intro e he r hr
    cases he
    exact ⟨1, varintLength_zero (by omega), by omega, by omega⟩
  · intro e he r hr; cases he; exact ⟨_, htok _, Nat.le_refl _, hr⟩

/-- Initial structs. -/
theorem initial_populate (m : Mode) {reserved version : Nat}
    {dcid scid tokenLen token length pn frames : Buf} (remaining : Buf)
    (hh : Quic.HeaderOk version dcid scid) (hpn : Quic.PnOk pn) (hres : reserved < 4)
    (hvt : Quic.Varint tokenLen token.length)
    (hv : Quic.Varint length (pn.length + frames.length)) {bs : Buf}
    (hbs : bs = Quic.longHeader 0 reserved pn.length version dcid scid ++ tokenLen ++ token ++ length ++ pn ++
      frames ++ remaining)
    (hsl : SliceLen bs.length) :
    initial.populate m (List.replicate bs.length 0)
        (Quic.initialStruct reserved version dcid scid tokenLen token length pn frames remaining) =
      (if tokenLen.length = 1 ∧ length.length = 1 then .ok bs else panic) ∧
    initial.fromPacket m bs =
      .ok (Quic.initialStruct reserved version dcid scid tokenLen token length pn frames remaining) := by
  have hfields := initial_fields
  obtain ⟨hflat, hreg⟩ := initial_flat
  have hty : 0 < 4 := by omega
  have hl10 : (Quic.longStruct 0 reserved version dcid scid pn).length = 10 := rfl
  obtain ⟨hlong, hzero⟩ := longStruct_lens hty hres hpn hh m (tokenFields ++ tailOf 12)
    ([Quic.bytesOf tokenLen, Quic.bytesOf token] ++
      [Quic.bytesOf length, Quic.bytesOf pn, Quic.bytesOf frames, Quic.bytesOf remaining])
  obtain ⟨k1, k2⟩ := token_lens m _ hl10 hvt (tailOf 12)
      [Quic.bytesOf length, Quic.bytesOf pn, Quic.bytesOf frames, Quic.bytesOf remaining]
  obtain ⟨t1, t2⟩ := tail_lens m 12 (Quic.longStruct 0 reserved version dcid scid pn ++
    [Quic.bytesOf tokenLen, Quic.bytesOf token]) remaining
    (by rw [List.length_append, hl10]; simp) rfl hpn hv
  have htyped : typedFields noInner 0 initial.fields (Quic.longStruct 0 reserved version dcid scid pn ++
      ([Quic.bytesOf tokenLen, Quic.bytesOf token] ++
      [Quic.bytesOf length, Quic.bytesOf pn, Quic.bytesOf frames, Quic.bytesOf remaining])) := by
    rw [hfields]
    simp [longFields, tokenFields, tailOf, Quic.longStruct, typedFields, typed, fmisc, fprim, fbytes, frest,
      Quic.bytesOf]
  have henc : encFields noInner 0 initial.fields (Quic.longStruct 0 reserved version dcid scid pn ++
      ([Quic.bytesOf tokenLen, Quic.bytesOf token] ++
      [Quic.bytesOf length, Quic.bytesOf pn, Quic.bytesOf frames, Quic.bytesOf remaining])) = bitsOf bs := by
    rw [hfields, longStruct_enc hty hres hpn]
    simp only [tokenFields, tailOf, fbytes, frest, encFields, noInner_eq, bytes_enc, hbs, bitsOf_append,
      List.append_assoc, List.append_nil, List.cons_append, List.nil_append]
  have hnorm : normFields noInner 0 initial.fields (Quic.longStruct 0 reserved version dcid scid pn ++
      ([Quic.bytesOf tokenLen, Quic.bytesOf token] ++
      [Quic.bytesOf length, Quic.bytesOf pn, Quic.bytesOf frames, Quic.bytesOf remaining])) =
      Quic.longStruct 0 reserved version dcid scid pn ++
      ([Quic.bytesOf tokenLen, Quic.bytesOf token] ++
      [Quic.bytesOf length, Quic.bytesOf pn, Quic.bytesOf frames, Quic.bytesOf remaining]) := by
    rw [hfields, longStruct_norm hty hres hpn hh]
    simp only [tokenFields, tailOf, fbytes, frest, normFields, noInner_eq, bytes_norm, List.cons_append,
      List.nil_append]
  have hlocal := hlong (k1 t1)
  rw [← hfields] at hlocal hzero
  obtain ⟨p1, p2⟩ := populate_zero (m := m) hreg hflat htyped hlocal henc hnorm hsl
  refine ⟨?_, p2⟩
  have hlenc := longStruct_enc (version := version) (dcid := dcid) (scid := scid) hty hres hpn
  by_cases h1 : tokenLen.length = 1
  · by_cases h2 : length.length = 1
    · rw [if_pos ⟨h1, h2⟩]
      exact p1 (hzero (k2 h1 (t2 h2)))
    · rw [if_neg (fun h => h2 h.2)]
      have hpos := varint_pos hv
      have hz := (longStruct_lens hty hres hpn hh m (tokenFields ++ []) ([Quic.bytesOf tokenLen, Quic.bytesOf token] ++ [])).2
        ((token_lens m _ hl10 hvt [] []).2 h1 trivial)
      have ht : initial.fields.take 12 = longFields ++ (tokenFields ++ []) := by rw [hfields]; rfl
      refine populate_zero_panic (j := 12) hreg hflat htyped hlocal (f := fbytes "length" lenVarintLength)
        (by rw [hfields]; rfl) (ns := length.map (·.toNat)) rfl rfl rfl
        (by rw [ht]; exact hz) (by simpa using hpos) ?_ hsl ?_
      · rw [ht]
        have := hlenc (tokenFields ++ []) ([Quic.bytesOf tokenLen, Quic.bytesOf token] ++ [])
        show (encFields noInner 0 (longFields ++ (tokenFields ++ [])) (Quic.longStruct 0 reserved version dcid scid pn ++
          ([Quic.bytesOf tokenLen, Quic.bytesOf token] ++ []))).length + _ ≤ _
        rw [this, hbs]
        simp only [tokenFields, fbytes, encFields, noInner_eq, bytes_enc,
          List.append_nil, bitsOf_length, List.length_map, List.length_append]
        omega
      · intro r get hr
        exact ⟨1, varintLength_zero hr, by rw [List.length_map]; omega⟩
  · rw [if_neg (fun h => h1 h.1)]
    have hpos := varint_pos hvt
    have hz := (longStruct_lens hty hres hpn hh m [] []).2 trivial
    have ht : initial.fields.take 10 = longFields ++ [] := by rw [hfields]; rfl
    refine populate_zero_panic (j := 10) hreg hflat htyped hlocal (f := fbytes "token_length" lenVarintLength)
      (by rw [hfields]; rfl) (ns := tokenLen.map (·.toNat)) rfl rfl rfl
      (by rw [ht]; exact hz) (by simpa using hpos) ?_ hsl ?_
    · rw [ht]
      show (encFields noInner 0 (longFields ++ []) (Quic.longStruct 0 reserved version dcid scid pn ++ [])).length + _ ≤ _
      rw [hlenc [] [], hbs]
      simp only [encFields, List.append_nil, bitsOf_length, List.length_map, List.length_append]
      omega
    · intro r get hr
      exact ⟨1, varintLength_zero hr, by rw [List.length_map]; omega⟩

/-! ## Packets up to the end of the datagram -/

theorem retry_bits (unused : Nat) (h : unused < 16) :
    toBits 1 1 ++ (toBits 1 1 ++ (toBits 2 3 ++ toBits 4 unused)) = bitsOf [UInt8.ofNat (0xF0 + unused)] := by
  have key : ∀ a < 16, toBits 1 1 ++ (toBits 1 1 ++ (toBits 2 3 ++ toBits 4 a)) =
      bitsOf [UInt8.ofNat (0xF0 + a)] := by decide +kernel
  exact key unused h

theorem vn_bits (unused : Nat) (h : unused < 128) :
    toBits 1 1 ++ toBits 7 unused = bitsOf [UInt8.ofNat (0x80 + unused)] := by
  have key : ∀ a < 128, toBits 1 1 ++ toBits 7 a = bitsOf [UInt8.ofNat (0x80 + a)] := by decide +kernel
  exact key unused h

theorem oneRtt_bits (spin reserved key pn : Nat) (h1 : spin < 2) (h2 : reserved < 4) (h3 : key < 2)
    (h4 : pn < 4) :
    toBits 1 0 ++ (toBits 1 1 ++ (toBits 1 spin ++ (toBits 2 reserved ++ (toBits 1 key ++ toBits 2 pn)))) =
      bitsOf [UInt8.ofNat (0x40 + 4 * (8 * spin + 2 * reserved + key) + pn)] := by
  have : ∀ a < 2, ∀ b < 4, ∀ c < 2, ∀ d < 4,
      toBits 1 0 ++ (toBits 1 1 ++ (toBits 1 a ++ (toBits 2 b ++ (toBits 1 c ++ toBits 2 d)))) =
        bitsOf [UInt8.ofNat (0x40 + 4 * (8 * a + 2 * b + c) + d)] := by decide +kernel
  exact this spin h1 reserved h2 key h3 pn h4

theorem lens_id {bs : Buf} : (bitsOf bs).length / 8 = bs.length := by rw [bitsOf_length]; omega

theorem retry_populate (m : Mode) {unused version : Nat} {dcid scid token : Buf}
    (hh : Quic.HeaderOk version dcid scid) (hun : unused < 16) {bs : Buf}
    (hbs : bs = [UInt8.ofNat (0xF0 + unused)] ++ Quic.beBytes 4 version ++
          [UInt8.ofNat dcid.length] ++ dcid ++ [UInt8.ofNat scid.length] ++ scid ++ token)
    (hsl : SliceLen bs.length) :
    retry.populate m (List.replicate bs.length 0) (Quic.retryStruct unused version dcid scid token) = .ok bs ∧
    retry.fromPacket m bs = .ok (Quic.retryStruct unused version dcid scid token) := by
  obtain ⟨h1, h2, h3, h4⟩ := hh
  have hall := populate_zero (m := m) (d := retry) (bs := bs)
    (vs := [.nums [1], .nums [1], .nums [3], .num unused, .nums [version],
      .num dcid.length, Quic.bytesOf dcid, .num scid.length, Quic.bytesOf scid, Quic.bytesOf token])
    (by decide) (by simp [Flat, retry, fmisc, fprim, fbytes, frest])
    (by simp [retry, typedFields, typed, fmisc, fprim, fbytes, frest, Quic.bytesOf])
    (by
      simp only [retry, lensLocal, fmisc, fprim, fbytes, frest, noInner_eq, bytes_norm, bytes_enc, List.map_cons,
        List.map_nil, lens_id]
      simp only [normField, List.zipWith_cons_cons, List.zipWith_nil_right, u, Nat.reducePow,
        Nat.mod_eq_of_lt hun, Nat.mod_eq_of_lt h2, Nat.mod_eq_of_lt h3, Nat.mod_eq_of_lt h4]
      refine ⟨by simp, by simp, by simp, by simp, by simp, by simp, ?_, by simp, ?_, by simp⟩
      · intro e he rest tail _; cases he; rfl
      · intro e he rest tail _; cases he; rfl)
    (by
      simp only [retry, encFields, fmisc, fprim, fbytes, frest,
        noInner_eq, bytes_enc, List.map_cons, List.map_nil]
      simp only [encField, List.zipWith_cons_cons, List.zipWith_nil_right, List.flatten_cons, List.flatten_nil,
        List.append_nil, u]
      simp only [hbs, bitsOf_append, ← retry_bits unused hun, byte_bits, word_bits, List.append_assoc])
    (by
      simp only [retry, normFields, fmisc, fprim, fbytes, frest,
        noInner_eq, bytes_norm, List.map_cons, List.map_nil]
      simp only [normField, List.zipWith_cons_cons, List.zipWith_nil_right, u, Nat.reducePow,
        Nat.mod_eq_of_lt hun, Nat.mod_eq_of_lt h2, Nat.mod_eq_of_lt h3, Nat.mod_eq_of_lt h4]) hsl
  refine ⟨hall.1 ?_, hall.2⟩
  simp only [retry, zeroFit, fmisc, fprim, fbytes, frest, bytes_norm, bytes_enc, List.map_cons,
    List.map_nil, lens_id]
  simp only [normField, List.zipWith_cons_cons, List.zipWith_nil_right, u, Nat.reducePow,
    Nat.mod_eq_of_lt hun, Nat.mod_eq_of_lt h2, Nat.mod_eq_of_lt h3, Nat.mod_eq_of_lt h4]
  refine ⟨by simp, by simp, by simp, by simp, by simp, by simp, ?_, by simp, ?_, by simp⟩
  · intro e he r hr; cases he; exact ⟨_, rfl, Nat.le_refl _, hr⟩
  · intro e he r hr; cases he; exact ⟨_, rfl, Nat.le_refl _, hr⟩

theorem vn_populate (m : Mode) {unused : Nat} {dcid scid versions : Buf}
    (h3 : dcid.length < 256) (h4 : scid.length < 256) (hun : unused < 128) {bs : Buf}
    (hbs : bs = [UInt8.ofNat (0x80 + unused)] ++ [0, 0, 0, 0] ++
          [UInt8.ofNat dcid.length] ++ dcid ++ [UInt8.ofNat scid.length] ++ scid ++ versions)
    (hsl : SliceLen bs.length) :
    versionNegotiation.populate m (List.replicate bs.length 0)
      (Quic.versionNegotiationStruct unused dcid scid versions) = .ok bs ∧
    versionNegotiation.fromPacket m bs = .ok (Quic.versionNegotiationStruct unused dcid scid versions) := by
  have hzero : toBits 32 0 = bitsOf [0, 0, 0, 0] := by decide
  have hall := populate_zero (m := m) (d := versionNegotiation) (bs := bs)
    (vs := [.nums [1], .num unused, .num 0,
      .num dcid.length, Quic.bytesOf dcid, .num scid.length, Quic.bytesOf scid, Quic.bytesOf versions])
    (by decide) (by simp [Flat, versionNegotiation, fmisc, fprim, fbytes, frest])
    (by simp [versionNegotiation, typedFields, typed, fmisc, fprim, fbytes, frest, Quic.bytesOf])
    (by
      simp only [versionNegotiation, lensLocal, fmisc, fprim, fbytes, frest, noInner_eq, bytes_norm, bytes_enc,
        List.map_cons, List.map_nil, lens_id]
      simp only [normField, List.zipWith_cons_cons, List.zipWith_nil_right, u, Nat.reducePow,
        Nat.mod_eq_of_lt hun, Nat.mod_eq_of_lt h3, Nat.mod_eq_of_lt h4]
      refine ⟨by simp, by simp, by simp, by simp, ?_, by simp, ?_, by simp⟩
      · intro e he rest tail _; cases he; rfl
      · intro e he rest tail _; cases he; rfl)
    (by
      simp only [versionNegotiation, encFields, fmisc, fprim, fbytes, frest,
        noInner_eq, bytes_enc, List.map_cons, List.map_nil]
      simp only [encField, List.zipWith_cons_cons, List.zipWith_nil_right, List.flatten_cons, List.flatten_nil,
        List.append_nil, u]
      simp only [hbs, bitsOf_append, ← vn_bits unused hun, byte_bits, hzero, List.append_assoc])
    (by
      simp only [versionNegotiation, normFields, fmisc, fprim, fbytes, frest,
        noInner_eq, bytes_norm, List.map_cons, List.map_nil]
      simp only [normField, List.zipWith_cons_cons, List.zipWith_nil_right, u, Nat.reducePow, Nat.zero_mod,
        Nat.mod_eq_of_lt hun, Nat.mod_eq_of_lt h3, Nat.mod_eq_of_lt h4]) hsl
  refine ⟨hall.1 ?_, hall.2⟩
  simp only [versionNegotiation, zeroFit, fmisc, fprim, fbytes, frest, bytes_norm, bytes_enc, List.map_cons,
    List.map_nil, lens_id]
  simp only [normField, List.zipWith_cons_cons, List.zipWith_nil_right, u, Nat.reducePow,
    Nat.mod_eq_of_lt hun, Nat.mod_eq_of_lt h3, Nat.mod_eq_of_lt h4]
  refine ⟨by simp, by simp, by simp, by simp, ?_, by simp, ?_, by simp⟩
  · intro e he r hr; cases he; exact ⟨_, rfl, Nat.le_refl _, hr⟩
  · intro e he r hr; cases he; exact ⟨_, rfl, Nat.le_refl _, hr⟩

theorem oneRtt_populate (m : Mode) {spin reserved key : Nat} {dcid pn frames : Buf}
    (hd : dcid.length = 8) (hpn : Quic.PnOk pn) (h1 : spin < 2) (h2 : reserved < 4) (h3 : key < 2) {bs : Buf}
    (hbs : bs = [UInt8.ofNat (0x40 + 4 * (8 * spin + 2 * reserved + key) + (pn.length - 1))] ++ dcid ++ pn ++
      frames)
    (hsl : SliceLen bs.length) :
    oneRtt.populate m (List.replicate bs.length 0) (Quic.oneRttStruct spin reserved key dcid pn frames) = .ok bs ∧
    oneRtt.fromPacket m bs = .ok (Quic.oneRttStruct spin reserved key dcid pn frames) := by
  have hp1 := hpn.1
  have hp : pn.length - 1 < 4 := by have := hpn.2; omega
  have hsub : pn.length = pn.length - 1 + 1 := by omega
  have hall := populate_zero (m := m) (d := oneRtt) (bs := bs)
    (vs := [.num 0, .num 1, .num spin, .num reserved, .num key, .num (pn.length - 1),
      Quic.bytesOf dcid, Quic.bytesOf pn, Quic.bytesOf frames])
    (by decide) (by simp [Flat, oneRtt, fprim, fbytes, fpayloadRest])
    (by simp [oneRtt, typedFields, typed, fprim, fbytes, fpayloadRest, Quic.bytesOf])
    (by
      simp only [oneRtt, lensLocal, fprim, fbytes, fpayloadRest, noInner_eq, bytes_norm, bytes_enc, lens_id]
      simp only [normField, u, Nat.reducePow,
        Nat.mod_eq_of_lt hp, Nat.mod_eq_of_lt h1, Nat.mod_eq_of_lt h2, Nat.mod_eq_of_lt h3]
      refine ⟨by simp, by simp, by simp, by simp, by simp, by simp, ?_, ?_, by simp⟩
      · intro e he rest tail _; cases he; rw [hd]; rfl
      · intro e he rest tail _; cases he; conv => rhs; rw [hsub]
        rfl)
    (by
      simp only [oneRtt, encFields, fprim, fbytes, fpayloadRest, noInner_eq, bytes_enc]
      simp only [encField, List.append_nil]
      simp only [hbs, bitsOf_append, ← oneRtt_bits spin reserved key (pn.length - 1) h1 h2 h3 hp, List.append_assoc])
    (by
      simp only [oneRtt, normFields, fprim, fbytes, fpayloadRest, noInner_eq, bytes_norm]
      simp only [normField, Nat.reducePow, Nat.zero_mod, Nat.reduceMod,
        Nat.mod_eq_of_lt hp, Nat.mod_eq_of_lt h1, Nat.mod_eq_of_lt h2, Nat.mod_eq_of_lt h3]) hsl
  refine ⟨hall.1 ?_, hall.2⟩
  simp only [oneRtt, zeroFit, fprim, fbytes, fpayloadRest, bytes_norm, bytes_enc, lens_id]
  simp only [normField, u, Nat.reducePow,
    Nat.mod_eq_of_lt hp, Nat.mod_eq_of_lt h1, Nat.mod_eq_of_lt h2, Nat.mod_eq_of_lt h3]
  refine ⟨by simp, by simp, by simp, by simp, by simp, by simp, ?_, ?_, by simp⟩
  · intro e he r hr; cases he; exact ⟨8, rfl, by omega, by omega⟩
  · intro e he r hr; cases he; exact ⟨pn.length - 1 + 1, rfl, by omega, by omega⟩

end Verif
