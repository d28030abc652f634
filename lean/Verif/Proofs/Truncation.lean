import Verif.Proofs.Registers
import Verif.Spec.Truncation

/-! Packets with the same header. -/

namespace Verif
open Spec Props

theorem get_header_any {d : Decl} (h : Recordlike d) {m : Mode} {a b : Buf} {k : Nat} {f : Field}
    (hf : d.fields[k]? = some f) (hvec : f.ty.isVec = false) (ha : d.minSize ≤ a.length)
    (hb : d.minSize ≤ b.length) (hbits : a.take d.minSize = b.take d.minSize) :
    d.get m a k = d.get m b k := by
  have hfix := fixed_before h.good.reg h.last hf hvec
  have hbd : d.bits = bitsSum d.fields := rfl
  have hm : bitsSum d.fields ≤ 8 * d.minSize := by unfold Decl.minSize; split <;> omega
  have hle := bitsSum_field_le hf
  have hacc := accepted_fields h.good.acc
  have hpl := regular_plain h.good.reg f (List.mem_of_getElem? hf)
  rw [get_fixed_big hacc hf hfix hpl m a (by omega), get_fixed_big hacc hf hfix hpl m b (by omega)]
  have key : ∀ c : Buf, decodeFixed (bitsOf c) (bitsSum (d.fields.take k)) f.ty =
      decodeFixed (bitsOf (c.take d.minSize)) (bitsSum (d.fields.take k)) f.ty := by
    intro c
    rw [bitsOf_take]
    exact (decodeFixed_take _ (by omega)).symm
  rw [key a, key b, hbits]

section
variable {d : Decl} (h : Recordlike d) (hh : ∀ f ∈ d.fields, ∀ e, f.len = some e → HeaderOnly d e)
  {m : Mode} {a b : Buf} (ha : d.minSize ≤ a.length) (hb : d.minSize ≤ b.length)
  (hbits : a.take d.minSize = b.take d.minSize)
include h hh ha hb hbits

omit hh in
theorem stGet_header {k : Nat} (hk : k ≤ d.fields.length) (j : Nat) (f : Field) (hf : d.fields[j]? = some f)
    (hvec : f.ty.isVec = false) : (d.before m a k).get j = (d.before m b k).get j := by
  rw [St.get, St.get, before_vals k hk, before_vals k hk, List.getElem?_map, List.getElem?_map]
  by_cases hj : j < k
  · rw [List.getElem?_range hj]
    simp only [Option.map_some, Option.getD_some]
    exact get_header_any h hf hvec ha hb hbits
  · rw [List.getElem?_eq_none (by simpa using hj)]; rfl

theorem lenExpr_header {k : Nat} {f : Field} (hf : d.fields[k]? = some f) {e : LenExpr}
    (he : f.len = some e) : lenExpr m a (d.before m a k) e = lenExpr m b (d.before m b k) e :=
  hh f (List.mem_of_getElem? hf) e he m _ _ _ _
    (stGet_header h ha hb hbits (Nat.le_of_lt (List.getElem?_eq_some_iff.mp hf).1))

theorem lens_header {k : Nat} (hk : k ≤ d.fields.length) :
    (d.before m a k).lens = (d.before m b k).lens := by
  induction k with
  | zero => rfl
  | succ k ih =>
    have hf : d.fields[k]? = some d.fields[k] := List.getElem?_eq_getElem (by omega)
    rw [before_succ hf, before_succ hf, St.step, St.step]
    dsimp only
    cases he : (d.fields[k]).len with
    | none => exact ih (by omega)
    | some e =>
      dsimp only
      rw [ih (by omega), lenExpr_header h hh ha hb hbits hf he]

theorem curOff_header {k : Nat} (hk : k ≤ d.fields.length) :
    curOff m (d.before m a k).bit (d.before m a k).lens = curOff m (d.before m b k).bit (d.before m b k).lens := by
  rw [before_bit, before_bit, lens_header h hh ha hb hbits hk]

theorem packetSize_header : d.packetSize m a = d.packetSize m b := by
  rw [Decl.packetSize, Decl.packetSize, final_eq_before, final_eq_before]
  exact curOff_header h hh ha hb hbits (Nat.le_refl _)

end

theorem slice_left {a b p : Buf} (hab : a <+: b) {s e : Nat} (hb : slice b s (min e b.length) = .ok p) :
    p = (b.drop s).take p.length ∧ slice a s (min e a.length) =
      if s ≤ a.length then .ok ((a.drop s).take p.length) else panic := by
  obtain ⟨t, rfl⟩ := hab
  unfold slice at hb ⊢
  split at hb
  · rename_i hc
    cases hb
    rw [List.length_append] at hc ⊢
    have hl : ((((a ++ t).take (min e (a.length + t.length))).drop s)).length =
        min e (a.length + t.length) - s := by
      rw [List.length_drop, List.length_take, List.length_append]; omega
    rw [hl]
    refine ⟨?_, ?_⟩
    · rw [List.drop_take]
    · by_cases hs : s ≤ a.length
      · rw [if_pos (by omega), if_pos hs, List.drop_take]
        congr 1
        by_cases he : e ≤ a.length
        · rw [Nat.min_eq_left he, Nat.min_eq_left (by omega)]
        · rw [List.take_of_length_le (by simp; omega), List.take_of_length_le (by simp; omega)]
      · rw [if_neg (by omega), if_neg hs]
  · cases hb

theorem prefix_take {a b : Buf} (hab : a <+: b) {n : Nat} (hn : n ≤ a.length) : a.take n = b.take n := by
  obtain ⟨t, rfl⟩ := hab
  rw [List.take_append_of_le_length hn]

section
variable {d : Decl} (h : Recordlike d) (hh : ∀ f ∈ d.fields, ∀ e, f.len = some e → HeaderOnly d e)
  {m : Mode} {b : Buf} (hsl : SliceLen b.length)
include h hh hsl

theorem getRaw_left {k : Nat} {p : Buf} (hb : d.getRaw m b k = .ok p) : ∃ o,
    p = (b.drop o).take p.length ∧ ∀ a, a <+: b → d.minSize ≤ a.length →
      d.getRaw m a k = if o ≤ a.length then .ok ((a.drop o).take p.length) else panic := by
  unfold Decl.getRaw at hb
  cases hf : d.fields[k]? with
  | none => rw [hf] at hb; cases hb
  | some f =>
    have hk : k < d.fields.length := (List.getElem?_eq_some_iff.mp hf).1
    rw [hf] at hb
    dsimp only at hb
    obtain ⟨o, ho, hb⟩ := bind_eq_ok.mp hb
    obtain ⟨len, hlen, hb⟩ := bind_eq_ok.mp hb
    obtain ⟨e, he, hs⟩ := bind_eq_ok.mp hb
    clear hb
    have hb := hs
    have hob : o ≤ b.length := by
      unfold slice at hs; split at hs
      · omega
      · cases hs
    have hself := (slice_left (List.prefix_refl b) hb).1
    refine ⟨o, hself, fun a hab ha => ?_⟩
    have hle := hab.length_le
    have hco := curOff_header h hh (m := m) ha (Nat.le_trans ha hle) (prefix_take hab ha) (k := k) (by omega)
    rw [ho] at hco
    unfold Decl.getRaw
    rw [hf]
    dsimp only
    unfold varSlice
    rw [hco, ok_bind]
    cases hl : f.len with
    | some ex =>
      have hlx := lenExpr_header h hh (m := m) ha (Nat.le_trans ha hle) (prefix_take hab ha) hf hl
      have e1 : fieldLen m a (d.before m a k) f = .ok len := by
        rw [← hlen, fieldLen, fieldLen, hl]; exact hlx
      rw [e1, ok_bind, he, ok_bind]
      exact (slice_left hab hb).2
    | none =>
      have e1 : fieldLen m a (d.before m a k) f = .ok a.length := by rw [fieldLen, hl]
      have e2 : len = b.length := by
        rw [fieldLen, hl] at hlen; cases hlen; rfl
      subst e2
      rw [e1, ok_bind]
      unfold SliceLen at hsl
      have e3 : uadd m o a.length = .ok (o + a.length) := by
        unfold uadd; rw [if_pos (by simp only [usizeCard]; omega)]
      have e4 : uadd m o b.length = .ok (o + b.length) := by
        unfold uadd; rw [if_pos (by simp only [usizeCard]; omega)]
      rw [e4] at he; cases he
      rw [e3, ok_bind, ← (slice_left hab hb).2]
      congr 1
      omega

omit hsl in
theorem payload_left {p : Buf} (hbm : d.minSize ≤ b.length) (hb : d.payload m b = .ok p) : ∃ o,
    p = (b.drop o).take p.length ∧ ∀ a, a <+: b → d.minSize ≤ a.length →
      d.payload m a = .ok ((a.drop o).take p.length) := by
  have hb' := hb
  unfold Decl.payload Decl.payloadBounds at hb
  cases hi : d.payloadIdx with
  | none =>
    rw [hi] at hb
    have : ∀ c : Buf, d.payload m c = .ok [] := by
      intro c
      unfold Decl.payload Decl.payloadBounds
      rw [hi]
      dsimp only
      rw [ok_bind]
      dsimp only
      split
      · rfl
      · unfold slice; rw [if_pos ⟨Nat.le_refl _, by omega⟩]; simp
    have hp : d.payload m b = .ok p := by
      unfold Decl.payload Decl.payloadBounds; rw [hi]; exact hb
    rw [this b] at hp; cases hp
    exact ⟨0, by simp, fun a _ _ => by rw [this a]; simp⟩
  | some k =>
    rw [hi] at hb
    dsimp only at hb
    cases hf : d.fields[k]? with
    | none => rw [hf] at hb; cases hb
    | some f =>
      have hk : k < d.fields.length := (List.getElem?_eq_some_iff.mp hf).1
      rw [hf] at hb
      dsimp only at hb
      obtain ⟨⟨o, e⟩, hbd, hb⟩ := bind_eq_ok.mp hb
      obtain ⟨o', ho, hbd⟩ := bind_eq_ok.mp hbd
      dsimp only at hb
      -- the end before it is cut at the end of the buffer
      have key : ∃ e', (∀ a, a <+: b → d.minSize ≤ a.length →
          d.payloadBounds m a = .ok (o, min e' a.length)) := by
        cases hl : f.len with
        | none =>
          rw [hl] at hbd
          dsimp only at hbd
          cases hbd
          refine ⟨b.length, fun a hab ha => ?_⟩
          have hle := hab.length_le
          have hco := curOff_header h hh (m := m) ha (Nat.le_trans ha hle) (prefix_take hab ha) (k := k) (by omega)
          unfold Decl.payloadBounds
          rw [hi]; dsimp only
          rw [hf]; dsimp only
          rw [hco, ho, ok_bind, hl]
          dsimp only
          congr 2
          omega
        | some ex =>
          rw [hl] at hbd
          dsimp only at hbd
          obtain ⟨len, hlen, hbd⟩ := bind_eq_ok.mp hbd
          obtain ⟨u, hu, hbd⟩ := bind_eq_ok.mp hbd
          cases hbd
          refine ⟨u, fun a hab ha => ?_⟩
          have hle := hab.length_le
          have hco := curOff_header h hh (m := m) ha (Nat.le_trans ha hle) (prefix_take hab ha) (k := k) (by omega)
          have hlx := lenExpr_header h hh (m := m) ha (Nat.le_trans ha hle) (prefix_take hab ha) hf hl
          unfold Decl.payloadBounds
          rw [hi]; dsimp only
          rw [hf]; dsimp only
          rw [hco, ho, ok_bind, hl]
          dsimp only
          rw [hlx, hlen, ok_bind, hu, ok_bind]
      obtain ⟨e', key⟩ := key
      have hall : ∀ a, a <+: b → d.minSize ≤ a.length → d.payload m a =
          if a.length ≤ o then .ok [] else slice a o (min e' a.length) := by
        intro a hab ha
        unfold Decl.payload
        rw [key a hab ha, ok_bind]
      rw [hall b (List.prefix_refl b) hbm] at hb'
      split at hb'
      · rename_i hbo
        cases hb'
        refine ⟨o, by simp, fun a hab ha => ?_⟩
        have hle := hab.length_le
        rw [hall a hab ha, if_pos (by omega)]
        simp
      · refine ⟨o, (slice_left (List.prefix_refl b) hb').1, fun a hab ha => ?_⟩
        rw [hall a hab ha]
        split
        · rename_i hao
          rw [List.drop_eq_nil_of_le hao]; simp
        · rw [(slice_left hab hb').2, if_pos (by omega)]

end

end Verif
