import Verif.Props.Fragments
import Verif.Props.Router

/-!
# C141: fragments behind routers
-/

set_option autoImplicit false

namespace Verif.Props
open Verif Verif.Spec

theorem hop4_take (ip : Buf) : (hop4 ip).take 8 = ip.take 8 := by
  apply List.ext_getElem?
  intro i
  rw [List.getElem?_take, List.getElem?_take]
  split
  · exact (hop4_bytes ip).2 i (by simp; omega)
  · rfl

theorem readPiece_value (m : Mode) {ip : Buf} (h : 20 ≤ ip.length) :
    readPiece m ip = .ok (if bitsAt ip 80 16 = sum4 ip then some ⟨8 * bitsAt ip 51 13, bitsAt ip 48 3 % 2 = 1,
      (ip.drop (max 20 (4 * bitsAt ip 4 4))).take (bitsAt ip 16 16 - 4 * bitsAt ip 4 4)⟩ else none) := by
  obtain ⟨x, hx⟩ := Option.isSome_iff_exists.mp (new4 h)
  have r6 : ipv4.get m ip 6 = .ok (.num (bitsAt ip 48 3)) := get4 m h (k := 6) rfl
  have r7 : ipv4.get m ip 7 = .ok (.num (bitsAt ip 51 13)) := get4 m h (k := 7) rfl
  have r10 : ipv4.get m ip 10 = .ok (.num (bitsAt ip 80 16)) := get4 m h (k := 10) rfl
  simp only [readPiece, hx, r10, ok_bind, Val.asNum, sum4_eq m h, r6, r7, C09_ipv4 m ip h]
  by_cases hc : bitsAt ip 80 16 = sum4 ip
  · simp only [hc, ne_eq, not_true_eq_false, if_false, if_true]; rfl
  · simp only [hc, ne_eq, not_false_eq_true, if_true, if_false]; rfl

theorem route_piece (m : Mode) (n : Nat) {f g : Buf} (hsl : SliceLen f.length) (h : route (forward4 m) n f = .ok (some g)) :
    readPiece m g = readPiece m f := by
  induction n generalizing f with
  | zero => rw [Option.some.inj (Except.ok.inj h)]
  | succ n ih =>
    by_cases h20 : 20 ≤ f.length
    · rw [route, forward4_value m h20 hsl] at h
      by_cases hc : bitsAt f 80 16 = sum4 f ∧ 2 ≤ bitsAt f 64 8
      · rw [if_pos hc] at h
        have hl := hop4_length f
        have e := fun (s k : Nat) (hs : s + k ≤ 8 * 8) => bitsAt_take (hop4_take f) hs
        rw [ih (by rw [hl]; exact hsl) h, readPiece_value m h20, readPiece_value m (by omega), if_pos hc.1,
          if_pos (hop4_fields h20 hsl hc.2).2.2.2.2, e 51 13 (by omega), e 48 3 (by omega), e 4 4 (by omega),
          e 16 16 (by omega), hop4_drop f (by omega)]
      · rw [if_neg hc] at h; cases h
    · rw [route, forward4_short m (by omega)] at h; cases h

/-- **C141.** The same for fragments that arrive over routers, each over a number of its own: `ways` lists fragments, the
numbers of routers and what arrived. -/
theorem C141_routed (m : Mode) (w : Nat) (hw : 0 < w) (ip : Buf) (fs : List Buf) (h : fragment4 m w ip = .ok (some fs))
    (ways : List (Buf × Nat × Buf))
    (hways : ∀ x ∈ ways, x.1 ∈ fs ∧ route (forward4 m) x.2.1 x.1 = .ok (some x.2.2)) :
    ∃ data, ipv4.payload m ip = .ok data ∧
      (assemble m (ways.map (·.2.2)) = .ok none ∨ assemble m (ways.map (·.2.2)) = .ok (some data)) ∧
      ((∀ f ∈ fs, ∃ x ∈ ways, x.1 = f) → assemble m (ways.map (·.2.2)) = .ok (some data)) := by
  have hlen : ∀ f ∈ fs, SliceLen f.length := by
    intro f hf
    obtain ⟨h1, h2⟩ := C141_fragment m w hw ip
    by_cases hc : Cuttable m ip
    · obtain ⟨data, fs', -, h3, -, h5⟩ := h2 hc
      rw [h] at h3
      have h3 : fs = fs' := Option.some.inj (Except.ok.inj h3)
      subst h3
      obtain ⟨i, hi⟩ := List.getElem?_of_mem hf
      obtain ⟨hp, -, h4, -⟩ := h5 i f hi
      have h20 : 20 ≤ f.length := by
        cases hx : ipv4.newPacket f with
        | none => simp only [readPiece, hx] at hp; cases hp
        | some x =>
          have := (C06_new_iff ipv4 f).1.mp (by rw [hx]; rfl)
          rw [show fixedBits ipv4.fields = 160 by decide] at this
          omega
      have r4 : ipv4.get m f 4 = .ok (.num (bitsAt f 16 16)) := get4 m h20 (k := 4) rfl
      have : bitsAt f 16 16 = f.length := Val.num.inj (Except.ok.inj (r4.symm.trans h4))
      have := bitsAt_lt f 16 16
      unfold SliceLen
      omega
    · rw [h1 hc] at h; cases h
  have hread : readPieces m (ways.map (·.2.2)) = readPieces m (ways.map (·.1)) := by
    clear h
    induction ways with
    | nil => rfl
    | cons x xs ih =>
      obtain ⟨x1, x2⟩ := hways x List.mem_cons_self
      simp only [List.map_cons, readPieces, route_piece m _ (hlen _ x1) x2, ih (fun y hy => hways y (List.mem_cons_of_mem _ hy))]
  have hasm : assemble m (ways.map (·.2.2)) = assemble m (ways.map (·.1)) := by
    unfold assemble
    rw [hread]
  obtain ⟨data, d1, d2, d3⟩ := C141_assemble m w hw ip fs (ways.map (·.1)) h (by
    intro f hf
    obtain ⟨x, hx, rfl⟩ := List.mem_map.mp hf
    exact (hways x hx).1)
  rw [hasm]
  exact ⟨data, d1, d2, fun hall => d3 fun f hf => List.mem_map.mpr (hall f hf)⟩

/-- The last fragment over two routers, the others directly, in another order. -/
def exampleWays : List (Buf × Nat × Buf) :=
  [(longFragments[2], 2, [70, 0, 0, 28, 0, 9, 0, 2, 62, 17, 101, 195, 10, 0, 0, 1, 10, 0, 0, 2, 1, 1, 1, 0, 17, 18, 19, 20]),
   (longFragments[0], 0, longFragments[0]), (longFragments[1], 0, longFragments[1])]

example := C141_routed .debug 1 (by decide) longPacket longFragments longPacket_fragments exampleWays (by decide +kernel)

example : ∀ f ∈ longFragments, ∃ x ∈ exampleWays, x.1 = f := by decide +kernel

end Verif.Props
