import Verif.Proofs.Capacity
import Verif.Model.Protocols

/-!
# Getters of vectors and the capacity of their vectors (C115)
-/

namespace Verif.Props

/-- Full statement of **C115**: whatever capacity the standard library reserves, as long as it is at least
the requested one, getters and `from_packet` return the same. -/
def C115_statement : Prop :=
  ∀ (cap : Capacity), cap.Promised → ∀ (d : Decl) (m : Mode) (buf : Buf),
    (∀ k, d.getCap cap m buf k = d.get m buf k) ∧ d.fromPacketCap cap m buf = d.fromPacket m buf

/-- A library that never reserves fewer than eight bytes. -/
def eightAtLeast : Capacity := fun n => max 8 n

/-- C115 is false: with a library that never reserves fewer than eight bytes, `from_packet` of an Ethernet
frame with a payload of one byte panics. -/
theorem C115_false : ¬ C115_statement := by
  intro h
  have := (h eightAtLeast (fun n => Nat.le_max_right 8 n) ethernet .release (List.replicate 15 0)).2
  revert this
  decide +kernel

/-- **C115**, where it holds: if exactly the requested capacity is reserved for every vector that is not
longer than the buffer, then getters and `from_packet` do what they do in `Verif/Model/Derive.lean`.
Missing: every other capacity, see `C115_returns_partial`. -/
theorem C115_same_partial (cap : Capacity) (d : Decl) (m : Mode) (buf : Buf)
    (hcap : ∀ n ≤ buf.length, cap n = n) :
    (∀ k, d.getCap cap m buf k = d.get m buf k) ∧ d.fromPacketCap cap m buf = d.fromPacket m buf := by
  refine ⟨fun k => ?_, ?_⟩
  · simp only [Decl.getCap, Decl.get, Decl.beforeCap, Decl.before, St.run, stepCap_eq hcap,
      getFieldCap_eq hcap]
    cases d.fields[k]? <;> rfl
  · simp only [Decl.fromPacketCap, Decl.fromPacket, Decl.final, St.run, stepCap_eq hcap]

/-- Exactness is needed only up to the length of the buffer: here 4096 is the smallest block above it. -/
example := C115_same_partial (fun n => if n ≤ 64 then n else n + 4096) ethernet .debug (List.replicate 60 7)
  (by intro n hn; rw [List.length_replicate] at hn; exact if_pos (by omega))

/-- **C115**, what happens otherwise: a getter of a vector of integers that returns a vector of `n` numbers
had exactly the capacity `n` reserved. So with a library that reserves more than was asked for, every such
getter panics, however valid the packet is. Missing: that it returns. -/
theorem C115_returns_partial (cap : Capacity) (hcap : cap.Promised) (d : Decl) (m : Mode) (buf : Buf)
    (k : Nat) (f : Field) (p : Prim) (hf : d.fields[k]? = some f) (hty : f.ty = .vecPrim p)
    (hp : 8 ≤ p.size) (v : Val) (h : d.getCap cap m buf k = .ok v) :
    ∃ ns, v = .nums ns ∧ cap ns.length = ns.length := by
  simp only [Decl.getCap, hf, hty] at h
  exact getFieldCap_inv hcap hp h

/-- The payload of an Ethernet frame with eight bytes of payload, with the library that reserves at least
eight. -/
example := C115_returns_partial eightAtLeast (fun n => Nat.le_max_right 8 n) ethernet .debug
  (List.replicate 14 0 ++ [1, 2, 3, 4, 5, 6, 7, 8]) 3 _ ⟨8, .big⟩ rfl rfl (by decide)
  (.nums [1, 2, 3, 4, 5, 6, 7, 8]) (by decide +kernel)

/-- **C115**, for whole packets: when `from_packet` returns, every vector of integers in the value has
exactly its length as capacity. -/
theorem C115_fromPacket_partial (cap : Capacity) (hcap : cap.Promised) (d : Decl) (m : Mode) (buf : Buf)
    (v : Val) (h : d.fromPacketCap cap m buf = .ok v) :
    ∃ vs, v = .list vs ∧ vs.length = d.fields.length ∧
      ∀ (k : Nat) (f : Field) (p : Prim), d.fields[k]? = some f → f.ty = .vecPrim p → 8 ≤ p.size →
        ∃ ns, vs[k]? = some (.nums ns) ∧ cap ns.length = ns.length := by
  unfold Decl.fromPacketCap at h
  obtain ⟨vs, hvs, rfl⟩ := map_eq_ok h
  obtain ⟨rs, h1, h2, h3⟩ := stepCap_vals cap m buf d.fields .init
  rw [h1] at hvs
  obtain ⟨h4, h5⟩ := mapM_id_inv hvs
  refine ⟨vs, rfl, by rw [h4]; exact h2, fun k f p hf hty hp => ?_⟩
  obtain ⟨bit, lens, len, hk⟩ := h3 k f hf
  obtain ⟨w, hw, hr⟩ := h5 k _ hk
  rw [hty] at hr
  obtain ⟨ns, rfl, hc⟩ := getFieldCap_inv hcap hp hr
  exact ⟨ns, hw, hc⟩

example := C115_fromPacket_partial eightAtLeast (fun n => Nat.le_max_right 8 n) ethernet .debug
  (List.replicate 14 0 ++ [1, 2, 3, 4, 5, 6, 7, 8]) _
  (show ethernet.fromPacketCap _ _ _ = .ok (.list [.nums [0, 0, 0, 0, 0, 0], .nums [0, 0, 0, 0, 0, 0],
    .nums [0], .nums [1, 2, 3, 4, 5, 6, 7, 8]]) by decide +kernel)

end Verif.Props
