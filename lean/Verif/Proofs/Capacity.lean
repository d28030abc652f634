import Verif.Model.Capacity
import Verif.Proofs.VectorFields

/-! # Lemmas about getters and capacities -/

namespace Verif

theorem getElems_fits {p : Prim} (hs : 8 ≤ p.size) (packet : Buf) (n co : Nat) (vs : List Nat)
    (hco : co ≤ packet.length) (h : getElems p packet n co = .ok vs) :
    co + n ≤ packet.length ∧ vs.length = n := by
  induction n generalizing co vs with
  | zero =>
    cases h
    exact ⟨hco, rfl⟩
  | succ n ih =>
    rw [getElems, bind_eq_ok] at h
    obtain ⟨v, hv, h⟩ := h
    rw [bind_eq_ok] at h
    obtain ⟨vs', hvs, h⟩ := h
    cases h
    have := (getPrim_inv hv).2.1
    obtain ⟨h1, h2⟩ := ih (co + p.size / 8) vs' (by omega) hvs
    simp only [List.length_cons]
    omega

theorem varSlice_length_le {m : Mode} {buf : Buf} {co len : Res Nat} {raw : Buf}
    (h : varSlice m buf co len = .ok raw) : raw.length ≤ buf.length := by
  unfold varSlice at h
  rw [bind_eq_ok] at h
  obtain ⟨a, -, h⟩ := h
  rw [bind_eq_ok] at h
  obtain ⟨l, -, h⟩ := h
  rw [bind_eq_ok] at h
  obtain ⟨b, -, h⟩ := h
  unfold slice at h
  split at h <;> cases h
  simp only [List.length_take, List.length_drop]
  omega

theorem getFieldCap_eq {cap : Capacity} {m : Mode} {buf : Buf} (hcap : ∀ n ≤ buf.length, cap n = n)
    (bit : Nat) (lens : List (Res Nat)) (len : Res Nat) (ty : Ty) :
    getFieldCap cap m buf bit lens len ty = getField m buf bit lens len ty := by
  cases ty with
  | vecPrim p =>
    simp only [getFieldCap, getField]
    cases h : varSlice m buf (curOff m bit lens) len with
    | error e => rfl
    | ok raw => rw [ok_bind, ok_bind, hcap _ (varSlice_length_le h)]
  | prim p => rfl
  | misc a => rfl
  | vecPkt c => rfl

theorem stepCap_eq {cap : Capacity} {m : Mode} {buf : Buf} (hcap : ∀ n ≤ buf.length, cap n = n) :
    St.stepCap cap m buf = St.step m buf := by
  funext st f
  simp only [St.stepCap, St.step, getFieldCap_eq hcap]
  cases f.len <;> rfl

theorem getFieldCap_inv {cap : Capacity} (hcap : cap.Promised) {m : Mode} {buf : Buf} {bit : Nat}
    {lens : List (Res Nat)} {len : Res Nat} {p : Prim} (hs : 8 ≤ p.size) {v : Val}
    (h : getFieldCap cap m buf bit lens len (.vecPrim p) = .ok v) :
    ∃ vs, v = .nums vs ∧ cap vs.length = vs.length := by
  simp only [getFieldCap] at h
  rw [bind_eq_ok] at h
  obtain ⟨raw, -, h⟩ := h
  obtain ⟨vs, hvs, rfl⟩ := map_eq_ok h
  obtain ⟨h1, h2⟩ := getElems_fits hs raw _ 0 vs (by omega) hvs
  have h3 := hcap raw.length
  have h4 : vs.length = raw.length := by omega
  exact ⟨vs, rfl, by rw [h4] at h2 ⊢; exact h2.symm⟩

theorem stepCap_vals (cap : Capacity) (m : Mode) (buf : Buf) (fs : List Field) (st : St) :
    ∃ vs, (fs.foldl (St.stepCap cap m buf) st).vals = st.vals ++ vs ∧ vs.length = fs.length ∧
      ∀ (k : Nat) (f : Field), fs[k]? = some f → ∃ bit lens len,
        vs[k]? = some (getFieldCap cap m buf bit lens len f.ty) := by
  induction fs generalizing st with
  | nil => exact ⟨[], by simp, rfl, by simp⟩
  | cons f fs ih =>
    obtain ⟨vs, h1, h2, h3⟩ := ih (St.stepCap cap m buf st f)
    refine ⟨getFieldCap cap m buf st.bit st.lens (fieldLen m buf st f) f.ty :: vs, ?_, by simp [h2], ?_⟩
    · rw [List.foldl_cons, h1]
      simp [St.stepCap]
    · intro k g hk
      cases k with
      | zero =>
        rw [List.getElem?_cons_zero] at hk
        cases hk
        exact ⟨_, _, _, rfl⟩
      | succ k => exact h3 k g hk

theorem mapM_id_inv {vs : List (Res Val)} {ws : List Val} (h : vs.mapM id = .ok ws) :
    ws.length = vs.length ∧ ∀ (k : Nat) (r : Res Val), vs[k]? = some r → ∃ w, ws[k]? = some w ∧ r = .ok w := by
  induction vs generalizing ws with
  | nil => cases h; exact ⟨rfl, by simp⟩
  | cons v vs ih =>
    rw [List.mapM_cons, bind_eq_ok] at h
    obtain ⟨w, hw, h⟩ := h
    rw [bind_eq_ok] at h
    obtain ⟨ws', hws, h⟩ := h
    cases h
    obtain ⟨h1, h2⟩ := ih hws
    refine ⟨by simp [h1], fun k r hk => ?_⟩
    cases k with
    | zero =>
      rw [List.getElem?_cons_zero] at hk
      cases hk
      exact ⟨w, rfl, hw⟩
    | succ k => exact h2 k r hk

end Verif
