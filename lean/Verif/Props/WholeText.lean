import Verif.Proofs.CodeFar
import Verif.Proofs.QuicSet
import Verif.Props.Running
import Verif.Spec.CodeText
import Verif.Spec.WholeText

/-!
# From the source of a struct to the values of its integer fields (C118)

`GetterGives`, `SetterGives`, `ArgsGive`, `SetArgsGive` are in `Spec/WholeText`; `crateSources` are the structs of
the crate as written (`Model/Sources`), `fieldOffset` and `argOffset` the tokens of positions.
-/

namespace Verif
open Spec LengthText

/-! ## What is checked of the structs -/

/-- A type as written is this integer, the macro accepts it at this bit, and the position is a literal. -/
def primCheck (ty : List Char) (p : Prim) (bit : Nat) : Bool :=
  (match parseTy ty with
    | some (n, e, _) => n == p.size && e == p.endian && (operations (bit % 8) n e).isSome
    | none => false) &&
  (typeNames.any fun x => x.1.toList == ty && storageWidth p.size == x.2) && decide (bit < 2 ^ 32) &&
  usizeLiteral (toString (bit / 8) ++ "usize") == some (bit / 8)

/-- The same of arguments. -/
def argsCheck : (bit : Nat) → List (List Char) → List Prim → Bool
  | _, [], [] => true
  | bit, ty :: tys, p :: ps => primCheck ty p bit && argsCheck (bit + p.size) tys ps
  | _, _, _ => false

/-- The same of a field. -/
def tyCheck (rf : RawField) (bit : Nat) : Ty → Bool
  | .prim p => primCheck rf.ty p bit
  | .misc args => argsCheck bit (constructTexts rf.attrs) args
  | _ => true

theorem crate_types : (crateSources.all fun e => (List.range e.2.1.length).all fun k =>
    match e.2.1[k]?, e.2.2.fields[k]? with
    | some rf, some f => sourceWidth rf == f.ty.bits && tyCheck rf (bitsSum (e.2.2.fields.take k)) f.ty
    | _, _ => true) = true := by decide +kernel

theorem crate_type_at {e : String × List RawField × Decl} (he : e ∈ crateSources) {k : Nat} {rf : RawField}
    {f : Field} (hrf : e.2.1[k]? = some rf) (hf : e.2.2.fields[k]? = some f) :
    sourceWidth rf = f.ty.bits ∧ tyCheck rf (bitsSum (e.2.2.fields.take k)) f.ty = true := by
  have h := List.all_eq_true.mp (List.all_eq_true.mp crate_types e he) k
    (List.mem_range.mpr (List.getElem?_eq_some_iff.mp hrf).1)
  simp only [hrf, hf, Bool.and_eq_true, beq_iff_eq] at h
  exact h

/-- The widths as written are those of the declarations. -/
theorem sourceWidth_ok (e : String × List RawField × Decl) (he : e ∈ crateSources) : WidthsOf e sourceWidth :=
  fun _ _ _ hrf hf => (crate_type_at he hrf hf).1

theorem primCheck_facts {ty : List Char} {p : Prim} {bit : Nat} (h : primCheck ty p bit = true) :
    (∃ spec ops, parseTy ty = some (p.size, p.endian, spec) ∧
      operations (bit % 8) p.size p.endian = some ops) ∧
    (∃ s w, (s, w) ∈ typeNames ∧ s.toList = ty ∧ storageWidth p.size = w) ∧ bit < 2 ^ 32 ∧
    usizeLiteral (toString (bit / 8) ++ "usize") = some (bit / 8) := by
  simp only [primCheck, Bool.and_eq_true, List.any_eq_true, beq_iff_eq, decide_eq_true_eq] at h
  obtain ⟨⟨⟨h1, ⟨⟨s, w⟩, h2, h3, h4⟩⟩, h5⟩, h6⟩ := h
  refine ⟨?_, ⟨s, w, h2, h3, h4⟩, h5, h6⟩
  cases hp : parseTy ty with
  | none => rw [hp] at h1; cases h1
  | some t =>
    obtain ⟨n, en, spec⟩ := t
    rw [hp] at h1
    simp only [Bool.and_eq_true, beq_iff_eq] at h1
    obtain ⟨⟨rfl, rfl⟩, h7⟩ := h1
    obtain ⟨ops, ho⟩ := Option.isSome_iff_exists.mp h7
    exact ⟨spec, ops, rfl, ho⟩

theorem primCheck_tyBits {ty : List Char} {p : Prim} {bit : Nat} (h : primCheck ty p bit = true) :
    tyBits ty = p.size := by
  obtain ⟨⟨spec, ops, h1, -⟩, -⟩ := primCheck_facts h
  rw [tyBits, h1]

/-- The position after some bits of field `k`. -/
theorem argOffset_is {e : String × List RawField × Decl} (he : e ∈ crateSources) (m : Mode) (buf : Buf) (k bits : Nat)
    (hk : k ≤ e.2.2.fields.length)
    (hlit : usizeLiteral (toString ((bitsSum (e.2.2.fields.take k) + bits) / 8) ++ "usize") =
      some ((bitsSum (e.2.2.fields.take k) + bits) / 8)) :
    UsizeIs (packetMeaning m e.2.2 buf) (argOffset tokenise e.2.1 sourceWidth k bits)
      (curOff m (bitsSum (e.2.2.fields.take k) + bits) (e.2.2.before m buf k).lens) := by
  have h : ∀ f ∈ e.2.1, LengthIs tokenise e.2.1 f (readLength f) := fun f hf =>
    lengthCheck_is (List.all_eq_true.mp (List.all_eq_true.mp crate_lengths e he) f hf)
  obtain ⟨h1, h2⟩ := crate_names he
  obtain ⟨h3, h4⟩ := readsAll_step h1 h2 sourceWidth (e.2.1.take k) (fun f hf => h f (List.mem_of_mem_take hf)) 0 [] [] .nil
  obtain ⟨h5, h6⟩ := run_before he (sourceWidth_ok e he) m buf k hk
  have hr := reads_lower (l := 1) (reads_currentOffset h4 (0 + ((e.2.1.take k).map sourceWidth).sum + bits)) (by decide)
  rw [← h3] at hr
  refine ⟨_, hr, fun _ h' => rexpr_unique h' hr, ?_⟩
  rw [value_sumExpr, exprsFrom_values]
  simp only [List.map_nil]
  rw [h6, h3, h5, Nat.zero_add]
  refine position_run _ _ _ _ ?_ _
  simp only [packetMeaning, hlit]

theorem fieldOffset_arg (tok : String → Option (List TT)) (fields : List RawField) (width : RawField → Nat) (k : Nat) :
    fieldOffset tok fields width k = argOffset tok fields width k 0 := rfl

theorem getter_gives {ty : List Char} {p : Prim} {bit : Nat} (h : primCheck ty p bit = true) {m : Mode}
    {I : Meaning RunVal} {buf : Buf} (hsl : SliceLen buf.length) {tokens : List TT} {lens : List (Res Nat)}
    (hpos : UsizeIs I tokens (curOff m bit lens)) {name : String} (hname : name ∈ bufferNames) :
    GetterGives m I buf tokens name ty bit (curOff m bit lens >>= getPrim p (bit % 8) buf) := by
  obtain ⟨⟨spec, ops, h1, h2⟩, ⟨s, w, h3, rfl, h4⟩, h5, -⟩ := primCheck_facts h
  refine ⟨_, _, spec, ops, _, h1, h2, hpos, ?_⟩
  cases hc : curOff m bit lens with
  | error x => rfl
  | ok co =>
    exact (CodeText.run_getter_any h3 h4 h2 hname m hsl (curOff_lt (by omega) hc)).symm

theorem setter_gives {ty : List Char} {p : Prim} {bit : Nat} (h : primCheck ty p bit = true) {m : Mode}
    {I : Meaning RunVal} {buf : Buf} (hsl : SliceLen buf.length) {tokens : List TT} {lens : List (Res Nat)}
    (hpos : UsizeIs I tokens (curOff m bit lens)) {name : String} (hname : name ∈ bufferNames) {v : Nat}
    (hv : v < 2 ^ storageWidth p.size) :
    SetterGives m I buf tokens name ty bit v
      (curOff m bit lens >>= fun co => setPrim p (bit % 8) buf co v) := by
  obtain ⟨⟨spec, ops, h1, h2⟩, ⟨s, w, h3, rfl, h4⟩, h5, -⟩ := primCheck_facts h
  refine ⟨_, _, spec, ops, _, h1, h2, hpos, ?_⟩
  cases hc : curOff m bit lens with
  | error x => rfl
  | ok co =>
    exact (CodeText.run_setter_any h3 h4 h2 hname m hsl (h4 ▸ hv) (curOff_lt (by omega) hc)).symm

theorem args_give {e : String × List RawField × Decl} (he : e ∈ crateSources) (m : Mode) {buf : Buf}
    (hsl : SliceLen buf.length) {k : Nat} (hk : k ≤ e.2.2.fields.length) :
    ∀ (tys : List (List Char)) (ps : List Prim) (done : Nat),
      argsCheck (bitsSum (e.2.2.fields.take k) + done) tys ps = true →
      ArgsGive m (packetMeaning m e.2.2 buf) buf (argOffset tokenise e.2.1 sourceWidth k)
        (bitsSum (e.2.2.fields.take k)) done tys
        (getArgs m (e.2.2.before m buf k).lens buf (bitsSum (e.2.2.fields.take k) + done) ps)
  | [], [], _, _ => rfl
  | [], _ :: _, _, h => by cases h
  | _ :: _, [], _, h => by cases h
  | ty :: tys, p :: ps, done, h => by
    simp only [argsCheck, Bool.and_eq_true] at h
    have ih := args_give he m hsl hk tys ps (done + p.size) (by rw [← Nat.add_assoc]; exact h.2)
    refine ⟨_, _, getter_gives h.1 hsl (argOffset_is he m buf k done hk (primCheck_facts h.1).2.2.2)
      (by simp [bufferNames]), by rw [primCheck_tyBits h.1]; exact ih, ?_⟩
    rw [getArgs]
    cases curOff m (bitsSum (e.2.2.fields.take k) + done) (e.2.2.before m buf k).lens with
    | error x => rfl
    | ok co =>
      simp only [ok_bind]
      cases getPrim p ((bitsSum (e.2.2.fields.take k) + done) % 8) buf co with
      | error x => rfl
      | ok v =>
        simp only [ok_bind, Nat.add_assoc]
        cases getArgs m (e.2.2.before m buf k).lens buf (bitsSum (e.2.2.fields.take k) + (done + p.size)) ps <;> rfl

theorem setArgs_give {e : String × List RawField × Decl} (he : e ∈ crateSources) (m : Mode)
    {k : Nat} (hk : k ≤ e.2.2.fields.length) :
    ∀ (tys : List (List Char)) (ps : List Prim) (vs : List Nat) (done : Nat) (buf : Buf), SliceLen buf.length →
      argsCheck (bitsSum (e.2.2.fields.take k) + done) tys ps = true → vs.length = ps.length →
      (∀ (i : Nat) (p : Prim) (v : Nat), ps[i]? = some p → vs[i]? = some v → v < 2 ^ storageWidth p.size) →
      SetArgsGive m (packetMeaning m e.2.2) (argOffset tokenise e.2.1 sourceWidth k)
        (bitsSum (e.2.2.fields.take k)) done tys vs buf
        (setArgs m (fun b => (e.2.2.before m b k).lens) (bitsSum (e.2.2.fields.take k) + done) ps vs buf)
  | [], [], [], _, _, _, _, _, _ => rfl
  | [], [], _ :: _, _, _, _, _, h, _ => by cases h
  | [], _ :: _, _, _, _, _, h, _, _ => by cases h
  | _ :: _, [], _, _, _, _, h, _, _ => by cases h
  | _ :: _, _ :: _, [], _, _, _, _, h, _ => by cases h
  | ty :: tys, p :: ps, v :: vs, done, buf, hsl, h, hl, hv => by
    simp only [argsCheck, Bool.and_eq_true] at h
    refine ⟨_, setter_gives h.1 hsl (argOffset_is he m buf k done hk (primCheck_facts h.1).2.2.2)
      (by simp [bufferNames]) (hv 0 p v rfl rfl), ?_⟩
    rw [setArgs]
    cases curOff m (bitsSum (e.2.2.fields.take k) + done) (e.2.2.before m buf k).lens with
    | error x => exact .inl ⟨x, rfl, rfl⟩
    | ok co =>
      simp only [ok_bind]
      cases hs : setPrim p ((bitsSum (e.2.2.fields.take k) + done) % 8) buf co v with
      | error x => exact .inl ⟨x, rfl, rfl⟩
      | ok new =>
        refine .inr ⟨new, rfl, ?_⟩
        rw [ok_bind, primCheck_tyBits h.1, Nat.add_assoc]
        exact setArgs_give he m hk tys ps vs (done + p.size) new (by rw [setPrim_length hs]; exact hsl)
          (by rw [← Nat.add_assoc]; exact h.2) (by simpa using hl) fun i p' v' h1 h2 => hv (i + 1) p' v' h1 h2

/-! ## C118 -/

/-- **C118**: for every integer field of every struct of the crate, take the position and the block that the
macro writes for its getter, from the struct as written, and read and run them as Rust: the outcome is that of
the getter in the model, in every buffer and both kinds of builds. -/
theorem C118_getters (e : String × List RawField × Decl) (he : e ∈ crateSources) (m : Mode) (buf : Buf)
    (hsl : SliceLen buf.length) (k : Nat) (rf : RawField) (hrf : e.2.1[k]? = some rf) (f : Field)
    (hf : e.2.2.fields[k]? = some f) (p : Prim) (hp : f.ty = .prim p) :
    ∃ r, GetterGives m (packetMeaning m e.2.2 buf) buf (fieldOffset tokenise e.2.1 sourceWidth k) "self.packet" rf.ty
        ((e.2.1.take k).map sourceWidth).sum r ∧
      e.2.2.get m buf k = .num <$> r := by
  have hk := (List.getElem?_eq_some_iff.mp hf).1
  have hc := (crate_type_at he hrf hf).2
  rw [hp] at hc
  rw [(run_before he (sourceWidth_ok e he) m buf k (by omega)).1]
  refine ⟨_, getter_gives hc hsl (argOffset_is he m buf k 0 (by omega) (primCheck_facts hc).2.2.2)
    (by simp [bufferNames]), ?_⟩
  simp only [Decl.get, hf, hp, getField, before_bit]
  cases curOff m (bitsSum (e.2.2.fields.take k)) (e.2.2.before m buf k).lens <;> rfl

/-- **C118**: likewise its setter, for every value of the argument's type. -/
theorem C118_setters (e : String × List RawField × Decl) (he : e ∈ crateSources) (m : Mode) (buf : Buf)
    (hsl : SliceLen buf.length) (k : Nat) (rf : RawField) (hrf : e.2.1[k]? = some rf) (f : Field)
    (hf : e.2.2.fields[k]? = some f) (p : Prim) (hp : f.ty = .prim p) (v : Nat) (hv : v < 2 ^ storageWidth p.size) :
    SetterGives m (packetMeaning m e.2.2 buf) buf (fieldOffset tokenise e.2.1 sourceWidth k) "self.packet" rf.ty
        ((e.2.1.take k).map sourceWidth).sum v (e.2.2.set m buf k (.num v)) := by
  have hk := (List.getElem?_eq_some_iff.mp hf).1
  have hc := (crate_type_at he hrf hf).2
  rw [hp] at hc
  rw [(run_before he (sourceWidth_ok e he) m buf k (by omega)).1]
  have := setter_gives hc hsl (argOffset_is he m buf k 0 (by omega) (primCheck_facts hc).2.2.2)
    (name := "self.packet") (by simp [bufferNames]) hv
  simpa only [Decl.set, hf, hp, before_bit, fieldOffset_arg] using this

/-- **C118**: for every field made with `construct_with`, the helper functions that read its arguments, run in
order, give the numbers that the getter in the model gives. -/
theorem C118_argument_getters (e : String × List RawField × Decl) (he : e ∈ crateSources) (m : Mode) (buf : Buf)
    (hsl : SliceLen buf.length) (k : Nat) (rf : RawField) (hrf : e.2.1[k]? = some rf) (f : Field)
    (hf : e.2.2.fields[k]? = some f) (ps : List Prim) (hp : f.ty = .misc ps) :
    ∃ r, ArgsGive m (packetMeaning m e.2.2 buf) buf (argOffset tokenise e.2.1 sourceWidth k)
        ((e.2.1.take k).map sourceWidth).sum 0 (constructTexts rf.attrs) r ∧
      e.2.2.get m buf k = .nums <$> r := by
  have hk := (List.getElem?_eq_some_iff.mp hf).1
  have hc := (crate_type_at he hrf hf).2
  rw [hp] at hc
  rw [(run_before he (sourceWidth_ok e he) m buf k (by omega)).1]
  refine ⟨_, args_give he m hsl (by omega) (constructTexts rf.attrs) ps 0 hc, ?_⟩
  simp only [Decl.get, hf, hp, getField, before_bit, Nat.add_zero]

/-- **C118**: likewise the helper functions that write its arguments, for all values of their types. -/
theorem C118_argument_setters (e : String × List RawField × Decl) (he : e ∈ crateSources) (m : Mode) (buf : Buf)
    (hsl : SliceLen buf.length) (k : Nat) (rf : RawField) (hrf : e.2.1[k]? = some rf) (f : Field)
    (hf : e.2.2.fields[k]? = some f) (ps : List Prim) (hp : f.ty = .misc ps) (vs : List Nat)
    (hl : vs.length = ps.length)
    (hv : ∀ (i : Nat) (p : Prim) (v : Nat), ps[i]? = some p → vs[i]? = some v → v < 2 ^ storageWidth p.size) :
    SetArgsGive m (packetMeaning m e.2.2) (argOffset tokenise e.2.1 sourceWidth k)
        ((e.2.1.take k).map sourceWidth).sum 0 (constructTexts rf.attrs) vs buf (e.2.2.set m buf k (.nums vs)) := by
  have hk := (List.getElem?_eq_some_iff.mp hf).1
  have hc := (crate_type_at he hrf hf).2
  rw [hp] at hc
  rw [(run_before he (sourceWidth_ok e he) m buf k (by omega)).1]
  have := setArgs_give he m (by omega) (constructTexts rf.attrs) ps vs 0 buf hsl hc hl hv
  simpa only [Decl.set, hf, hp, before_bit, hl, if_true, Nat.add_zero] using this

/-! ## Examples -/

/-- The source address of an IPv4 packet: four helper functions. -/
example := C118_argument_getters ("ipv4::Ipv4", Source.srcIpv4, ipv4) (by simp [crateSources]) .debug
  (List.replicate 12 0 ++ [10, 0, 0, 7, 10, 0, 0, 8]) (by decide) 11 _ rfl _ rfl _ rfl

example := C118_argument_setters ("ipv4::Ipv4", Source.srcIpv4, ipv4) (by simp [crateSources]) .release
  (List.replicate 20 0) (by decide) 11 _ rfl _ rfl _ rfl [10, 0, 0, 7] rfl (by
    intro i p v h1 h2
    match i with
    | 0 | 1 | 2 | 3 => cases h1; cases h2; decide
    | i + 4 => cases h1)

example := C118_getters ("ipv4::Ipv4", Source.srcIpv4, ipv4) (by simp [crateSources]) .debug
  (List.replicate 20 7) (by decide) 7 _ rfl _ rfl _ rfl

/-- The field after a connection identifier: its position depends on the packet. -/
example := C118_setters ("quic::VersionNegotiation", Source.srcQuicVersionNegotiation, versionNegotiation)
  (by simp [crateSources]) .debug
  (List.replicate 5 0 ++ [2, 8, 8, 1, 9]) (by decide) 5 _ rfl _ rfl _ rfl 1 (by decide)

end Verif
