import Verif.Proofs.Running
import Verif.Props.CrateLengths

/-!
# Positions and lengths in the packets of the crate, as the generated code computes them (C114)

`packetMeaning` (what the expressions of the generated code evaluate to in a packet) is in `Spec/Running`,
`Reads` in `Spec/LengthGrammar`; `fieldOffset`, `fieldLength` and `payloadUpper` are the tokens that the macro
generates (`Model/Offsets`), `curOff`, `lenExpr` and `Decl.before` belong to the model of the accessors
(`Model/Derive`).
-/

namespace Verif
open Spec LengthText

/-- What is checked of field `k` of a struct of the crate: the two readings of its length agree, the length
uses earlier fields only, and the literal for its position is the number. -/
def runCheck (e : String × List RawField × Decl) (k : Nat) : Bool :=
  match e.2.1[k]? with
  | none => true
  | some rf =>
    (match exprOf e.2.1 k with
    | none => readLength rf == none
    | some x => ((readLength rf).bind fun r => toExpr (RExpr.subst (fieldNames e.2.1 rf.name) r)) == some x &&
      (getters x).all fun n =>
        match LengthText.position e.2.2 n with
        | some i => decide (i < k)
        | none => false)

/-- The literal for the bits before field `k`. -/
def literalCheck (e : String × List RawField × Decl) (k : Nat) : Bool :=
  usizeLiteral (toString (bitsSum (e.2.2.fields.take k) / 8) ++ "usize") == some (bitsSum (e.2.2.fields.take k) / 8)

theorem crate_run : (crateSources.all fun e => e.2.1.length == e.2.2.fields.length &&
    (List.range (e.2.1.length + 1)).all fun k => runCheck e k && literalCheck e k) = true := by decide +kernel

theorem crate_run_at {e : String × List RawField × Decl} (he : e ∈ crateSources) :
    e.2.1.length = e.2.2.fields.length ∧ ∀ k ≤ e.2.1.length, runCheck e k = true ∧ literalCheck e k = true := by
  have h := List.all_eq_true.mp crate_run e he
  simp only [Bool.and_eq_true, beq_iff_eq] at h
  refine ⟨h.1, fun k hk => ?_⟩
  have := List.all_eq_true.mp h.2 k (List.mem_range.mpr (by omega))
  simpa using this

theorem crate_int {e : String × List RawField × Decl} (he : e ∈ crateSources) (m : Mode) (buf : Buf) {k : Nat}
    (hk : k ≤ e.2.1.length) :
    (packetMeaning m e.2.2 buf).int (toString (bitsSum (e.2.2.fields.take k) / 8) ++ "usize") =
      .usize (.ok (bitsSum (e.2.2.fields.take k) / 8)) := by
  have := ((crate_run_at he).2 k hk).2
  simp only [literalCheck, beq_iff_eq] at this
  simp only [packetMeaning, this]

/-- The length of a field in a packet. -/
theorem lengthValue_run {e : String × List RawField × Decl} (he : e ∈ crateSources) (m : Mode) (buf : Buf)
    {k : Nat} {rf : RawField} {f : Field} (hrf : e.2.1[k]? = some rf) (hf : e.2.2.fields[k]? = some f) :
    (f.len = none ∧ readLength rf = none) ∨ ∃ len r, f.len = some len ∧ readLength rf = some r ∧
      lengthValue (packetMeaning m e.2.2 buf) e.2.1 rf
        (.usize (curOff m (e.2.2.before m buf k).bit (e.2.2.before m buf k).lens)) r =
        .usize (lenExpr m buf (e.2.2.before m buf k) len) := by
  have hk : k < e.2.2.fields.length := (List.getElem?_eq_some_iff.mp hf).1
  have hc := ((crate_run_at he).2 k (by have := (crate_run_at he).1; omega)).1
  simp only [runCheck, hrf] at hc
  rcases C77_lengths e he k f hf with ⟨h1, h2⟩ | ⟨len, x, h1, h2, h3⟩
  · rw [h2] at hc
    exact .inl ⟨h1, by simpa using hc⟩
  · right
    rw [h2] at hc
    simp only [Bool.and_eq_true, beq_iff_eq, Option.bind_eq_some_iff] at hc
    obtain ⟨⟨r, hr, hx⟩, hg⟩ := hc
    refine ⟨len, r, h1, hr, ?_⟩
    rw [lengthValue, ← value_subst, value_toExpr m e.2.2 buf _ _ hx]
    have hget : ∀ n ∈ getters x, ∀ i, LengthText.position e.2.2 n = some i →
        e.2.2.get m buf i = (e.2.2.before m buf k).get i := by
      intro n hn i hi
      have := List.all_eq_true.mp hg n hn
      rw [hi] at this
      rw [before_get (by simpa using this) (by omega)]
    rw [eval_congr m e.2.2 _ hget]
    have htyped : TypedGetters e.2.2 k (e.2.2.before m buf k).get := by
      intro i g v hi hg hv
      rw [before_get hi (by omega)] at hv
      exact C77_getters_typed e he m buf k i g v hi hg hv
    have := h3 m (e.2.2.before m buf k).get
      (curOff m (e.2.2.before m buf k).bit (e.2.2.before m buf k).lens >>= sliceFrom buf) htyped
    rw [lenExpr, this]
    rfl

/-- The widths that the macro adds are those of the declaration. -/
def WidthsOf (e : String × List RawField × Decl) (width : RawField → Nat) : Prop :=
  ∀ (k : Nat) (rf : RawField) (f : Field), e.2.1[k]? = some rf → e.2.2.fields[k]? = some f → width rf = f.ty.bits

theorem run_before {e : String × List RawField × Decl} (he : e ∈ crateSources) {width : RawField → Nat}
    (hw : WidthsOf e width) (m : Mode) (buf : Buf) (k : Nat) (hk : k ≤ e.2.2.fields.length) :
    ((e.2.1.take k).map width).sum = bitsSum (e.2.2.fields.take k) ∧
    lengthsFrom (packetMeaning m e.2.2 buf) e.2.1 width readLength 0 [] (e.2.1.take k) =
      (e.2.2.before m buf k).lens.map RunVal.usize := by
  have hlen := (crate_run_at he).1
  induction k with
  | zero => exact ⟨rfl, rfl⟩
  | succ k ih =>
    obtain ⟨ih1, ih2⟩ := ih (by omega)
    have hrf : e.2.1[k]? = some (e.2.1[k]'(by omega)) := List.getElem?_eq_getElem (by omega)
    have hf : e.2.2.fields[k]? = some (e.2.2.fields[k]'(by omega)) := List.getElem?_eq_getElem (by omega)
    have hwk := hw k _ _ hrf hf
    rw [List.take_succ_eq_append_getElem (by omega), List.take_succ_eq_append_getElem (by omega)]
    refine ⟨?_, ?_⟩
    · simp only [bitsSum, List.map_append, List.sum_append, List.map_cons, List.map_nil, List.sum_cons, List.sum_nil] at ih1 ⊢
      omega
    · rw [lengthsFrom_append, ih2, ih1, Nat.zero_add, position_run _ _ _ _ (crate_int he m buf (by omega)),
        ← before_bit e.2.2 m buf k]
      rcases lengthValue_run he m buf hrf hf with ⟨h1, h2⟩ | ⟨len, r, h1, h2, h3⟩
      · rw [h2, before_lens_succ_none hf h1]
        simp
      · rw [h2, before_lens_succ hf h1]
        simp only [Option.map_some, Option.toList_some, h3, List.map_append, List.map_cons, List.map_nil]

theorem positionOf_run {e : String × List RawField × Decl} (he : e ∈ crateSources) {width : RawField → Nat}
    (hw : WidthsOf e width) (m : Mode) (buf : Buf) (k : Nat) (hk : k ≤ e.2.2.fields.length) :
    positionOf (packetMeaning m e.2.2 buf) e.2.1 width readLength k =
      .usize (curOff m (e.2.2.before m buf k).bit (e.2.2.before m buf k).lens) := by
  obtain ⟨h1, h2⟩ := run_before he hw m buf k hk
  have hlen := (crate_run_at he).1
  rw [positionOf, h1, h2, position_run _ _ _ _ (crate_int he m buf (by omega)), before_bit]

/-- **C114**: in every struct of the crate, the expression that the macro generates for the position of a
field, read as Rust and evaluated in a packet, is the position that the model of the accessors uses, failures
included, in both kinds of builds; `k` may be the number of fields, for the position after the last one. -/
theorem C114_positions (e : String × List RawField × Decl) (he : e ∈ crateSources) (width : RawField → Nat)
    (hw : WidthsOf e width) (m : Mode) (buf : Buf) (k : Nat) (hk : k ≤ e.2.2.fields.length) :
    ∃ ex, Reads 1 (fieldOffset tokenise e.2.1 width k) ex ∧
      (∀ ex', Reads 1 (fieldOffset tokenise e.2.1 width k) ex' → ex' = ex) ∧
      ex.value (packetMeaning m e.2.2 buf) =
        .usize (curOff m (e.2.2.before m buf k).bit (e.2.2.before m buf k).lens) := by
  have h : ∀ f ∈ e.2.1, LengthIs tokenise e.2.1 f (readLength f) := fun f hf =>
    lengthCheck_is (List.all_eq_true.mp (List.all_eq_true.mp crate_lengths e he) f hf)
  obtain ⟨h1, h2⟩ := crate_names he
  obtain ⟨ex, h3, h4, h5⟩ := C111_position_partial _ _ width k _ h1 h2 fun f hf => h f (List.mem_of_mem_take hf)
  exact ⟨ex, h3, h4, by rw [h5]; exact positionOf_run he hw m buf k hk⟩

/-- **C114**: a field of a struct of the crate has a length in the generated code exactly if it has one in the
model, and the expression for it, read as Rust and evaluated in a packet, is the length in the model; the end
of a payload is its position plus its length. -/
theorem C114_lengths (e : String × List RawField × Decl) (he : e ∈ crateSources) (width : RawField → Nat)
    (hw : WidthsOf e width) (m : Mode) (buf : Buf) (k : Nat) (f : Field) (hf : e.2.2.fields[k]? = some f) :
    (f.len = none ∧ fieldLength tokenise e.2.1 width k = none) ∨
    ∃ len ts us ex ex₂, f.len = some len ∧ fieldLength tokenise e.2.1 width k = some ts ∧
      payloadUpper tokenise e.2.1 width k = some us ∧ Reads 1 ts ex ∧ (∀ ex', Reads 1 ts ex' → ex' = ex) ∧
      Reads 1 us ex₂ ∧ (∀ ex', Reads 1 us ex' → ex' = ex₂) ∧
      ex.value (packetMeaning m e.2.2 buf) = .usize (lenExpr m buf (e.2.2.before m buf k) len) ∧
      ex₂.value (packetMeaning m e.2.2 buf) = .usize (do
        let a ← curOff m (e.2.2.before m buf k).bit (e.2.2.before m buf k).lens
        let b ← lenExpr m buf (e.2.2.before m buf k) len
        uadd m a b) := by
  have hk : k < e.2.2.fields.length := (List.getElem?_eq_some_iff.mp hf).1
  have hlen := (crate_run_at he).1
  have hrf : e.2.1[k]? = some (e.2.1[k]'(by omega)) := List.getElem?_eq_getElem (by omega)
  have h : ∀ f ∈ e.2.1, LengthIs tokenise e.2.1 f (readLength f) := fun f hf =>
    lengthCheck_is (List.all_eq_true.mp (List.all_eq_true.mp crate_lengths e he) f hf)
  obtain ⟨h1, h2⟩ := crate_names he
  have hg := h _ (List.mem_of_getElem? hrf)
  rcases lengthValue_run he m buf hrf hf with ⟨h3, h4⟩ | ⟨len, r, h3, h4, h5⟩
  · left
    rw [h4] at hg
    exact ⟨h3, by simp [fieldLength, hrf, lengthTokens_none hg]⟩
  · right
    rw [h4] at hg
    obtain ⟨ts, ex, us, ex₂, a1, a2, a3, a4, a5, a6, a7⟩ := C111_length_partial _ _ width k _ h1 h2
      (fun f hf => h f (List.mem_of_mem_take hf)) _ hrf r hg
    have a8 := a7 _ (packetMeaning m e.2.2 buf)
    rw [positionOf_run he hw m buf k (by omega), h5] at a8
    exact ⟨len, ts, us, ex, ex₂, h3, a1, a2, a3, a4, a5, a6, a8.1, by rw [a8.2, op_add]⟩

/-- **C114**: the expression generated for `packet_size()` (`gen.rs:468-472`) gives what `Decl.packetSize` says. -/
theorem C114_packet_size (e : String × List RawField × Decl) (he : e ∈ crateSources) (width : RawField → Nat)
    (hw : WidthsOf e width) (m : Mode) (buf : Buf) :
    ∃ ex, Reads 1 (fieldOffset tokenise e.2.1 width e.2.1.length) ex ∧
      (∀ ex', Reads 1 (fieldOffset tokenise e.2.1 width e.2.1.length) ex' → ex' = ex) ∧
      ex.value (packetMeaning m e.2.2 buf) = .usize (e.2.2.packetSize m buf) := by
  have hlen := (crate_run_at he).1
  obtain ⟨ex, h1, h2, h3⟩ := C114_positions e he width hw m buf e.2.1.length (by omega)
  refine ⟨ex, h1, h2, ?_⟩
  rw [h3, hlen, Decl.packetSize, final_eq_before]

/-- The widths of the declaration, looked up by name. -/
def widthByName (d : Decl) (rf : RawField) : Nat :=
  match d.fields.find? fun f => some f.name == rf.name with
  | some f => f.ty.bits
  | none => 0

/-- They are what the theorems ask for, for every struct of the crate. -/
theorem widthByName_ok (e : String × List RawField × Decl) (he : e ∈ crateSources) :
    WidthsOf e (widthByName e.2.2) := by
  have key : (crateSources.all fun e => (e.2.1.zip e.2.2.fields).all fun p =>
      widthByName e.2.2 p.1 == p.2.ty.bits) = true := by decide +kernel
  intro k rf f hrf hf
  have h := List.all_eq_true.mp (List.all_eq_true.mp key e he) (rf, f)
    (List.mem_of_getElem? (i := k) (by rw [List.getElem?_zip_eq_some]; exact ⟨hrf, hf⟩))
  simpa using h

/-- The position of the payload of `Tcp` (field 11) and the length of its options (field 10) in a packet of
24 bytes with 4 bytes of options. -/
def tcpBytes : Buf := List.replicate 12 0 ++ 0x60 :: List.replicate 11 7

example := C114_positions ("tcp::Tcp", Source.srcTcp, tcp) (by simp [crateSources]) (widthByName tcp)
  (widthByName_ok _ (by simp [crateSources])) .debug tcpBytes 11 (by decide)

example := C114_lengths ("tcp::Tcp", Source.srcTcp, tcp) (by simp [crateSources]) (widthByName tcp)
  (widthByName_ok _ (by simp [crateSources])) .debug tcpBytes 10 _ rfl

example := C114_packet_size ("tcp::Tcp", Source.srcTcp, tcp) (by simp [crateSources]) (widthByName tcp)
  (widthByName_ok _ (by simp [crateSources])) .release tcpBytes

example : curOff .debug (tcp.before .debug tcpBytes 11).bit (tcp.before .debug tcpBytes 11).lens = .ok 24 := by
  decide +kernel

end Verif
