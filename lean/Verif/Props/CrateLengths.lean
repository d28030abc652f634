import Verif.Proofs.LengthReader
import Verif.Spec.LengthReading
import Verif.Props.Macro
import Verif.Props.Offsets

/-!
# The length expressions of the crate are in the grammar (C109, C111, C112)

`Reads` and `Meaning` are in `Spec/LengthGrammar`, `LengthIs`, `lengthValue` and `positionOf` in
`Spec/Offsets`; `LengthText.tokenise` turns a text into tokens.
-/

namespace Verif
open Spec

/-- The text of a `length` attribute. -/
def metaText : Meta → Option String
  | .nameValue (some "length") (some s) => some s
  | _ => none

theorem metaText_some {m : Meta} {s : String} (h : metaText m = some s) :
    m = .nameValue (some "length") (some s) := by
  unfold metaText at h
  split at h
  · cases h; rfl
  · cases h

/-- The last `length` among attributes. -/
def lastText : List Meta → Option String
  | [] => none
  | m :: ms =>
    match lastText ms with
    | some s => some s
    | none => metaText m

theorem lastText_none {ms : List Meta} (h : lastText ms = none) :
    ∀ s, .nameValue (some "length") (some s) ∉ ms := by
  induction ms with
  | nil => simp
  | cons m ms ih =>
    cases hn : lastText ms with
    | some s => simp only [lastText, hn] at h; cases h
    | none =>
      simp only [lastText, hn] at h
      intro s hs
      rcases List.mem_cons.mp hs with rfl | hs
      · cases h
      · exact ih hn s hs

theorem lastText_some {ms : List Meta} {s : String} (h : lastText ms = some s) :
    ∃ before after, ms = before ++ .nameValue (some "length") (some s) :: after ∧
      ∀ t, .nameValue (some "length") (some t) ∉ after := by
  induction ms with
  | nil => cases h
  | cons m ms ih =>
    cases hn : lastText ms with
    | some t =>
      simp only [lastText, hn] at h
      cases h
      obtain ⟨b, a, rfl, ha⟩ := ih hn
      exact ⟨m :: b, a, rfl, ha⟩
    | none =>
      simp only [lastText, hn] at h
      exact ⟨[], ms, by rw [metaText_some h]; rfl, lastText_none hn⟩

/-- The length of a field as an expression, found by the reader. -/
def readLength (f : RawField) : Option RExpr :=
  (lastText f.attrs).bind fun s => (LengthText.tokenise s).bind (readAt 60 1)

/-- The check that a field has either no length or one in the grammar, as C109 and C112 require. -/
def lengthCheck (fields : List RawField) (f : RawField) : Bool :=
  match lastText f.attrs with
  | none => true
  | some s =>
    match LengthText.tokenise s with
    | none => false
    | some ts =>
      match readAt 60 1 ts with
      | none => false
      | some e => decide (e.NoClash (fieldNames fields f.name)) && dotsWhole true true ts

theorem lengthCheck_is {fields : List RawField} {f : RawField} (h : lengthCheck fields f = true) :
    LengthIs LengthText.tokenise fields f (readLength f) := by
  unfold lengthCheck at h
  unfold readLength
  cases hl : lastText f.attrs with
  | none => exact lastText_none hl
  | some s =>
    rw [hl] at h
    simp only at h
    cases ht : LengthText.tokenise s with
    | none => rw [ht] at h; cases h
    | some ts =>
      rw [ht] at h
      simp only at h
      cases hr : readAt 60 1 ts with
      | none => rw [hr] at h; cases h
      | some e =>
        rw [hr] at h
        simp only [Bool.and_eq_true, decide_eq_true_eq] at h
        simp only [Option.bind_some, ht, hr]
        exact ⟨s, ts, lastText_some hl, ht, readAt_sound _ hr, h.1, h.2⟩

/-- Over all structs of the crate. -/
theorem crate_lengths : (crateSources.all fun e => e.2.1.all (lengthCheck e.2.1)) = true := by decide +kernel

/-- No field of the crate is called `as`, `if`, `else` or `...`. -/
theorem crate_keywords : (crateSources.all fun e => e.2.1.all fun f =>
    ("r#field_offset" :: keywords).all fun k => f.name != some k) = true := by decide +kernel

theorem crate_names {e : String × List RawField × Decl} (he : e ∈ crateSources) :
    (∀ k ∈ keywords, ∀ f ∈ e.2.1, f.name ≠ some k) ∧ ∀ f ∈ e.2.1, f.name ≠ some dots := by
  have h := List.all_eq_true.mp crate_keywords e he
  have h' : ∀ f ∈ e.2.1, ∀ k ∈ "r#field_offset" :: keywords, f.name ≠ some k := by
    intro f hf k hk
    have := List.all_eq_true.mp (List.all_eq_true.mp h f hf) k hk
    simpa using this
  exact ⟨fun k hk f hf => h' f hf k (List.mem_cons_of_mem _ hk), fun f hf => h' f hf dots List.mem_cons_self⟩

/-- **C109** and **C112** for the crate: every length of every struct of the crate is an expression of the
grammar to which C109 and C112 apply. -/
theorem C109_crate (e : String × List RawField × Decl) (he : e ∈ crateSources) (f : RawField) (hf : f ∈ e.2.1) :
    ∃ len, LengthIs LengthText.tokenise e.2.1 f len :=
  ⟨_, lengthCheck_is (List.all_eq_true.mp (List.all_eq_true.mp crate_lengths e he) f hf)⟩

/-- `ack_range` of `Ack` (`quic.rs:646`): `n_varints(varint(&ack_range_count), ...)`. -/
example : readLength (Source.srcQuicAck[5]?.getD ⟨none, [], []⟩) = some (.call "n_varints"
    (.bin ',' (.call "varint" (.ref (.name "ack_range_count"))) (.name dots))) := by decide +kernel

/-- `stream_data` of `Stream` (`quic.rs:712`): `if length.is_empty() { (...).len() } else { varint(&length) }`. -/
example : readLength (Source.srcQuicStream[4]?.getD ⟨none, [], []⟩) = some (.ite
    (.method (.name "length") "is_empty") (.method (.name dots) "len")
    (.call "varint" (.ref (.name "length")))) := by decide +kernel

/-- `offset` of `Stream` (`quic.rs:707`): `&` binds stronger than `>`. -/
example : readLength (Source.srcQuicStream[2]?.getD ⟨none, [], []⟩) = some (.call "n_varints"
    (.bin ',' (.ite (.bin '>' (.bin '&' (.field (.name "ty") "0") (.int "0x04")) (.int "0")) (.int "1") (.int "0"))
      (.name dots))) := by decide +kernel

/-- **C111** for the crate, without exceptions: in every struct of the crate, every length is an
expression (`len`), and the expression for the position of every field has one reading, whose value is
the number of whole bytes of the fixed-size fields before it plus the lengths of the fields before it. -/
theorem C111_crate (e : String × List RawField × Decl) (he : e ∈ crateSources) :
    ∃ len : RawField → Option RExpr, (∀ f ∈ e.2.1, LengthIs LengthText.tokenise e.2.1 f (len f)) ∧
      ∀ (width : RawField → Nat) (k : Nat), ∃ ex, Reads 1 (fieldOffset LengthText.tokenise e.2.1 width k) ex ∧
        (∀ ex', Reads 1 (fieldOffset LengthText.tokenise e.2.1 width k) ex' → ex' = ex) ∧
        ∀ (α : Type) (I : Meaning α), ex.value I = positionOf I e.2.1 width len k := by
  have h : ∀ f ∈ e.2.1, LengthIs LengthText.tokenise e.2.1 f (readLength f) := fun f hf =>
    lengthCheck_is (List.all_eq_true.mp (List.all_eq_true.mp crate_lengths e he) f hf)
  refine ⟨readLength, h, fun width k => ?_⟩
  obtain ⟨h1, h2⟩ := crate_names he
  exact C111_position_partial _ _ width k _ h1 h2 fun f hf => h f (List.mem_of_mem_take hf)

/-- The position of the payload of `Initial` (`quic.rs:243`). -/
example := C111_crate ("quic::Initial", Source.srcQuicInitial, initial) (by simp [crateSources])

/-- The check that the length of a field is read as the grammar says. -/
def readingCheck (fields : List RawField) (f : RawField) (k : Nat) : Bool :=
  match lengthTokens LengthText.tokenise fields f with
  | none => (LengthText.exprOf fields k).isNone && (lastText f.attrs).isNone
  | some ts =>
    match readAt 60 1 ts with
    | none => false
    | some r => r.meant.isSome && decide (r.meant = LengthText.exprOf fields k)

/-- Over all structs of the crate. -/
theorem crate_readings : (crateSources.all fun e => e.2.1.zipIdx.all fun p => readingCheck e.2.1 p.1 p.2) = true := by
  decide +kernel

/-- **C77**: the expression that gives a length of the crate its value (`C77_lengths`) is what the only reading
of the processed tokens by the grammar of Rust stands for. -/
theorem C77_readings (e : String × List RawField × Decl) (he : e ∈ crateSources) (k : Nat) (x : LengthText.Expr)
    (hx : LengthText.exprOf e.2.1 k = some x) :
    ∃ f ts r, e.2.1[k]? = some f ∧ lengthTokens LengthText.tokenise e.2.1 f = some ts ∧ Reads 1 ts r ∧
      (∀ r', Reads 1 ts r' → r' = r) ∧ r.meant = some x := by
  cases hf : e.2.1[k]? with
  | none => simp [LengthText.exprOf, hf] at hx
  | some f =>
    have hm : (f, k) ∈ e.2.1.zipIdx := by
      rw [List.mem_zipIdx_iff_getElem?]; exact hf
    have h := List.all_eq_true.mp (List.all_eq_true.mp crate_readings e he) _ hm
    unfold readingCheck at h
    cases ht : lengthTokens LengthText.tokenise e.2.1 f with
    | none => rw [ht] at h; simp [hx] at h
    | some ts =>
      rw [ht] at h
      simp only at h
      cases hr : readAt 60 1 ts with
      | none => rw [hr] at h; cases h
      | some r =>
        rw [hr] at h
        simp only [Bool.and_eq_true, decide_eq_true_eq] at h
        have hs := readAt_sound _ hr
        exact ⟨f, ts, r, rfl, ht, hs, fun _ h' => rexpr_unique h' hs, by rw [h.2, hx]⟩

/-- `tcp_options_length(data_offset)` of `Tcp`. -/
example := C77_readings ("tcp::Tcp", Source.srcTcp, tcp) (by simp [crateSources]) 10
  (.call1 "tcp_options_length" (.getter "data_offset")) (by decide +kernel)

/-- Every field of the crate with a length has such an expression. -/
theorem C77_every_length (e : String × List RawField × Decl) (he : e ∈ crateSources) (k : Nat) (f : RawField)
    (hf : e.2.1[k]? = some f) (s : String) (hs : .nameValue (some "length") (some s) ∈ f.attrs) :
    ∃ x, LengthText.exprOf e.2.1 k = some x := by
  have hm : (f, k) ∈ e.2.1.zipIdx := by
    rw [List.mem_zipIdx_iff_getElem?]; exact hf
  have h := List.all_eq_true.mp (List.all_eq_true.mp crate_readings e he) _ hm
  unfold readingCheck at h
  cases ht : lengthTokens LengthText.tokenise e.2.1 f with
  | none =>
    rw [ht] at h
    simp only [Bool.and_eq_true, Option.isNone_iff_eq_none] at h
    exact absurd hs (lastText_none h.2 s)
  | some ts =>
    rw [ht] at h
    simp only at h
    cases hr : readAt 60 1 ts with
    | none => rw [hr] at h; cases h
    | some r =>
      rw [hr] at h
      simp only [Bool.and_eq_true, decide_eq_true_eq] at h
      cases hm : r.meant with
      | none => rw [hm] at h; cases h.1
      | some x => exact ⟨x, by rw [← h.2, hm]⟩

/-- The options of `Tcp`. -/
example := C77_every_length ("tcp::Tcp", Source.srcTcp, tcp) (by simp [crateSources]) 10 _ rfl
  "tcp_options_length(data_offset)" (by simp [Source.length, Source.field])

end Verif
