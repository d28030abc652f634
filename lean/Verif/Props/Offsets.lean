import Verif.Proofs.Offsets
import Verif.Props.LengthGrammar
import Verif.Model.Derive

/-!
# Positions are sums of lengths (C111), and what `...` stands for (C112)

`dotsWhole`, `LengthIs`, `lengthValue`, `positionOf` are in `Spec/Offsets`, `Reads` and `Meaning` in
`Spec/LengthGrammar`.
-/

namespace Verif
open Spec

/-! ## C112 -/

/-- Full statement of **C112**: in a length expression `...` stands for the bytes from the position of the
field on. `co` are the tokens of that position, `c` their reading. -/
def C112_statement : Prop :=
  ∀ (co ts : List TT) (c e : RExpr), Reads 1 co c → Reads 1 ts e →
    ∃ e', Reads 1 (packetLength co ts) e' ∧
      ∀ (α : Type) (I : Meaning α), e'.value I = I.cast (e.value (I.withDots (c.value I))) "usize"

/-- The meaning of an expression that is the expression itself. -/
def selfMeaning : Meaning RExpr := ⟨.name, .int, .call, .call0, .mac, .method, .methodArg, .field, .cast, .bin, .rest, .ref, .ite⟩

/-- The tokens of `....len()`, i.e. of `...` followed by `.len()`. -/
def dotsLen : List TT := [.ident dots] ++ [.punct '.', .ident "len", .group .paren []]

theorem dotsLen_reads : Reads 1 dotsLen (.method (.name dots) "len") :=
  reads_lower (.method (.name dots (by decide))) (by decide)

/-- `0usize` -/
theorem zero_reads : Reads 1 [.literal "0usize" true] (.int "0usize") :=
  reads_lower (.int "0usize") (by decide)

/-- C112 is false: `....len()` becomes `&self.packet[(0usize)..].len()`, which takes the reference of the
length. (`quic.rs:712` writes `(...).len()`.) -/
theorem C112_false : ¬ C112_statement := by
  intro h
  obtain ⟨e', h1, h2⟩ := h _ dotsLen _ _ zero_reads dotsLen_reads
  have hr : Reads 1 (packetLength [.literal "0usize" true] dotsLen)
      (.cast (.ref (.method (.rest (.int "0usize")) "len")) "usize") :=
    reads_lower (.cast (ts := [.group .paren _]) (reads_lower (.paren (.ref (.method (reads_restTokens zero_reads))))
      (by decide))) (by decide)
  cases rexpr_unique h1 hr
  have := h2 RExpr selfMeaning
  simp [RExpr.value, selfMeaning, Meaning.withDots, dots] at this

/-- **C112** where every `...` is the whole length, a whole argument or in parentheses: the expression has
one reading, and its value is that of the length with `...` for the bytes from the position of the field
on. Missing: see `C112_false`. -/
theorem C112_rest_partial (co ts : List TT) (c e : RExpr) (hc : Reads 1 co c) (h : Reads 1 ts e)
    (hd : dotsWhole true true ts = true) :
    ∃ e', Reads 1 (packetLength co ts) e' ∧ (∀ e'', Reads 1 (packetLength co ts) e'' → e'' = e') ∧
      ∀ (α : Type) (I : Meaning α), e'.value I = I.cast (e.value (I.withDots (c.value I))) "usize" := by
  have hr := reads_lower (l := 1) (reads_packetLength hc h hd) (by decide)
  exact ⟨_, hr, fun _ h' => rexpr_unique h' hr, fun _ I => by simp only [RExpr.value, value_fill]⟩

/-- `varint_length(...)`, as in `quic.rs:234`. -/
example := C112_rest_partial [.literal "0usize" true] [.ident "varint_length", .group .paren [.ident dots]]
  _ (.call "varint_length" (.name dots)) zero_reads
  (reads_lower (.call (by decide) (reads_lower (.name dots (by decide)) (by decide))) (by decide))
  (by decide)

/-- `(...).len()`, as in `quic.rs:712`. -/
example : dotsWhole true true ([.group .paren [.ident dots]] ++ [.punct '.', .ident "len", .group .paren []]) =
    true := by decide

/-- `....len()` is not covered. -/
example : dotsWhole true true dotsLen = false := by decide

/-! ## C111 -/

/-- Full statement of **C111**, for length expressions of any structure: the expression for the position of
field `k` has the value that `positionOf` says. (No field is called `as`, `if`, `else` or `...`.) -/
def C111_statement : Prop :=
  ∀ (tok : String → Option (List TT)) (fields : List RawField) (width : RawField → Nat) (k : Nat)
    (len : RawField → Option RExpr), (∀ k ∈ keywords, ∀ f ∈ fields, f.name ≠ some k) →
    (∀ f ∈ fields, f.name ≠ some dots) →
    (∀ f ∈ fields.take k, match len f with
      | some e => ∃ s ts, LastLength f s ∧ tok s = some ts ∧ Reads 1 ts e
      | none => ∀ s, .nameValue (some "length") (some s) ∉ f.attrs) →
    ∃ e, Reads 1 (fieldOffset tok fields width k) e ∧
      ∀ (α : Type) (I : Meaning α), e.value I = positionOf I fields width len k

/-- C111 is false: after a field of length `....len()` the next position is
`0usize + (&self.packet[(0usize)..].len()) as usize`. -/
theorem C111_false : ¬ C111_statement := by
  intro h
  let fs := [Source.field "v" [Source.length "....len()"] "Vec < u8 >"]
  let tok := fun s : String => if s = "....len()" then some dotsLen else none
  obtain ⟨e, h1, h2⟩ := h tok fs (fun _ => 0) 1 (fun _ => some (.method (.name dots) "len"))
    (by decide) (by decide) (by
      intro f hf
      cases List.mem_singleton.mp hf
      exact ⟨"....len()", dotsLen, ⟨[], [], rfl, by simp⟩, rfl, dotsLen_reads⟩)
  have hlen : Reads 7 (packetLength [.literal "0usize" true] dotsLen)
      (.cast (.ref (.method (.rest (.int "0usize")) "len")) "usize") :=
    reads_lower (.cast (ts := [.group .paren _]) (reads_lower (.paren (.ref (.method (reads_restTokens zero_reads))))
      (by decide))) (by decide)
  have hco : fieldOffset tok fs (fun _ => 0) 1 =
      plusTokens [.literal "0usize" true] (packetLength [.literal "0usize" true] dotsLen) := by
    have hl : lengthTokens tok fs (Source.field "v" [Source.length "....len()"] "Vec < u8 >") = some dotsLen := by
      rw [lengthTokens_last ⟨[], [], rfl, by simp⟩]
      have : parseLengthExpr (fieldNames fs (some "v")) dotsLen = .ok dotsLen := by
        simp [fs, fieldNames, Source.field, dotsLen, parseLengthExpr, lengthToken]
      simp only [tok, if_true]
      exact congrArg Except.toOption this
    have h0 : toString (0 / 8) ++ "usize" = "0usize" := by decide
    simp only [fieldOffset, fs, List.take_succ_cons, List.take_nil, List.foldl_cons, List.foldl_nil, offsetStep]
    rw [show [Source.field "v" [Source.length "....len()"] "Vec < u8 >"] = fs from rfl, hl]
    simp only [currentOffset, List.nil_append, List.foldl_cons, List.foldl_nil]
    rw [h0]
  have hr : Reads 1 (fieldOffset tok fs (fun _ => 0) 1)
      (.bin '+' (.int "0usize") (.cast (.ref (.method (.rest (.int "0usize")) "len")) "usize")) := by
    rw [hco]
    exact reads_lower (.bin (l := 6) rfl (reads_lower (.int "0usize") (by decide)) hlen) (by decide)
  cases rexpr_unique h1 hr
  have := h2 RExpr selfMeaning
  have hne : (RExpr.value selfMeaning (.bin '+' (.int "0usize")
      (.cast (.ref (.method (.rest (.int "0usize")) "len")) "usize")) ==
    positionOf selfMeaning fs (fun _ => 0) (fun _ => some (.method (.name dots) "len")) 1) = false := by
    decide
  rw [this] at hne
  simp at hne

/-- **C111** for lengths as in C109 and C112: the expression for the position of field `k` has one reading,
whose value is the number of whole bytes of the fixed-size fields before it plus the lengths of the
fields before it, each evaluated on its own and converted to `usize`. Missing: see `C111_false`. -/
theorem C111_position_partial (tok : String → Option (List TT)) (fields : List RawField)
    (width : RawField → Nat) (k : Nat) (len : RawField → Option RExpr)
    (has : ∀ k ∈ keywords, ∀ f ∈ fields, f.name ≠ some k) (hdots : ∀ f ∈ fields, f.name ≠ some dots)
    (h : ∀ f ∈ fields.take k, LengthIs tok fields f (len f)) :
    ∃ e, Reads 1 (fieldOffset tok fields width k) e ∧
      (∀ e', Reads 1 (fieldOffset tok fields width k) e' → e' = e) ∧
      ∀ (α : Type) (I : Meaning α), e.value I = positionOf I fields width len k := by
  obtain ⟨e, h1, h2⟩ := reads_fieldOffset has hdots width k h
  have h0 := reads_lower (l := 1) h1 (by decide)
  exact ⟨e, h0, fun _ h' => rexpr_unique h' h0, h2⟩

/-- **C111**: likewise the length of field `k` and, for a payload, its end: the position plus the length. -/
theorem C111_length_partial (tok : String → Option (List TT)) (fields : List RawField)
    (width : RawField → Nat) (k : Nat) (len : RawField → Option RExpr)
    (has : ∀ k ∈ keywords, ∀ f ∈ fields, f.name ≠ some k) (hdots : ∀ f ∈ fields, f.name ≠ some dots)
    (h : ∀ f ∈ fields.take k, LengthIs tok fields f (len f)) (g : RawField) (hg : fields[k]? = some g)
    (own : RExpr) (ho : LengthIs tok fields g (some own)) :
    ∃ ts e us e₂, fieldLength tok fields width k = some ts ∧ payloadUpper tok fields width k = some us ∧
      Reads 1 ts e ∧ (∀ e', Reads 1 ts e' → e' = e) ∧ Reads 1 us e₂ ∧ (∀ e', Reads 1 us e' → e' = e₂) ∧
      ∀ (α : Type) (I : Meaning α),
        e.value I = lengthValue I fields g (positionOf I fields width len k) own ∧
        e₂.value I = I.op '+' (positionOf I fields width len k)
          (lengthValue I fields g (positionOf I fields width len k) own) := by
  obtain ⟨c, h1, h2⟩ := reads_fieldOffset has hdots width k h
  obtain ⟨out, h3, h4, h5⟩ := lengthTokens_is (fun k hk => fieldNames_not (has k hk) _) (fieldNames_not hdots _) ho
  have hr := reads_packetLength (reads_lower h1 (by decide)) h4 h5
  have hr₂ : Reads 1 (plusTokens _ _) _ := reads_lower (.bin (op := '+') rfl h1 hr) (by decide)
  have hr₀ := reads_lower (l := 1) hr (by decide)
  refine ⟨_, _, _, _, by simp [fieldLength, hg, h3], by simp [payloadUpper, fieldLength, hg, h3],
    hr₀, fun _ h' => rexpr_unique h' hr₀, hr₂, fun _ h' => rexpr_unique h' hr₂,
    fun _ I => ?_⟩
  simp only [RExpr.value, value_fill, value_subst, h2, lengthValue, and_self]

/-- The fields `a: u8, b: u8, #[length = "a | b"] v: Vec<u8>, #[length = "f(...)"] #[payload] p: Vec<u8>`. -/
def orFields : List RawField :=
  [Source.field "a" [] "u8", Source.field "b" [] "u8", Source.field "v" [Source.length "a | b"] "Vec < u8 >",
   Source.field "p" [Source.length "f(...)"] "Vec < u8 >"]

/-- Their bits. -/
def orWidth (f : RawField) : Nat := if f.name = some "a" ∨ f.name = some "b" then 8 else 0

/-- The tokens of their lengths. -/
def orTok (s : String) : Option (List TT) :=
  if s = "a | b" then some ([.ident "a"] ++ .punct '|' :: [.ident "b"])
  else if s = "f(...)" then some [.ident "f", .group .paren [.ident dots]] else none

/-- The expressions of their lengths. -/
def orLen (f : RawField) : Option RExpr :=
  if f.name = some "v" then some (.bin '|' (.name "a") (.name "b"))
  else if f.name = some "p" then some (.call "f" (.name dots)) else none

theorem orFields_lengths : ∀ f ∈ orFields, LengthIs orTok orFields f (orLen f) := by
  intro f hf
  simp only [orFields, List.mem_cons, List.not_mem_nil, or_false] at hf
  rcases hf with rfl | rfl | rfl | rfl
  · intro s; simp [Source.field]
  · intro s; simp [Source.field]
  · exact ⟨"a | b", _, ⟨[], [], rfl, by simp⟩, rfl,
      reads_lower (.bin (l := 3) rfl (reads_lower (.name "a" (by decide)) (by decide))
        (reads_lower (.name "b" (by decide)) (by decide))) (by decide),
      ⟨trivial, trivial⟩, by decide⟩
  · exact ⟨"f(...)", _, ⟨[], [], rfl, by simp⟩, by rw [orTok, if_neg (by decide), if_pos rfl],
      reads_lower (.call (by decide) (reads_lower (.name dots (by decide)) (by decide))) (by decide),
      ⟨by decide, trivial⟩, by decide⟩

/-- The payload starts at `2 + (a | b)`. -/
example := C111_position_partial orTok orFields orWidth 3 orLen (by decide) (by decide)
  fun f hf => orFields_lengths f (List.mem_of_mem_take hf)

/-- It ends at that plus `f(&self.packet[(2 + (a | b))..])`. -/
example := C111_length_partial orTok orFields orWidth 3 orLen (by decide) (by decide)
  (fun f hf => orFields_lengths f (List.mem_of_mem_take hf)) _ rfl (.call "f" (.name dots))
  (orFields_lengths _ (by simp [orFields]))

/-- A packet of 16 bytes with `get_a() = 5` and `get_b() = 2`; `f` is the number of bytes. -/
def orMeaning : Meaning Nat where
  name _ := 0
  int t := if t = "2usize" then 2 else 0
  call _ x := x
  call0 _ := 0
  mac _ := 0
  methodArg x _ _ := x
  field x _ := x
  ite c a b := if c = 0 then b else a
  method _ f := if f = "get_a" then 5 else if f = "get_b" then 2 else 0
  cast x _ := x
  op c a b := if c = '+' then a + b else if c = '|' then a ||| b else 0
  rest x := 16 - x
  ref x := x

/-- Here the position is 2 + (5 | 2) = 9 (`2 + a | b` would be 7), and the payload has 16 - 9 bytes. -/
example : positionOf orMeaning orFields orWidth orLen 3 = 9 ∧
    (orFields[3]?.map fun g => lengthValue orMeaning orFields g 9 (.call "f" (.name dots))) = some 7 := by
  decide

/-- The position, if `+` is the addition of the build mode. -/
theorem position_curOff (m : Mode) (I : Meaning (Res Nat)) (bits : Nat)
    (hint : I.int (toString (bits / 8) ++ "usize") = .ok (bits / 8))
    (hadd : ∀ a b, I.op '+' a b = do let x ← a; let y ← b; uadd m x y) (lengths : List (Res Nat)) :
    position I bits lengths = curOff m bits lengths := by
  unfold position curOff
  rw [hint]
  generalize bits / 8 = n
  have herr : ∀ (l : List (Res Nat)) e, l.foldl (I.op '+') (.error e) = .error e := by
    intro l e
    induction l with
    | nil => rfl
    | cons x l ih => rw [List.foldl_cons, hadd]; exact ih
  induction lengths generalizing n with
  | nil => rfl
  | cons x l ih =>
    rw [List.foldl_cons, hadd, List.foldlM_cons]
    cases x with
    | error e => exact herr l e
    | ok y =>
      show l.foldl (I.op '+') (uadd m n y) = (uadd m n y) >>= fun s => _
      cases hs : uadd m n y with
      | error e => exact herr l e
      | ok s => exact ih s

/-- **C111** in terms of running code: if the literal is the number and `+` is the addition of the build
mode, the expression for the position of field `k` gives what the positions of `Model/Derive` (`curOff`)
give for the bits and the lengths of the fields before it. -/
theorem C111_runs_partial (tok : String → Option (List TT)) (fields : List RawField)
    (width : RawField → Nat) (k : Nat) (len : RawField → Option RExpr)
    (has : ∀ k ∈ keywords, ∀ f ∈ fields, f.name ≠ some k) (hdots : ∀ f ∈ fields, f.name ≠ some dots)
    (h : ∀ f ∈ fields.take k, LengthIs tok fields f (len f)) (m : Mode) (I : Meaning (Res Nat))
    (hint : I.int (toString (((fields.take k).map width).sum / 8) ++ "usize") =
      .ok (((fields.take k).map width).sum / 8))
    (hadd : ∀ a b, I.op '+' a b = do let x ← a; let y ← b; uadd m x y) :
    ∃ e, Reads 1 (fieldOffset tok fields width k) e ∧
      e.value I = curOff m ((fields.take k).map width).sum
        (lengthsFrom I fields width len 0 [] (fields.take k)) := by
  obtain ⟨e, h1, -, h2⟩ := C111_position_partial tok fields width k len has hdots h
  exact ⟨e, h1, by rw [h2]; exact position_curOff m I _ hint hadd _⟩

/-- The packet of `orMeaning` in a debug build. -/
def orRuns : Meaning (Res Nat) where
  name _ := panic
  int t := if t = "2usize" then .ok 2 else .ok 0
  call _ x := x
  call0 _ := panic
  mac _ := panic
  methodArg x _ _ := x
  field x _ := x
  ite c a b := do if (← c) = 0 then b else a
  method _ f := if f = "get_a" then .ok 5 else if f = "get_b" then .ok 2 else panic
  cast x _ := x
  op c a b := do
    let x ← a
    let y ← b
    if c = '+' then uadd .debug x y else if c = '|' then .ok (x ||| y) else panic
  rest x := x.map (16 - ·)
  ref x := x

example := C111_runs_partial orTok orFields orWidth 3 orLen (by decide) (by decide)
  (fun f hf => orFields_lengths f (List.mem_of_mem_take hf)) .debug orRuns (by decide) (fun _ _ => rfl)

example : curOff .debug ((orFields.take 3).map orWidth).sum
    (lengthsFrom orRuns orFields orWidth orLen 0 [] (orFields.take 3)) = .ok 9 := by decide

end Verif
