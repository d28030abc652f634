import Verif.Proofs.CodeText

/-! # Parsing the generated accessor texts -/

namespace Verif.CodeText

open Verif.LengthText (Tok pushWord isWord digit)

/-! ## The programs the texts stand for -/

/-- `e`, `e << n` or `e >> n`. -/
def shiftExpr (e : Expr) (l r : Nat) : Expr :=
  if r = l then e else if r < l then .bin .shl e (.int (l - r)) else .bin .shr e (.int (r - l))

/-- `co` or `co + idx`. -/
def indexExpr : Option Nat → Expr
  | none => .offset
  | some idx => .bin .add .offset (.int idx)

/-- One reading operation. -/
def getExpr (ty : List Char) (op : GetOperation) (i : Option Nat) : Expr :=
  shiftExpr (if op.mask ≠ 0xFF then .bin .and (.cast (.byte (indexExpr i)) ty) (.int op.mask)
    else .cast (.byte (indexExpr i)) ty) op.shiftl op.shiftr

/-- The value in a setter statement. -/
def valueExpr (op : SetOperation) : Expr :=
  shiftExpr (if op.valueMask ≠ 0xFF then .bin .and .value (.int op.valueMask) else .value)
    op.shiftl op.shiftr

/-- The right-hand side of a setter statement. -/
def setExpr (op : SetOperation) (idx : Nat) : Expr :=
  if op.saveMask ≠ 0 then .cast (.bin .or (.bin .and (.byte (indexExpr (some idx))) (.int op.saveMask))
    (.cast (valueExpr op) ['u', '8'])) ['u', '8']
  else .cast (valueExpr op) ['u', '8']

/-- The statements of a setter. -/
def setStmts : Nat → List SetOperation → List Stmt
  | _, [] => []
  | idx, op :: ops => .assign (indexExpr (some idx)) (setExpr op idx) :: setStmts (idx + 1) ops

/-- The statements of a getter. -/
def getStmts (ty : List Char) : Nat → List GetOperation → List Stmt
  | _, [] => []
  | idx, op :: ops => .bind idx (.cast (getExpr ty op (some idx)) ty) :: getStmts ty (idx + 1) ops

/-- `b0 | b1 | ... | bn`. -/
def orChain : Nat → Expr
  | 0 => .local 0
  | n + 1 => .bin .or (orChain n) (.local (n + 1))

/-- The body of a getter. -/
def getBlock (ty : List Char) (ops : List GetOperation) : Block :=
  match ops with
  | [op] => ⟨[], some (getExpr ty op none)⟩
  | ops => ⟨getStmts ty 0 ops, some (orChain (ops.length - 1))⟩

/-! ## Operands -/

/-- `operand`, then what follows it. -/
def full (fuel : Nat) (ts : List Tok) : Option (Expr × List Tok) :=
  match operand fuel ts with
  | none => none
  | some (a, rest) => operators fuel 0 a rest

theorem expression_eq (ts : List Tok) : expression ts = full (ts.length + 16) ts := rfl

/-- What ends an expression. -/
def Stops (ts : List Tok) : Prop := (∀ f min a, operators (f + 1) min a ts = some (a, ts))

theorem stops_closing (d : Delim) (ts : List Tok) : Stops (.closing d :: ts) := fun _ _ _ => rfl
theorem stops_semi (ts : List Tok) : Stops (.punct ';' :: ts) := fun _ _ _ => rfl
theorem stops_eq (ts : List Tok) : Stops (.punct '=' :: ts) := fun _ _ _ => rfl

theorem packetPath_word {c : Char} {cs : List Char} (h : c ≠ 'p' ∧ c ≠ 's' ∧ c ≠ '_') (ts : List Tok) :
    packetPath (.word (c :: cs) :: ts) = none := by
  unfold packetPath
  split
  · rename_i h'; cases h'; exact absurd rfl h.1
  · rename_i h'; cases h'; exact absurd rfl h.2.1
  · rename_i h'; cases h'; exact absurd rfl h.2.2
  · rfl

theorem operand_word {c : Char} {cs : List Char} {e : Expr} (h : c ≠ 'p' ∧ c ≠ 's' ∧ c ≠ '_')
    (he : wordExpr (c :: cs) = some e) (f : Nat) (ts : List Tok) :
    operand (f + 1) (.word (c :: cs) :: ts) = some (e, ts) := by
  rw [operand, packetPath_word h, he]
  rfl

theorem operand_co (f : Nat) (ts : List Tok) :
    operand (f + 1) (.word ['c', 'o'] :: ts) = some (.offset, ts) := rfl

theorem operand_val (f : Nat) (ts : List Tok) :
    operand (f + 1) (.word ['v', 'a', 'l'] :: ts) = some (.value, ts) := rfl

theorem operand_local {n : Nat} (h : n < 256) (f : Nat) (ts : List Tok) :
    operand (f + 1) (.word ('b' :: decimal n) :: ts) = some (.local n, ts) :=
  operand_word (by decide) (by
    show (decimalOf (decimal n)).map Expr.local = _
    rw [(decimal_read n h).1]; rfl) f ts

theorem operand_hex {v : Nat} (h0 : 0 < v) (h : v < 2 ^ 64) (f : Nat) (ts : List Tok) :
    operand (f + 1) (.word ('0' :: 'x' :: radix16 v) :: ts) = some (.int v, ts) :=
  operand_word (by decide) (by
    show (literalOf ('0' :: 'x' :: radix16 v)).map Expr.int = _
    rw [literal_radix16 v h0 h]; rfl) f ts

theorem wordExpr_decimal : ∀ n < 256, wordExpr (decimal n) = some (.int n) ∧
    ∀ c, (decimal n).head? = some c → c ≠ 'p' ∧ c ≠ 's' ∧ c ≠ '_' := by
  have key : ∀ n < 256, wordExpr (decimal n) = some (.int n) := by decide +kernel
  intro n hn
  refine ⟨key n hn, fun c hc => ?_⟩
  have hd : c.isDigit = true := List.all_eq_true.mp (decimal_read n hn).2.1 c (List.mem_of_mem_head? hc)
  refine ⟨?_, ?_, ?_⟩ <;> (rintro rfl; revert hd; decide)

theorem operand_decimal {n : Nat} (h : n < 256) (f : Nat) (ts : List Tok) :
    operand (f + 1) (.word (decimal n) :: ts) = some (.int n, ts) := by
  have hw := wordExpr_decimal n h
  cases hd : decimal n with
  | nil => exact absurd hd (decimal_read n h).2.2
  | cons c cs =>
    rw [hd] at hw
    exact operand_word (hw.2 c rfl) hw.1 f ts

/-! ## Operators -/

theorem operators_as (f min : Nat) (a : Expr) (ty : List Char) (ts : List Tok) :
    operators (f + 1) min a (.word ['a', 's'] :: .word ty :: ts) = operators f min (.cast a ty) ts := by
  rw [operators]

/-- One operator whose right operand is parsed, and nothing of equal or higher strength follows. -/
theorem operators_bin (f min : Nat) (op : BinOp) (a b0 b : Expr) (opToks ts ts' ts'' : List Tok)
    (h1 : operator (opToks ++ ts) = some (op, ts)) (hne : ∀ x y, opToks ++ ts ≠ .word x :: y)
    (hp : min ≤ op.prec) (h2 : operand f ts = some (b0, ts'))
    (h3 : operators f (op.prec + 1) b0 ts' = some (b, ts'')) (a' : Expr) (r : List Tok)
    (h4 : operators f min (.bin op a b) ts'' = some (a', r)) :
    operators (f + 1) min a (opToks ++ ts) = some (a', r) := by
  rw [operators.eq_def]
  dsimp only
  split
  · rename_i h; exact absurd h (hne _ _)
  · rw [h1]
    dsimp only
    rw [if_neg (by omega), h2]
    dsimp only
    rw [h3]
    exact h4

theorem shift_full {l r : Nat} (h : SmallShift l r) (e : Expr) (ts : List Tok) (hs : Stops ts) (f : Nat) :
    operators (f + 3) 0 e (shiftToks l r ++ ts) = some (shiftExpr e l r, ts) := by
  unfold shiftToks shiftExpr
  split
  · exact hs _ _ _
  · split
    · exact operators_bin (f + 2) 0 .shl e _ (.int (l - r)) [.punct '<', .punct '<']
        (.word (decimal (l - r)) :: ts) ts ts rfl (fun _ _ h => by cases h) (by decide)
        (operand_decimal h.1 _ _) (hs _ _ _) _ _ (hs _ _ _)
    · exact operators_bin (f + 2) 0 .shr e _ (.int (r - l)) [.punct '>', .punct '>']
        (.word (decimal (r - l)) :: ts) ts ts rfl (fun _ _ h => by cases h) (by decide)
        (operand_decimal h.2 _ _) (hs _ _ _) _ _ (hs _ _ _)

/-! ## The pieces -/

theorem operand_index {P : List Tok} {name : List Char} (hn : NameOk name P) (i : Option Nat)
    (hi : ∀ k ∈ i, k < 256) (f : Nat) (ts : List Tok) :
    operand (f + 4) (P ++ (indexToks i ++ ts)) = some (.byte (indexExpr i), ts) := by
  rw [operand.eq_def]
  dsimp only
  rw [hn.path]
  cases i with
  | none => rfl
  | some k =>
    have hb : operators (f + 3) 0 .offset (.punct '+' :: .word (decimal k) :: .closing .bracket :: ts) =
        some (.bin .add .offset (.int k), .closing .bracket :: ts) :=
      operators_bin (f + 2) 0 .add .offset _ (.int k) [.punct '+']
        (.word (decimal k) :: .closing .bracket :: ts) (.closing .bracket :: ts) (.closing .bracket :: ts)
        rfl (fun _ _ h => by cases h) (by decide) (operand_decimal (hi k rfl) _ _)
        (stops_closing _ _ _ _ _) _ _ (stops_closing _ _ _ _ _)
    simp only [indexToks, List.cons_append, List.nil_append, operand_co, hb]
    rfl

theorem paren_full (f : Nat) (ts : List Tok) (e : Expr) (rest : List Tok)
    (h : full f ts = some (e, .closing .paren :: rest)) :
    operand (f + 1) (.opening .paren :: ts) = some (e, rest) := by
  unfold full at h
  rw [operand.eq_def]
  simp only [packetPath]
  cases ho : operand f ts with
  | none => rw [ho] at h; cases h
  | some x =>
    rw [ho] at h
    dsimp only at h ⊢
    rw [h]

theorem operand_cast {P : List Tok} {name : List Char} (hn : NameOk name P) (ty : List Char)
    (i : Option Nat) (hi : ∀ k ∈ i, k < 256) (f : Nat) (ts : List Tok) :
    operand (f + 5) (castToks P ty i ++ ts) = some (.cast (.byte (indexExpr i)) ty, ts) := by
  have : castToks P ty i ++ ts = .opening .paren :: (P ++ (indexToks i ++
      (.word ['a', 's'] :: .word ty :: .closing .paren :: ts))) := by simp [castToks]
  rw [this]
  apply paren_full
  unfold full
  rw [operand_index hn i hi]
  dsimp only
  rw [operators_as]
  exact stops_closing _ _ _ _ _

theorem operand_get {P : List Tok} {name : List Char} (hn : NameOk name P) (ty : List Char)
    (i : Option Nat) (hi : ∀ k ∈ i, k < 256) (op : GetOperation) (h : SmallShift op.shiftl op.shiftr)
    (hm : 0 < op.mask ∧ op.mask < 2 ^ 64) (f : Nat) (ts : List Tok) (hs : Stops ts) :
    full (f + 6) (getToks P ty op i ++ ts) = some (getExpr ty op i, ts) := by
  unfold full getToks getExpr
  by_cases hmask : op.mask ≠ 0xFF
  · rw [if_pos hmask, if_pos hmask]
    have : Tok.opening Delim.paren :: (castToks P ty i ++ [.punct '&',
        .word ('0' :: 'x' :: radix16 op.mask), .closing .paren]) ++ shiftToks op.shiftl op.shiftr ++ ts =
        .opening .paren :: (castToks P ty i ++ (.punct '&' :: .word ('0' :: 'x' :: radix16 op.mask) ::
          .closing .paren :: (shiftToks op.shiftl op.shiftr ++ ts))) := by simp
    rw [this, paren_full (f + 5) _ (.bin .and (.cast (.byte (indexExpr i)) ty) (.int op.mask))
      (shiftToks op.shiftl op.shiftr ++ ts)]
    · dsimp only
      exact shift_full h _ ts hs (f + 3)
    · unfold full
      rw [operand_cast hn ty i hi]
      dsimp only
      exact operators_bin (f + 4) 0 .and _ _ (.int op.mask) [.punct '&']
        (.word ('0' :: 'x' :: radix16 op.mask) :: .closing .paren ::
          (shiftToks op.shiftl op.shiftr ++ ts)) _ _ rfl (fun _ _ h => by cases h) (by decide)
        (operand_hex hm.1 hm.2 _ _) (stops_closing _ _ _ _ _) _ _ (stops_closing _ _ _ _ _)
  · rw [if_neg hmask, if_neg hmask, List.append_assoc, operand_cast hn ty i hi (f + 1)]
    dsimp only
    exact shift_full h _ ts hs (f + 3)

theorem full_value (op : SetOperation) (h : SmallShift op.shiftl op.shiftr)
    (hm : 0 < op.valueMask ∧ op.valueMask < 2 ^ 64) (f : Nat) (ts : List Tok) (hs : Stops ts) :
    full (f + 6) (valueToks op ++ ts) = some (valueExpr op, ts) := by
  unfold full valueToks valueExpr
  by_cases hmask : op.valueMask ≠ 0xFF
  · rw [if_pos hmask, if_pos hmask]
    have : [Tok.opening Delim.paren, .word ['v', 'a', 'l'], .punct '&',
        .word ('0' :: 'x' :: radix16 op.valueMask), .closing .paren] ++ shiftToks op.shiftl op.shiftr ++ ts =
        .opening .paren :: (.word ['v', 'a', 'l'] :: .punct '&' ::
          .word ('0' :: 'x' :: radix16 op.valueMask) ::
          .closing .paren :: (shiftToks op.shiftl op.shiftr ++ ts)) := by simp
    rw [this, paren_full (f + 5) _ (.bin .and .value (.int op.valueMask))
      (shiftToks op.shiftl op.shiftr ++ ts)]
    · dsimp only
      exact shift_full h _ ts hs (f + 3)
    · unfold full
      rw [operand_val]
      dsimp only
      exact operators_bin (f + 4) 0 .and _ _ (.int op.valueMask) [.punct '&']
        (.word ('0' :: 'x' :: radix16 op.valueMask) :: .closing .paren ::
          (shiftToks op.shiftl op.shiftr ++ ts)) _ _ rfl (fun _ _ h => by cases h) (by decide)
        (operand_hex hm.1 hm.2 _ _) (stops_closing _ _ _ _ _) _ _ (stops_closing _ _ _ _ _)
  · rw [if_neg hmask, if_neg hmask]
    show (match operand (f + 6) (.word ['v', 'a', 'l'] :: (shiftToks op.shiftl op.shiftr ++ ts)) with
      | none => none | some (a, rest) => operators (f + 6) 0 a rest) = _
    rw [operand_val]
    exact shift_full h _ ts hs (f + 3)

/-- The right-hand side of a setter statement. -/
theorem full_rhs {P : List Tok} {name : List Char} (hn : NameOk name P) (idx : Nat) (hi : idx < 256)
    (op : SetOperation) (h : SmallShift op.shiftl op.shiftr)
    (hm : 0 < op.valueMask ∧ op.valueMask < 2 ^ 64) (hsv : op.saveMask < 2 ^ 64) (f : Nat) (ts : List Tok) :
    ∃ rhs, setToks P op idx ++ .punct ';' :: ts = P ++ (indexToks (some idx) ++ .punct '=' :: rhs) ∧
      full (f + 10) rhs = some (setExpr op idx, .punct ';' :: ts) := by
  have hi' : ∀ k ∈ some idx, k < 256 := fun k hk => by cases hk; exact hi
  unfold setToks setExpr
  by_cases hsave : op.saveMask ≠ 0
  · rw [if_pos hsave, if_pos hsave]
    refine ⟨.opening .paren :: (.opening .paren :: (P ++ (indexToks (some idx) ++ (.punct '&' ::
        .word ('0' :: 'x' :: radix16 op.saveMask) :: .closing .paren :: .punct '|' :: .opening .paren ::
        (valueToks op ++ (.closing .paren :: .word ['a', 's'] :: .word ['u', '8'] :: .closing .paren ::
          .word ['a', 's'] :: .word ['u', '8'] :: .punct ';' :: ts)))))), by simp, ?_⟩
    unfold full
    rw [paren_full (f + 9) _ (.bin .or (.bin .and (.byte (indexExpr (some idx))) (.int op.saveMask))
      (.cast (valueExpr op) ['u', '8'])) (.word ['a', 's'] :: .word ['u', '8'] :: .punct ';' :: ts)]
    · dsimp only
      rw [operators_as]
      exact stops_semi _ _ _ _
    · unfold full
      rw [paren_full (f + 8) _ (.bin .and (.byte (indexExpr (some idx))) (.int op.saveMask))
        (.punct '|' :: .opening .paren ::
        (valueToks op ++ (.closing .paren :: .word ['a', 's'] :: .word ['u', '8'] :: .closing .paren ::
          .word ['a', 's'] :: .word ['u', '8'] :: .punct ';' :: ts)))]
      · dsimp only
        exact operators_bin (f + 8) 0 .or _ (valueExpr op) (.cast (valueExpr op) ['u', '8']) [.punct '|'] _
          (.word ['a', 's'] :: .word ['u', '8'] :: .closing .paren ::
          .word ['a', 's'] :: .word ['u', '8'] :: .punct ';' :: ts) (.closing .paren ::
          .word ['a', 's'] :: .word ['u', '8'] :: .punct ';' :: ts) rfl (fun _ _ h => by cases h) (by decide)
          (paren_full (f + 7) _ _ _ (full_value op h hm (f + 1) _ (stops_closing _ _)))
          ((operators_as _ _ _ _ _).trans (stops_closing _ _ _ _ _)) _ _ (stops_closing _ _ _ _ _)
      · unfold full
        rw [operand_index hn _ hi']
        dsimp only
        exact operators_bin (f + 7) 0 .and _ _ (.int op.saveMask) [.punct '&'] _ _ _ rfl
          (fun _ _ h => by cases h) (by decide)
          (operand_hex (by omega) hsv _ _) (stops_closing _ _ _ _ _) _ _ (stops_closing _ _ _ _ _)
  · rw [if_neg hsave, if_neg hsave]
    refine ⟨.opening .paren :: (valueToks op ++ (.closing .paren :: .word ['a', 's'] :: .word ['u', '8'] ::
      .punct ';' :: ts)), by simp, ?_⟩
    unfold full
    rw [paren_full (f + 9) _ _ _ (full_value op h hm (f + 3) _ (stops_closing _ _))]
    dsimp only
    rw [operators_as]
    exact stops_semi _ _ _ _

/-! ## Setters -/

/-- What is needed of the operations of a setter. -/
def SetOk (op : SetOperation) : Prop :=
  SmallShift op.shiftl op.shiftr ∧ (0 < op.valueMask ∧ op.valueMask < 2 ^ 64) ∧ op.saveMask < 2 ^ 64

theorem blockFrom_assign {P : List Tok} {name : List Char} (hn : NameOk name P) (f : Nat) (i e : Expr)
    (ts rhs rest : List Tok) (h1 : expression (P ++ ts) = some (.byte i, .punct '=' :: rhs))
    (h2 : expression rhs = some (e, .punct ';' :: rest)) :
    blockFrom (f + 1) (P ++ ts) =
      (blockFrom f rest).map fun b => { b with stmts := .assign i e :: b.stmts } := by
  obtain ⟨w, P', rfl, hw⟩ := hn.first
  rw [blockFrom.eq_def]
  dsimp only
  split
  · rename_i h; cases h
  · rename_i h
    exact absurd (Tok.word.inj (List.cons.inj h).1) hw
  · simp only [h1, h2]

theorem setLines_block {P : List Tok} {name : List Char} (hn : NameOk name P) :
    ∀ (ops : List SetOperation) (idx : Nat), (∀ op ∈ ops, SetOk op) → idx + ops.length ≤ 256 →
      ops.length + 1 ≤ (scan (setLines name idx ops ++ ['}'])).length ∧
      ∀ f, blockFrom (f + ops.length + 1) (scan (setLines name idx ops ++ ['}'])) =
        some ⟨setStmts idx ops, none⟩
  | [], idx, _, _ => by
    have : scan (setLines name idx [] ++ ['}']) = [.closing .brace] := rfl
    rw [this]
    exact ⟨Nat.le_refl _, fun f => by rw [blockFrom.eq_def]; rfl⟩
  | op :: ops, idx, hop, hidx => by
    obtain ⟨hs, hm, hsv⟩ := hop op (List.mem_cons_self ..)
    simp only [List.length_cons] at hidx
    obtain ⟨ih1, ih2⟩ := setLines_block hn ops (idx + 1)
      (fun o ho => hop o (List.mem_cons_of_mem _ ho)) (by omega)
    have hi : idx < 256 := by omega
    have ht : setLines name idx (op :: ops) ++ ['}'] =
        strReplace "{val}".toList "val".toList (strReplace "{packet}".toList
          (name ++ "[co + ".toList ++ decimal idx ++ "]".toList) (setText op)) ++
          (';' :: '\n' :: (setLines name (idx + 1) ops ++ ['}'])) := by
      rw [setLines]; simp
    have hscan : scan (setLines name idx (op :: ops) ++ ['}']) = setToks P op idx ++ .punct ';' ::
        scan (setLines name (idx + 1) ops ++ ['}']) := by
      rw [ht, scan_set hn idx hi op hs _ (ends_cons (by decide)), scan_semi, scan_newline]
    rw [hscan]
    constructor
    · simp only [List.length_append, List.length_cons]; omega
    · intro f
      obtain ⟨rhs, hr1, hr2⟩ := full_rhs hn idx hi op hs hm hsv (((scan (setLines name (idx + 1) ops ++
        ['}'])).length)) (scan (setLines name (idx + 1) ops ++ ['}']))
      obtain ⟨rhs', hr1', hr2'⟩ := full_rhs hn idx hi op hs hm hsv (rhs.length + 6)
        (scan (setLines name (idx + 1) ops ++ ['}']))
      have : rhs = rhs' := by
        rw [hr1] at hr1'
        have := List.append_cancel_left (List.append_cancel_left hr1')
        exact (List.cons.inj this).2
      subst this
      rw [hr1, blockFrom_assign hn _ (indexExpr (some idx)) (setExpr op idx) _ rhs
        (scan (setLines name (idx + 1) ops ++ ['}']))]
      · have := ih2 f
        rw [show f + (op :: ops).length = f + ops.length + 1 from by simp; omega, this]
        rfl
      · rw [expression_eq]
        unfold full
        rw [operand_index hn _ (fun k hk => by cases hk; exact hi)]
        exact stops_eq _ _ _ _
      · rw [expression_eq]; exact hr2'

/-- The text of a setter, read back. -/
theorem parse_setter {P : List Tok} {name : List Char} (hn : NameOk name P) (ops : List SetOperation)
    (hop : ∀ op ∈ ops, SetOk op) (hl : ops.length ≤ 256) :
    parseBlock (genSetOps name ops) = some ⟨setStmts 0 ops, none⟩ := by
  obtain ⟨h1, h2⟩ := setLines_block hn ops 0 hop (by omega)
  unfold parseBlock genSetOps
  have : "{".toList ++ setLines name 0 ops ++ "}".toList = '{' :: (setLines name 0 ops ++ ['}']) := by simp
  rw [this, scan_obrace]
  dsimp only
  have := h2 ((scan (setLines name 0 ops ++ ['}'])).length - (ops.length + 1))
  rwa [show (scan (setLines name 0 ops ++ ['}'])).length - (ops.length + 1) + ops.length + 1 =
    (scan (setLines name 0 ops ++ ['}'])).length from by omega] at this

/-! ## Getters -/

/-- What is needed of the operations of a getter. -/
def GetOk (op : GetOperation) : Prop :=
  SmallShift op.shiftl op.shiftr ∧ (0 < op.mask ∧ op.mask < 2 ^ 64)

/-- ` | b<k+1> | b<k+2> ...`, `n` of them. -/
def chainText : Nat → Nat → List Char
  | _, 0 => []
  | k, n + 1 => " | b".toList ++ decimal (k + 1) ++ chainText (k + 1) n

theorem flatMap_chain : ∀ n s, (List.range' s (n + 1)).flatMap
      (fun i => "b".toList ++ decimal i ++ " | ".toList) =
    "b".toList ++ decimal s ++ chainText s n ++ " | ".toList
  | 0, s => by simp [chainText]
  | n + 1, s => by
    have ih := flatMap_chain n (s + 1)
    rw [List.range'_succ, List.flatMap_cons, ih, chainText]
    simp

theorem buildReturn_eq (n : Nat) : buildReturn (n + 1) = 'b' :: decimal 0 ++ chainText 0 n := by
  unfold buildReturn
  dsimp only
  rw [List.range_eq_range', flatMap_chain]
  have : ("b".toList ++ decimal 0 ++ chainText 0 n ++ " | ".toList).length - 3 =
      ("b".toList ++ decimal 0 ++ chainText 0 n).length := by
    simp only [List.length_append]
    show _ + 3 - 3 = _
    omega
  rw [this, List.take_left]
  rfl

/-- The tokens of `chainText`. -/
def chainToks : Nat → Nat → List Tok
  | _, 0 => []
  | k, n + 1 => .punct '|' :: .word ('b' :: decimal (k + 1)) :: chainToks (k + 1) n

theorem ends_chain {b : List Char} (hb : Ends b) : ∀ n k, Ends (chainText k n ++ b)
  | 0, _ => hb
  | _ + 1, _ => ends_cons (c := ' ') (by decide)

theorem scan_chain {b : List Char} (hb : Ends b) : ∀ n k, k + n < 256 →
    scan (chainText k n ++ b) = chainToks k n ++ scan b
  | 0, _, _ => rfl
  | n + 1, k, h => by
    have : chainText k (n + 1) ++ b = ' ' :: '|' :: ' ' :: (('b' :: decimal (k + 1)) ++
        (chainText (k + 1) n ++ b)) := by simp [chainText]
    rw [this, scan_space, scan_bar, scan_space, scan_word _ _ (wd_local (by omega)) (ends_chain hb n _),
      scan_chain hb n (k + 1) (by omega)]
    rfl

theorem stops_bar (f : Nat) (a : Expr) (ts : List Tok) :
    operators (f + 1) 6 a (.punct '|' :: ts) = some (a, .punct '|' :: ts) := rfl

theorem operators_chain {ts : List Tok} (hs : Stops ts) : ∀ n k f, k + n < 256 →
    operators (f + n + 2) 0 (orChain k) (chainToks k n ++ ts) = some (orChain (k + n), ts)
  | 0, _, _, _ => hs _ _ _
  | n + 1, k, f, h => by
    have hstop : operators (f + n + 2) 6 (.local (k + 1)) (chainToks (k + 1) n ++ ts) =
        some (.local (k + 1), chainToks (k + 1) n ++ ts) := by
      cases n with
      | zero => exact hs _ _ _
      | succ n => exact stops_bar _ _ _
    refine operators_bin (f + n + 2) 0 .or (orChain k) _ (.local (k + 1)) [.punct '|'] _
      _ (chainToks (k + 1) n ++ ts) rfl (fun _ _ h => by cases h) (by decide)
      (operand_local (by omega) _ _) hstop _ _ ?_
    have := operators_chain hs n (k + 1) f (by omega)
    rw [show k + (n + 1) = k + 1 + n from by omega]
    exact this

theorem chainToks_length : ∀ n k, (chainToks k n).length = 2 * n
  | 0, _ => rfl
  | n + 1, k => by simp only [chainToks, List.length_cons, chainToks_length n]; omega

theorem blockFrom_let (f : Nat) (k : Nat) (hk : k < 256) (e : Expr) (ts rest : List Tok)
    (h : expression ts = some (e, .punct ';' :: rest)) :
    blockFrom (f + 1) (.word ['l', 'e', 't'] :: .word ('b' :: decimal k) :: .punct '=' :: ts) =
      (blockFrom f rest).map fun b => { b with stmts := .bind k e :: b.stmts } := by
  rw [blockFrom.eq_def]
  simp only [h, (decimal_read k hk).1]

theorem blockFrom_tail (f : Nat) (w : List Char) (hw : w ≠ ['l', 'e', 't']) (ts : List Tok) (e : Expr)
    (h : expression (.word w :: ts) = some (e, [.closing .brace])) :
    blockFrom (f + 1) (.word w :: ts) = some ⟨[], some e⟩ := by
  rw [blockFrom.eq_def]
  dsimp only
  split
  · rename_i h'; cases h'
  · rename_i h'; cases h'; exact absurd rfl hw
  · rw [h]

theorem scan_return (n : Nat) (h : n < 256) : scan ('\n' :: (buildReturn (n + 1) ++ ['\n', '}'])) =
    .word ('b' :: decimal 0) :: (chainToks 0 n ++ [.closing .brace]) := by
  have he : Ends ['\n', '}'] := ends_cons (by decide)
  rw [scan_newline, buildReturn_eq, List.append_assoc,
    scan_word ('b' :: decimal 0) _ (wd_local (n := 0) (by decide)) (ends_chain he n 0),
    scan_chain he n 0 (by omega), scan_newline, scan_cbrace]
  exact congrArg (fun x => Tok.word ('b' :: decimal 0) :: (chainToks 0 n ++ Tok.closing Delim.brace :: x))
    (show scan [] = [] from rfl)

theorem getLine_text (name ty : List Char) (op : GetOperation) (ops : List GetOperation) (idx : Nat)
    (b : List Char) : getLines name ty idx (op :: ops) ++ b =
    "let".toList ++ (' ' :: (('b' :: decimal idx) ++ (' ' :: '=' :: ' ' :: '(' ::
      (strReplace "{}".toList ("(".toList ++ name ++ indexText (some idx) ++ " as ".toList ++ ty ++
        ")".toList) (getText op) ++ (')' :: ' ' :: ("as".toList ++ (' ' :: (ty ++ (';' :: '\n' ::
          (getLines name ty (idx + 1) ops ++ b)))))))))) := by
  have hg : getLines name ty idx (op :: ops) = "let b".toList ++ decimal idx ++ " = (".toList ++
      strReplace "{}".toList
      ("(".toList ++ name ++ "[co + ".toList ++ decimal idx ++ "] as ".toList ++ ty ++ ")".toList)
      (getText op) ++ ") as ".toList ++ ty ++ ";\n".toList ++ getLines name ty (idx + 1) ops := rfl
  rw [hg]
  generalize getLines name ty (idx + 1) ops = rest
  have : "(".toList ++ name ++ "[co + ".toList ++ decimal idx ++ "] as ".toList ++ ty ++ ")".toList =
      "(".toList ++ name ++ indexText (some idx) ++ " as ".toList ++ ty ++ ")".toList := by simp [indexText]
  rw [this]
  generalize strReplace "{}".toList ("(".toList ++ name ++ indexText (some idx) ++ " as ".toList ++ ty ++
        ")".toList) (getText op) = x
  simp

theorem scan_getLine {P : List Tok} {name : List Char} (hn : NameOk name P) {ty : List Char} (ht : Wd ty)
    (op : GetOperation) (ops : List GetOperation) (idx : Nat) (hi : idx < 256)
    (hs : SmallShift op.shiftl op.shiftr) (b : List Char) :
    scan (getLines name ty idx (op :: ops) ++ b) =
      .word ['l', 'e', 't'] :: .word ('b' :: decimal idx) :: .punct '=' :: .opening .paren ::
        (getToks P ty op (some idx) ++ (.closing .paren :: .word ['a', 's'] :: .word ty :: .punct ';' ::
          scan (getLines name ty (idx + 1) ops ++ b))) := by
  rw [getLine_text, scan_word _ _ ⟨by decide, by decide⟩ (ends_cons (by decide)), scan_space,
    scan_word _ _ (wd_local hi) (ends_cons (by decide)), scan_space, scan_eq, scan_space, scan_oparen,
    scan_get hn ht (some idx) (fun k hk => by cases hk; exact hi) op hs _ (ends_cons (by decide)),
    scan_cparen, scan_space, scan_word _ _ ⟨by decide, by decide⟩ (ends_cons (by decide)), scan_space,
    scan_word _ _ ht (ends_cons (by decide)), scan_semi, scan_newline]
  rfl

theorem getLines_block {P : List Tok} {name : List Char} (hn : NameOk name P) {ty : List Char} (ht : Wd ty)
    (n : Nat) (hn' : n < 256) :
    ∀ (ops : List GetOperation) (idx : Nat), (∀ op ∈ ops, GetOk op) → idx + ops.length ≤ 256 →
      ops.length + 1 ≤ (scan (getLines name ty idx ops ++ ('\n' :: (buildReturn (n + 1) ++ ['\n', '}'])))).length ∧
      ∀ f, blockFrom (f + ops.length + 1)
          (scan (getLines name ty idx ops ++ ('\n' :: (buildReturn (n + 1) ++ ['\n', '}'])))) =
        some ⟨getStmts ty idx ops, some (orChain n)⟩
  | [], idx, _, _ => by
    have : scan (getLines name ty idx [] ++ ('\n' :: (buildReturn (n + 1) ++ ['\n', '}']))) =
        .word ('b' :: decimal 0) :: (chainToks 0 n ++ [.closing .brace]) := scan_return n hn'
    rw [this]
    refine ⟨by simp, fun f => blockFrom_tail _ _ (by decide) _ _ ?_⟩
    rw [expression_eq]
    unfold full
    rw [operand_local (by omega)]
    dsimp only
    have := operators_chain (stops_closing .brace []) n 0 ((.word ('b' :: decimal 0) ::
      (chainToks 0 n ++ [.closing .brace])).length + 14 - n) (by omega)
    rw [Nat.zero_add] at this
    rw [show (Tok.word ('b' :: decimal 0) :: (chainToks 0 n ++ [Tok.closing .brace])).length + 16 =
      (Tok.word ('b' :: decimal 0) :: (chainToks 0 n ++ [Tok.closing .brace])).length + 14 - n + n + 2 from by
        simp only [List.length_cons, List.length_append, chainToks_length]; omega]
    exact this
  | op :: ops, idx, hop, hidx => by
    obtain ⟨hs, hm⟩ := hop op (List.mem_cons_self ..)
    simp only [List.length_cons] at hidx
    obtain ⟨ih1, ih2⟩ := getLines_block hn ht n hn' ops (idx + 1)
      (fun o ho => hop o (List.mem_cons_of_mem _ ho)) (by omega)
    have hi : idx < 256 := by omega
    generalize hrest : scan (getLines name ty (idx + 1) ops ++ ('\n' :: (buildReturn (n + 1) ++
      ['\n', '}']))) = rest at ih1 ih2
    have hscan := scan_getLine hn ht op ops idx hi hs ('\n' :: (buildReturn (n + 1) ++ ['\n', '}']))
    rw [hrest] at hscan
    rw [hscan]
    constructor
    · simp only [List.length_append, List.length_cons]; omega
    · intro f
      rw [blockFrom_let _ idx hi (.cast (getExpr ty op (some idx)) ty) _ rest]
      · have := ih2 f
        rw [show f + (op :: ops).length = f + ops.length + 1 from by simp; omega, this]
        rfl
      · rw [expression_eq]
        generalize hL : (Tok.opening Delim.paren ::
          (getToks P ty op (some idx) ++ (Tok.closing Delim.paren :: .word ['a', 's'] :: .word ty :: .punct ';' ::
            rest))).length = L
        unfold full
        rw [paren_full (L + 15) _ _ _ (operand_get hn ty (some idx) (fun k hk => by cases hk; exact hi) op hs hm
          (L + 9) _ (stops_closing _ _))]
        dsimp only
        rw [operators_as]
        exact stops_semi _ _ _ _

/-- The text of a getter, read back. -/
theorem parse_getter {P : List Tok} {name : List Char} (hn : NameOk name P) {ty : List Char} (ht : Wd ty)
    (ops : List GetOperation) (hop : ∀ op ∈ ops, GetOk op) (hl : ops.length ≤ 256) (h0 : ops ≠ []) :
    parseBlock (genGetOps name ty ops) = some (getBlock ty ops) := by
  match ops, hop, hl, h0 with
  | [op], hop, _, _ =>
    obtain ⟨hs, hm⟩ := hop op (List.mem_cons_self ..)
    unfold parseBlock genGetOps
    have : "{".toList ++ strReplace "{}".toList
        ("(".toList ++ name ++ "[co] as ".toList ++ ty ++ ")".toList) (getText op) ++ "}".toList =
        '{' :: (strReplace "{}".toList
        ("(".toList ++ name ++ indexText none ++ " as ".toList ++ ty ++ ")".toList) (getText op) ++ ['}']) := by
      simp [indexText]
    dsimp only
    rw [this, scan_obrace, scan_get hn ht none (fun k hk => by cases hk) op hs _ (ends_cons (by decide))]
    dsimp only
    have hc : scan ['}'] = [.closing .brace] := rfl
    rw [hc]
    have hex : expression (getToks P ty op none ++ [.closing .brace]) =
        some (getExpr ty op none, [.closing .brace]) := by
      rw [expression_eq]
      exact operand_get hn ty none (fun k hk => by cases hk) op hs hm _ _ (stops_closing _ _)
    obtain ⟨L, hL⟩ : ∃ L, (getToks P ty op none ++ [Tok.closing .brace]).length = L + 1 :=
      ⟨_, by rw [List.length_append]; rfl⟩
    rw [hL]
    have hfirst : ∃ ts, getToks P ty op none = .opening .paren :: ts := by
      unfold getToks castToks
      split <;> exact ⟨_, rfl⟩
    obtain ⟨ts, hts⟩ := hfirst
    rw [hts] at hex ⊢
    rw [blockFrom.eq_def]
    dsimp only
    split
    · rename_i h; cases h
    · rename_i h; cases h
    · rw [hex]; rfl
  | op :: op' :: ops, hop, hl, _ =>
    obtain ⟨h1, h2⟩ := getLines_block hn ht (ops.length + 1) (by simp at hl; omega) (op :: op' :: ops) 0 hop
      (by omega)
    unfold parseBlock genGetOps
    have : "{".toList ++ (getLines name ty 0 (op :: op' :: ops) ++ "\n".toList ++
        buildReturn (op :: op' :: ops).length ++ "\n".toList) ++ "}".toList =
        '{' :: (getLines name ty 0 (op :: op' :: ops) ++ ('\n' ::
          (buildReturn (ops.length + 1 + 1) ++ ['\n', '}']))) := by simp
    dsimp only
    rw [this, scan_obrace]
    dsimp only
    generalize scan (getLines name ty 0 (op :: op' :: ops) ++ ('\n' ::
      (buildReturn (ops.length + 1 + 1) ++ ['\n', '}']))) = ts at h1 h2 ⊢
    have := h2 (ts.length - ((op :: op' :: ops).length + 1))
    rw [show ts.length - ((op :: op' :: ops).length + 1) + (op :: op' :: ops).length + 1 = ts.length from by
      omega] at this
    rw [this]
    rfl

end Verif.CodeText
