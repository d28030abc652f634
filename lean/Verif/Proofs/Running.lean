import Verif.Spec.Running
import Verif.Spec.Offsets
import Verif.Proofs.LengthReader
import Verif.Proofs.Sizes
import Verif.Props.LengthText

namespace Verif
open Spec LengthText

/-- An expression of the grammar as one of `Model/LengthEval`. -/
def toExpr : RExpr → Option Expr
  | .name n => if n = dots then some .rest else none
  | .int t => if usizeLiteral t = none then some (.int (literal t)) else none
  | .call f x =>
    match x with
    | .bin ',' a b => do some (.call2 f (← toExpr a) (← toExpr b))
    | x => do some (.call1 f (← toExpr x))
  | .mac f => if f = "unimplemented" then some .unimplemented else none
  | .method x f =>
    match x with
    | .name n =>
      if n = "self" then (getterName f).map .getter
      else if n = dots then some (.method0 .rest f) else none
    | x => do some (.method0 (← toExpr x) f)
  | .methodArg x f y => do some (.method1 (← toExpr x) f (← toExpr y))
  | .field x t => if t = "0" then do some (.first (← toExpr x)) else none
  | .bin c a b =>
    match binOp c with
    | some o => do some (.bin o (← toExpr a) (← toExpr b))
    | none => none
  | .ref x => do some (.ref (← toExpr x))
  | .ite c a b => do some (.ite (← toExpr c) (← toExpr a) (← toExpr b))
  | _ => none

theorem dots_ne_self : dots ≠ "self" := by decide

theorem binOp_not_comma {c : Char} {o : BinOp} (h : binOp c = some o) : c ≠ ',' := by
  rintro rfl; cases h

/-- The value of `...`. -/
theorem value_dots (m : Mode) (d : Decl) (buf : Buf) (pos : Res Nat) :
    (packetMeaning m d buf).ref ((packetMeaning m d buf).rest (.usize pos)) =
      .val (eval m d (d.get m buf) (pos >>= sliceFrom buf) .rest) := by
  cases pos <;> rfl

/-- The value in a packet is that of the translated expression. -/
theorem value_toExpr (m : Mode) (d : Decl) (buf : Buf) (pos : Res Nat) :
    (e : RExpr) → {x : Expr} → toExpr e = some x →
    e.value ((packetMeaning m d buf).withDots (.usize pos)) =
      .val (eval m d (d.get m buf) (pos >>= sliceFrom buf) x)
  | .name n, x, h => by
    simp only [toExpr] at h
    split at h
    · rename_i hn
      cases h
      simp only [RExpr.value, Meaning.withDots, hn, if_true]
      exact value_dots m d buf pos
    · cases h
  | .int t, x, h => by
    simp only [toExpr] at h
    split at h
    · rename_i hn
      cases h
      simp only [RExpr.value, Meaning.withDots, packetMeaning, hn]
      rfl
    · cases h
  | .call f y, x, h => by
    rw [toExpr.eq_def] at h
    dsimp only at h
    split at h
    · rename_i a b
      simp only [Option.bind_eq_bind, Option.bind_eq_some_iff, Option.some.injEq] at h
      obtain ⟨a', ha, b', hb, rfl⟩ := h
      have iha := value_toExpr m d buf pos a ha
      have ihb := value_toExpr m d buf pos b hb
      simp only [RExpr.value, iha, ihb]
      rfl
    · simp only [Option.bind_eq_bind, Option.bind_eq_some_iff, Option.some.injEq] at h
      obtain ⟨y', hy, rfl⟩ := h
      have ih := value_toExpr m d buf pos y hy
      simp only [RExpr.value, ih]
      rfl
  | .call0 f, x, h => by cases h
  | .cast y f, x, h => by cases h
  | .rest y, x, h => by cases h
  | .mac f, x, h => by
    simp only [toExpr] at h
    split at h
    · rename_i hf
      cases h
      subst hf
      rfl
    · cases h
  | .method y f, x, h => by
    rw [toExpr.eq_def] at h
    dsimp only at h
    split at h
    · rename_i n
      split at h
      · rename_i hn
        subst hn
        simp only [Option.map_eq_some_iff] at h
        obtain ⟨g, hg, rfl⟩ := h
        simp only [RExpr.value, Meaning.withDots, if_neg (Ne.symm dots_ne_self), packetMeaning, if_true, hg]
        rfl
      · split at h
        · rename_i hn
          cases h
          simp only [RExpr.value, Meaning.withDots, hn, if_true]
          rw [value_dots m d buf pos]
          rfl
        · cases h
    · simp only [Option.bind_eq_bind, Option.bind_eq_some_iff, Option.some.injEq] at h
      obtain ⟨y', hy, rfl⟩ := h
      have ih := value_toExpr m d buf pos y hy
      simp only [RExpr.value, ih]
      rfl
  | .methodArg y f z, x, h => by
    simp only [toExpr, Option.bind_eq_bind, Option.bind_eq_some_iff, Option.some.injEq] at h
    obtain ⟨y', hy, z', hz, rfl⟩ := h
    have ihy := value_toExpr m d buf pos y hy
    have ihz := value_toExpr m d buf pos z hz
    simp only [RExpr.value, ihy, ihz]
    rfl
  | .field y t, x, h => by
    simp only [toExpr] at h
    split at h
    · rename_i ht
      simp only [Option.bind_eq_bind, Option.bind_eq_some_iff, Option.some.injEq] at h
      obtain ⟨y', hy, rfl⟩ := h
      have ih := value_toExpr m d buf pos y hy
      subst ht
      simp only [RExpr.value, ih]
      rfl
    · cases h
  | .bin c a b, x, h => by
    simp only [toExpr] at h
    split at h
    · rename_i o ho
      simp only [Option.bind_eq_bind, Option.bind_eq_some_iff, Option.some.injEq] at h
      obtain ⟨a', ha, b', hb, rfl⟩ := h
      have iha := value_toExpr m d buf pos a ha
      have ihb := value_toExpr m d buf pos b hb
      simp only [RExpr.value, iha, ihb]
      simp only [Meaning.withDots, packetMeaning, if_neg (binOp_not_comma ho), ho]
      rfl
    · cases h
  | .ref y, x, h => by
    simp only [toExpr, Option.bind_eq_bind, Option.bind_eq_some_iff, Option.some.injEq] at h
    obtain ⟨y', hy, rfl⟩ := h
    have ih := value_toExpr m d buf pos y hy
    simp only [RExpr.value, ih]
    rfl
  | .ite c a b, x, h => by
    simp only [toExpr, Option.bind_eq_bind, Option.bind_eq_some_iff, Option.some.injEq] at h
    obtain ⟨c', hc, a', ha, b', hb, rfl⟩ := h
    have ihc := value_toExpr m d buf pos c hc
    have iha := value_toExpr m d buf pos a ha
    have ihb := value_toExpr m d buf pos b hb
    simp only [RExpr.value, ihc, iha, ihb]
    rfl

/-- The getters that an expression uses. -/
def getters : Expr → List String
  | .getter n => [n]
  | .int _ => []
  | .rest => []
  | .unimplemented => []
  | .ref e => getters e
  | .first e => getters e
  | .call1 _ a => getters a
  | .call2 _ a b => getters a ++ getters b
  | .method0 e _ => getters e
  | .method1 e _ a => getters e ++ getters a
  | .bin _ a b => getters a ++ getters b
  | .ite c t e => getters c ++ (getters t ++ getters e)

/-- The value depends on the getters used only. -/
theorem eval_congr (m : Mode) (d : Decl) {get get' : Nat → Res Val} (rest : Res Buf) {e : Expr}
    (h : ∀ n ∈ getters e, ∀ i, position d n = some i → get i = get' i) :
    eval m d get rest e = eval m d get' rest e := by
  induction e with
  | getter n =>
    simp only [eval]
    cases hp : position d n with
    | none => rfl
    | some i => simp only [h n (by simp [getters]) i hp]
  | int | rest | unimplemented => rfl
  | ref e ih => simp only [eval, ih h]
  | first e ih => simp only [eval, ih h]
  | call1 f a ih => simp only [eval, ih h]
  | method0 e f ih => simp only [eval, ih h]
  | call2 f a b iha ihb =>
    simp only [eval, iha fun n hn => h n (List.mem_append_left _ hn), ihb fun n hn => h n (List.mem_append_right _ hn)]
  | method1 a f b iha ihb =>
    simp only [eval, iha fun n hn => h n (List.mem_append_left _ hn), ihb fun n hn => h n (List.mem_append_right _ hn)]
  | bin o a b iha ihb =>
    simp only [eval, iha fun n hn => h n (List.mem_append_left _ hn), ihb fun n hn => h n (List.mem_append_right _ hn)]
  | ite c a b ihc iha ihb =>
    simp only [eval, ihc fun n hn => h n (List.mem_append_left _ hn),
      iha fun n hn => h n (List.mem_append_right _ (List.mem_append_left _ hn)),
      ihb fun n hn => h n (List.mem_append_right _ (List.mem_append_right _ hn))]

/-- Adding two `usize`. -/
theorem op_add (m : Mode) (d : Decl) (buf : Buf) (a b : Res Nat) :
    (packetMeaning m d buf).op '+' (.usize a) (.usize b) = .usize (do let x ← a; let y ← b; uadd m x y) := by
  cases a with
  | error e => rfl
  | ok x =>
    cases b with
    | error e => rfl
    | ok y =>
      show RunVal.val (arith m 64 .add x y) = RunVal.val ((uadd m x y).map _)
      congr 1
      simp only [arith, uadd, show usizeCard = 2 ^ 64 from rfl]
      by_cases hlt : x + y < 2 ^ 64
      · rw [if_pos hlt]
        simp only [hlt, decide_true]
        rw [Nat.mod_eq_of_lt hlt]
        rfl
      · rw [if_neg hlt]
        simp only [hlt, decide_false]
        cases m <;> rfl

/-- The position after given lengths is the model's. -/
theorem position_run (m : Mode) (d : Decl) (buf : Buf) (bits : Nat)
    (hint : (packetMeaning m d buf).int (toString (bits / 8) ++ "usize") = .usize (.ok (bits / 8)))
    (lens : List (Res Nat)) :
    Spec.position (packetMeaning m d buf) bits (lens.map RunVal.usize) = RunVal.usize (curOff m bits lens) := by
  unfold Spec.position curOff
  rw [hint]
  generalize bits / 8 = n
  have herr : ∀ (l : List (Res Nat)) e, (l.map RunVal.usize).foldl ((packetMeaning m d buf).op '+') (.usize (.error e)) =
      .usize (.error e) := by
    intro l e
    induction l with
    | nil => rfl
    | cons x l ih =>
      rw [List.map_cons, List.foldl_cons, op_add]
      exact ih
  induction lens generalizing n with
  | nil => rfl
  | cons x l ih =>
    rw [List.map_cons, List.foldl_cons, op_add, List.foldlM_cons]
    cases x with
    | error e => exact herr l e
    | ok y =>
      show (l.map RunVal.usize).foldl _ (RunVal.usize (uadd m n y)) = RunVal.usize ((uadd m n y) >>= fun s => _)
      cases hs : uadd m n y with
      | error e => exact herr l e
      | ok s => exact ih s

theorem lengthsFrom_append {α : Type} (I : Meaning α) (fields : List RawField) (width : RawField → Nat)
    (len : RawField → Option RExpr) (fs : List RawField) (f : RawField) (bits : Nat) (lengths : List α) :
    lengthsFrom I fields width len bits lengths (fs ++ [f]) =
      lengthsFrom I fields width len bits lengths fs ++
        ((len f).map (lengthValue I fields f (Spec.position I (bits + (fs.map width).sum)
          (lengthsFrom I fields width len bits lengths fs)))).toList := by
  induction fs generalizing bits lengths with
  | nil => simp [lengthsFrom]
  | cons g fs ih =>
    rw [List.cons_append, lengthsFrom, ih, lengthsFrom]
    simp only [List.map_cons, List.sum_cons, Nat.add_assoc]

end Verif
