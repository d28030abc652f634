import Verif.Proofs.CodeFacts
import Verif.Proofs.Index

/-!
# The texts of accessors at positions beyond the buffer
-/

namespace Verif.CodeText
open Spec

theorem exec_cons (m : Mode) (s : Stmt) (ss : List Stmt) (env : Env) :
    exec m (s :: ss) env = (exec m [s] env).bind (exec m ss) := by
  cases s with
  | bind i e =>
    simp only [exec]
    cases eval m env e with
    | error x => rfl
    | ok v =>
      simp only [Except.bind]
      split <;> rfl
  | assign i e =>
    simp only [exec]
    cases eval m env e with
    | error x => rfl
    | ok v =>
      simp only [Except.bind]
      cases eval m env i with
      | error x => rfl
      | ok k =>
        simp only
        split
        · cases setIndex env.buf k.num (UInt8.ofNat v.num) <;> rfl
        · rfl

theorem index_far {buf : Buf} {co : Nat} (h : buf.length ≤ co) : index buf co = panic := by
  unfold index
  rw [List.getElem?_eq_none h]

theorem run_getter_far (m : Mode) {name ty : List Char} {P : List LengthText.Tok} (hn : NameOk name P)
    (hty : Wd ty) (W : Nat) (hW : 8 ≤ W) (ht : typeWidth ty = some W) (ops : List GetOperation)
    (hop : ∀ op ∈ ops, GetOk op ∧ op.mask < 256) (hl : ops.length ≤ 256) (h0 : ops ≠ []) (buf : Buf)
    (co : Nat) (hco : co < 2 ^ 64) (hfar : buf.length ≤ co) :
    runGetter m ty (genGetOps name ty ops) buf co = panic := by
  unfold runGetter
  rw [parse_getter hn hty ops (fun op ho => (hop op ho).1) hl h0]
  match ops, hop, h0 with
  | [op], hop, _ =>
    simp only [getBlock, exec, Except.bind]
    rw [eval_get m _ ty op none W hW ht (hop op (List.mem_cons_self ..)).2 (by simp only [pos]; omega)]
    simp only [pos, index_far hfar]
    rfl
  | op :: op' :: ops, hop, _ =>
    simp only [getBlock]
    have h1 : exec m [Stmt.bind 0 (.cast (getExpr ty op (some 0)) ty)] ⟨buf, co, none, []⟩ = panic := by
      have := exec_get m ty W hW ht [op] 0 ⟨buf, co, none, []⟩
        (fun o ho => by cases List.mem_singleton.mp ho; exact (hop op (List.mem_cons_self ..)).2) rfl
        (by simp only [List.length_cons, List.length_nil]; omega)
      rw [show getStmts ty 0 [op] = [Stmt.bind 0 (.cast (getExpr ty op (some 0)) ty)] from rfl] at this
      rw [this]
      simp only [getVals, Nat.add_zero, index_far hfar]
      rfl
    rw [getStmts, exec_cons, h1]
    rfl

theorem run_setter_far (m : Mode) {name ty : List Char} {P : List LengthText.Tok} (hn : NameOk name P)
    (W : Nat) (ht : typeWidth ty = some W) (ops : List SetOperation)
    (hop : ∀ op ∈ ops, SetOk op ∧ op.saveMask < 256) (hl : ops.length ≤ 256) (h0 : ops ≠ [])
    (buf : Buf) (co v : Nat) (hvlt : v < 2 ^ W) (hco : co < 2 ^ 64) (hfar : buf.length ≤ co) :
    runSetter m ty (genSetOps name ops) buf co v = panic := by
  unfold runSetter
  rw [parse_setter hn ops (fun op ho => (hop op ho).1) hl]
  simp only [ht]
  match ops, hop, h0 with
  | op :: ops, hop, _ =>
    have h1 : exec m [Stmt.assign (indexExpr (some 0)) (setExpr op 0)] ⟨buf, co, some ⟨some W, v⟩, []⟩ = panic := by
      have := exec_set m W v hvlt [op] 0 ⟨buf, co, some ⟨some W, v⟩, []⟩
        (fun o ho => by cases List.mem_singleton.mp ho; exact (hop op (List.mem_cons_self ..)).2) rfl
        (by simp only [List.length_cons, List.length_nil]; omega)
      rw [show setStmts 0 [op] = [Stmt.assign (indexExpr (some 0)) (setExpr op 0)] from rfl] at this
      have hp : setOpsFrom W co v 0 [op] buf = panic := by
        rw [setOpsFrom, Nat.add_zero, index_far hfar]; rfl
      simp only [hp] at this
      cases hx : exec m [Stmt.assign (indexExpr (some 0)) (setExpr op 0)] ⟨buf, co, some ⟨some W, v⟩, []⟩ with
      | ok env => rw [hx] at this; cases this
      | error x => rw [hx] at this; cases this; rfl
    rw [setStmts, exec_cons, h1]
    rfl

/-- The text of a getter, at any position. -/
theorem run_getter_any {ty : String} {w n : Nat} {e : Endianness}
    (hty : (ty, w) ∈ typeNames) (hst : storageWidth n = w)
    {s : Nat} {ops : List GetOperation} (hops : operations s n e = some ops)
    {name : String} (hname : name ∈ bufferNames) (m : Mode) {buf : Buf} (hlen : buf.length < 2 ^ 63)
    {co : Nat} (hco : co < 2 ^ 64) :
    runGetter m ty.toList (genGetOps name.toList ty.toList ops) buf co = getPrim ⟨n, e⟩ s buf co := by
  obtain ⟨P, hP⟩ := nameOk_buffer hname
  obtain ⟨ht, hw⟩ := typeName_facts _ hty
  obtain ⟨f1, f2, f3, _⟩ := ops_facts hops
  by_cases h : co + ops.length ≤ 2 ^ 64
  · unfold getPrim
    simp only [hops, hst]
    exact run_getter m hP hw w (hst ▸ (width_ge n).1) ht ops f3 (by omega) f2 buf co h
  · rw [getPrim_outside (by omega)]
    exact run_getter_far m hP hw w (hst ▸ (width_ge n).1) ht ops f3 (by omega) f2 buf co hco (by omega)

/-- The text of a setter, at any position. -/
theorem run_setter_any {ty : String} {w n : Nat} {e : Endianness}
    (hty : (ty, w) ∈ typeNames) (hst : storageWidth n = w)
    {s : Nat} {ops : List GetOperation} (hops : operations s n e = some ops)
    {name : String} (hname : name ∈ bufferNames) (m : Mode) {buf : Buf} (hlen : buf.length < 2 ^ 63)
    {co v : Nat} (hv : v < 2 ^ w) (hco : co < 2 ^ 64) :
    runSetter m ty.toList (genSetOps name.toList (toMutator ops)) buf co v = setPrim ⟨n, e⟩ s buf co v := by
  obtain ⟨P, hP⟩ := nameOk_buffer hname
  obtain ⟨ht, hw⟩ := typeName_facts _ hty
  obtain ⟨f1, f2, _, f4⟩ := ops_facts hops
  have hl : (toMutator ops).length = ops.length := by simp [toMutator]
  by_cases h : co + ops.length ≤ 2 ^ 64
  · unfold setPrim
    simp only [hops, hst]
    exact run_setter m hP w ht (toMutator ops) f4 (by omega) buf co v hv (by omega)
  · rw [setPrim_outside (by omega)]
    exact run_setter_far m hP w ht (toMutator ops) f4 (by omega)
      (fun h0 => f2 (List.length_eq_zero_iff.mp (by rw [← hl, h0]; rfl))) buf co v hv hco (by omega)

end Verif.CodeText
