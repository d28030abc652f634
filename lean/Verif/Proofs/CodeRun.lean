import Verif.Proofs.CodeParse

/-! # Running the generated accessor texts -/

namespace Verif.CodeText

/-! ## Expressions -/

/-- Position in the buffer. -/
def pos (co : Nat) : Option Nat → Nat
  | none => co
  | some k => co + k

theorem eval_index (m : Mode) (env : Env) (i : Option Nat) (h : pos env.co i < 2 ^ 64) :
    eval m env (indexExpr i) = .ok ⟨some 64, pos env.co i⟩ := by
  cases i with
  | none => rfl
  | some k =>
    have hk : k < 2 ^ 64 := by simp only [pos] at h; omega
    simp only [indexExpr, eval, Except.bind, apply, joinWidth, RInt.at, reduceCtorEq, if_false, if_true,
      Nat.mod_eq_of_lt hk]
    simp only [pos] at h ⊢
    rw [if_pos h]

theorem eval_bin (m : Mode) (env : Env) (op : BinOp) (a b : Expr) : eval m env (.bin op a b) =
    (eval m env a).bind fun x => (eval m env b).bind fun y => apply m op x y := rfl

theorem eval_cast (m : Mode) (env : Env) (e : Expr) (ty : List Char) : eval m env (.cast e ty) =
    (eval m env e).bind fun x => match x.width, typeWidth ty with
      | some _, some w => .ok ⟨some w, x.num % 2 ^ w⟩
      | _, _ => panic := rfl

theorem eval_byte (m : Mode) (env : Env) (i : Option Nat) (h : pos env.co i < 2 ^ 64) :
    eval m env (.byte (indexExpr i)) =
      (index env.buf (pos env.co i)).map fun b => ⟨some 8, b.toNat⟩ := by
  rw [eval, eval_index m env i h]
  rfl

theorem eval_shift (m : Mode) (env : Env) (e : Expr) (l r W x : Nat)
    (he : eval m env e = .ok ⟨some W, x⟩) :
    eval m env (shiftExpr e l r) = (applyShift W x l r).map (⟨some W, ·⟩) := by
  unfold shiftExpr applyShift
  split
  · exact he
  · split
    · rw [eval, he]; rfl
    · rw [eval, he]; rfl

theorem eval_shift_err (m : Mode) (env : Env) (e : Expr) (l r : Nat) (x : Fail)
    (he : eval m env e = .error x) : eval m env (shiftExpr e l r) = .error x := by
  unfold shiftExpr
  split
  · exact he
  · split
    · rw [eval, he]; rfl
    · rw [eval, he]; rfl

theorem index_cases (buf : Buf) (i : Nat) : (∃ b, index buf i = .ok b) ∨ index buf i = panic := by
  unfold index
  cases buf[i]? with
  | none => exact .inr rfl
  | some b => exact .inl ⟨b, rfl⟩

theorem eval_get (m : Mode) (env : Env) (ty : List Char) (op : GetOperation) (i : Option Nat) (W : Nat)
    (hW : 8 ≤ W) (ht : typeWidth ty = some W) (hm : op.mask < 256) (h : pos env.co i < 2 ^ 64) :
    eval m env (getExpr ty op i) =
      (index env.buf (pos env.co i)).bind fun b => (op.eval W b.toNat).map (⟨some W, ·⟩) := by
  have hpow : 256 ≤ 2 ^ W := Nat.le_trans (by decide) (Nat.pow_le_pow_right (by decide) hW)
  have hcast : eval m env (.cast (.byte (indexExpr i)) ty) =
      (index env.buf (pos env.co i)).map fun b => ⟨some W, b.toNat⟩ := by
    rw [eval, eval_byte m env i h]
    rcases index_cases env.buf (pos env.co i) with ⟨b, hb⟩ | hb
    · rw [hb]
      simp only [Except.map, Except.bind, ht]
      rw [Nat.mod_eq_of_lt (Nat.lt_of_lt_of_le b.toNat_lt hpow)]
    · rw [hb]; rfl
  unfold getExpr GetOperation.eval
  rcases index_cases env.buf (pos env.co i) with ⟨b, hb⟩ | hb
  · rw [hb] at hcast ⊢
    apply eval_shift
    by_cases hmask : op.mask ≠ 0xFF
    · rw [if_pos hmask, if_pos hmask, eval, hcast]
      have : op.mask < 2 ^ W := by omega
      simp only [Except.map, Except.bind, eval, apply, joinWidth, RInt.at, reduceCtorEq, if_false, if_true,
        Nat.mod_eq_of_lt this]
    · rw [if_neg hmask, if_neg hmask, hcast]; rfl
  · rw [hb] at hcast ⊢
    apply eval_shift_err
    by_cases hmask : op.mask ≠ 0xFF
    · rw [if_pos hmask, eval, hcast]; rfl
    · rw [if_neg hmask, hcast]; rfl

theorem applyShift_lt {W x l r y : Nat} (hx : x < 2 ^ W) (h : applyShift W x l r = .ok y) : y < 2 ^ W := by
  unfold applyShift shl shr at h
  split at h
  · cases h; exact hx
  · split at h
    · split at h
      · cases h; exact Nat.mod_lt _ (Nat.two_pow_pos W)
      · cases h
    · split at h
      · cases h
        rw [Nat.shiftRight_eq_div_pow]
        exact Nat.lt_of_le_of_lt (Nat.div_le_self ..) hx
      · cases h

theorem GetOperation.eval_lt {W x y : Nat} {op : GetOperation} (hW : 8 ≤ W) (hx : x < 256)
    (h : op.eval W x = .ok y) : y < 2 ^ W := by
  have hpow : 256 ≤ 2 ^ W := Nat.le_trans (by decide) (Nat.pow_le_pow_right (by decide) hW)
  refine applyShift_lt ?_ h
  split
  · exact Nat.lt_of_le_of_lt Nat.and_le_left (by omega)
  · omega

/-! ## Getters -/

/-- The values of `b<idx>`, `b<idx+1>`, ... -/
def getVals (W : Nat) (buf : Buf) (co : Nat) : (idx : Nat) → List GetOperation → Res (List Nat)
  | _, [] => .ok []
  | idx, op :: ops =>
    (index buf (co + idx)).bind fun byte => (op.eval W byte.toNat).bind fun b =>
      (getVals W buf co (idx + 1) ops).map (b :: ·)

theorem getOpsFrom_vals (W : Nat) (buf : Buf) (co : Nat) : ∀ (ops : List GetOperation) (idx : Nat),
    getOpsFrom W buf co idx ops = (getVals W buf co idx ops).map fun l => l.foldr (· ||| ·) 0
  | [], _ => rfl
  | op :: ops, idx => by
    rw [getOpsFrom, getVals, getOpsFrom_vals W buf co ops (idx + 1)]
    cases index buf (co + idx) with
    | error e => rfl
    | ok byte =>
      show (op.eval W byte.toNat >>= _) = ((op.eval W byte.toNat).bind _).map _
      cases op.eval W byte.toNat with
      | error e => rfl
      | ok b =>
        show (Except.map _ (getVals W buf co (idx + 1) ops) >>= _) = Except.map _ (Except.map _ _)
        cases getVals W buf co (idx + 1) ops <;> rfl

theorem exec_get (m : Mode) (ty : List Char) (W : Nat) (hW : 8 ≤ W) (ht : typeWidth ty = some W) :
    ∀ (ops : List GetOperation) (idx : Nat) (env : Env), (∀ op ∈ ops, op.mask < 256) →
      env.locals.length = idx → env.co + idx + ops.length ≤ 2 ^ 64 →
      exec m (getStmts ty idx ops) env = (getVals W env.buf env.co idx ops).map fun l =>
        { env with locals := env.locals ++ l.map (⟨some W, ·⟩) }
  | [], _, env, _, _, _ => by
    simp [getStmts, exec, getVals, Except.map]
  | op :: ops, idx, env, hm, hl, hco => by
    simp only [List.length_cons] at hco
    rw [getStmts, exec, eval, eval_get m env ty op (some idx) W hW ht (hm op (List.mem_cons_self ..))
      (by simp only [pos]; omega), getVals]
    simp only [pos]
    cases index env.buf (env.co + idx) with
    | error e => rfl
    | ok byte =>
      simp only [Except.bind]
      cases hb : op.eval W byte.toNat with
      | error e => rfl
      | ok b =>
        have hlt := GetOperation.eval_lt hW byte.toNat_lt hb
        simp only [Except.map, ht, Nat.mod_eq_of_lt hlt, hl, if_true]
        rw [exec_get m ty W hW ht ops (idx + 1) _ (fun o ho => hm o (List.mem_cons_of_mem _ ho))
          (by simp [hl]) (by simp only; omega)]
        simp only
        cases getVals W env.buf env.co (idx + 1) ops with
        | error e => rfl
        | ok l => simp [Except.map]

theorem getVals_length {W : Nat} {buf : Buf} {co : Nat} : ∀ {ops : List GetOperation} {idx : Nat} {l : List Nat},
    getVals W buf co idx ops = .ok l → l.length = ops.length
  | [], _, _, h => by cases h; rfl
  | op :: ops, idx, l, h => by
    rw [getVals] at h
    cases hi : index buf (co + idx) with
    | error e => rw [hi] at h; cases h
    | ok byte =>
      rw [hi] at h
      simp only [Except.bind] at h
      cases ho : op.eval W byte.toNat with
      | error e => rw [ho] at h; cases h
      | ok b =>
        rw [ho] at h
        simp only at h
        cases hr : getVals W buf co (idx + 1) ops with
        | error e => rw [hr] at h; cases h
        | ok r =>
          rw [hr] at h
          cases h
          simp [getVals_length hr]

theorem foldr_or_append (l : List Nat) (x : Nat) :
    (l ++ [x]).foldr (· ||| ·) 0 = l.foldr (· ||| ·) 0 ||| x := by
  induction l with
  | nil => simp
  | cons a l ih => simp only [List.cons_append, List.foldr_cons, ih, Nat.or_assoc]

theorem eval_chain (m : Mode) (env : Env) (W : Nat) (l : List Nat)
    (hl : env.locals = l.map (⟨some W, ·⟩)) : ∀ n, n < l.length →
    eval m env (orChain n) = .ok ⟨some W, (l.take (n + 1)).foldr (· ||| ·) 0⟩
  | 0, h => by
    cases l with
    | nil => simp at h
    | cons a l => simp [orChain, eval, hl]
  | n + 1, h => by
    have ih := eval_chain m env W l hl n (by omega)
    have hx : l[n + 1]? = some l[n + 1] := List.getElem?_eq_getElem h
    rw [orChain, eval, ih]
    simp only [Except.bind, eval, hl, List.getElem?_map, hx, Option.map_some, apply, joinWidth, RInt.at,
      reduceCtorEq, if_false, if_true]
    rw [show l.take (n + 1 + 1) = l.take (n + 1) ++ [l[n + 1]] from by
      rw [List.take_add_one, hx]; rfl, foldr_or_append]

/-- What the text of a getter computes. -/
theorem run_getter (m : Mode) {name ty : List Char} {P : List LengthText.Tok} (hn : NameOk name P)
    (hty : Wd ty) (W : Nat) (hW : 8 ≤ W) (ht : typeWidth ty = some W) (ops : List GetOperation)
    (hop : ∀ op ∈ ops, GetOk op ∧ op.mask < 256) (hl : ops.length ≤ 256) (h0 : ops ≠ []) (buf : Buf)
    (co : Nat) (hco : co + ops.length ≤ 2 ^ 64) :
    runGetter m ty (genGetOps name ty ops) buf co = getOps W ops buf co := by
  unfold runGetter
  rw [parse_getter hn hty ops (fun op ho => (hop op ho).1) hl h0, getOps, getOpsFrom_vals]
  match ops, hop, hl, h0, hco with
  | [op], hop, _, _, hco =>
    simp only [getBlock, exec, Except.bind]
    rw [eval_get m _ ty op none W hW ht (hop op (List.mem_cons_self ..)).2 (by
      simp only [pos, List.length_cons, List.length_nil] at hco ⊢; omega)]
    simp only [pos, getVals, Nat.add_zero]
    cases index buf co with
    | error e => rfl
    | ok byte =>
      simp only [Except.bind]
      cases op.eval W byte.toNat with
      | error e => rfl
      | ok b =>
        simp [Except.map, ht]
  | op :: op' :: ops, hop, _, _, hco =>
    generalize hops : op :: op' :: ops = all at hop hco
    have hne : ∃ n, all.length = n + 1 := ⟨_, by rw [← hops]; rfl⟩
    have hb : getBlock ty all = ⟨getStmts ty 0 all, some (orChain (all.length - 1))⟩ := by
      rw [← hops]; rfl
    rw [hb]
    simp only
    rw [exec_get m ty W hW ht all 0 _ (fun o ho => (hop o ho).2) rfl hco]
    simp only
    cases hv : getVals W buf co 0 all with
    | error e => rfl
    | ok l =>
      have hlen := getVals_length hv
      simp only [Except.map, Except.bind]
      rw [eval_chain m _ W l (by simp) (all.length - 1) (by omega)]
      simp only [ht]
      rw [show all.length - 1 + 1 = l.length from by omega, List.take_length]
      simp

/-! ## Setters -/

theorem eval_value (m : Mode) (env : Env) (op : SetOperation) (W v : Nat)
    (hv : env.val = some ⟨some W, v⟩) (hvlt : v < 2 ^ W) :
    eval m env (valueExpr op) = (applyShift W (if op.valueMask ≠ 0xFF then v &&& op.valueMask else v)
      op.shiftl op.shiftr).map (⟨some W, ·⟩) := by
  unfold valueExpr
  apply eval_shift
  split
  · simp only [eval, hv, Except.bind, apply, joinWidth, RInt.at, reduceCtorEq, if_false, if_true]
    have : v &&& op.valueMask % 2 ^ W = v &&& op.valueMask := by
      rw [← Nat.mod_eq_of_lt hvlt, ← Nat.and_mod_two_pow, Nat.mod_eq_of_lt hvlt]
      exact (Nat.mod_eq_of_lt (Nat.lt_of_le_of_lt Nat.and_le_left hvlt))
    rw [this]
  · simp only [eval, hv]

theorem typeWidth_u8 : typeWidth ['u', '8'] = some 8 := by decide +kernel

theorem exec_set (m : Mode) (W v : Nat) (hvlt : v < 2 ^ W) : ∀ (ops : List SetOperation) (idx : Nat) (env : Env),
    (∀ op ∈ ops, op.saveMask < 256) → env.val = some ⟨some W, v⟩ →
    env.co + idx + ops.length ≤ 2 ^ 64 →
    (exec m (setStmts idx ops) env).map (·.buf) = setOpsFrom W env.co v idx ops env.buf
  | [], _, env, _, _, _ => rfl
  | op :: ops, idx, env, hop, hv, hco => by
    simp only [List.length_cons] at hco
    have hs := hop op (List.mem_cons_self ..)
    have hp : pos env.co (some idx) < 2 ^ 64 := by simp only [pos]; omega
    have hbyte := eval_byte m env (some idx) hp
    have hidx := eval_index m env (some idx) hp
    simp only [pos] at hbyte hidx
    have ih : ∀ buf, (exec m (setStmts (idx + 1) ops) { env with buf := buf }).map (·.buf) =
        setOpsFrom W env.co v (idx + 1) ops buf := fun buf =>
      exec_set m W v hvlt ops (idx + 1) { env with buf := buf } (fun o ho => hop o (List.mem_cons_of_mem _ ho)) hv
        (by simp only; omega)
    rw [setStmts, exec, setOpsFrom]
    -- the value
    have hval := eval_value m env op W v hv hvlt
    cases ha : applyShift W (if op.valueMask ≠ 0xFF then v &&& op.valueMask else v) op.shiftl op.shiftr with
    | error e =>
      have he : e = .panic := by
        unfold applyShift shl shr at ha
        split at ha
        · cases ha
        · split at ha <;> split at ha <;> cases ha <;> rfl
      subst he
      have hr : (index env.buf (env.co + idx) >>= fun old => do
          let new ← op.eval W old.toNat v
          let buf ← setIndex env.buf (env.co + idx) (UInt8.ofNat new)
          setOpsFrom W env.co v (idx + 1) ops buf) = panic := by
        rcases index_cases env.buf (env.co + idx) with ⟨b, hb⟩ | hb
        · rw [hb, ok_bind]
          have : op.eval W b.toNat v = panic := by
            unfold SetOperation.eval
            simp only [ha]
            rfl
          rw [this]; rfl
        · rw [hb]; rfl
      rw [hr]
      rw [ha] at hval
      have hset : eval m env (setExpr op idx) = panic := by
        unfold setExpr
        split
        · rw [eval_cast, eval_bin, eval_bin, hbyte]
          rcases index_cases env.buf (env.co + idx) with ⟨b, hb⟩ | hb
          · rw [hb]
            simp only [Except.map, Except.bind, eval, apply, joinWidth, hval, panic]
          · rw [hb]; rfl
        · rw [eval, hval]; rfl
      rw [hset]
      rfl
    | ok x =>
      rw [ha] at hval
      simp only [Except.map] at hval
      rcases index_cases env.buf (env.co + idx) with ⟨b, hb⟩ | hb
      · rw [hb] at hbyte ⊢
        rw [ok_bind]
        have hset : eval m env (setExpr op idx) = .ok ⟨some 8, if op.saveMask ≠ 0 then
            ((b.toNat &&& op.saveMask) ||| (x % 256)) % 256 else x % 256⟩ := by
          unfold setExpr
          split
          · rw [eval_cast, eval_bin, eval_bin, hbyte]
            have : op.saveMask < 2 ^ 8 := hs
            simp only [Except.map, Except.bind, eval, apply, joinWidth, hval, RInt.at, reduceCtorEq, if_false,
              Nat.mod_eq_of_lt this, typeWidth_u8, if_true]
          · rw [eval, hval]
            simp only [Except.bind, typeWidth_u8]
        have hev : op.eval W b.toNat v = .ok (if op.saveMask ≠ 0 then
            ((b.toNat &&& op.saveMask) ||| (x % 256)) % 256 else x % 256) := by
          unfold SetOperation.eval
          simp only [ha, ok_bind]
          split <;> rfl
        rw [hset, hidx, hev]
        simp only [Except.bind, and_self, if_true, ok_bind]
        generalize (if op.saveMask ≠ 0 then ((b.toNat &&& op.saveMask) ||| (x % 256)) % 256 else x % 256) = new
        cases setIndex env.buf (env.co + idx) (UInt8.ofNat new) with
        | error e => rfl
        | ok buf => exact ih buf
      · rw [hb]
        have hbuf : ¬ env.co + idx < env.buf.length := by
          intro hlt
          rw [index, List.getElem?_eq_getElem hlt] at hb
          cases hb
        rw [hb] at hbyte
        show _ = panic
        have hset : ∀ z, setIndex env.buf (env.co + idx) z = panic := fun z => by
          rw [setIndex, if_neg hbuf]
        cases hse : eval m env (setExpr op idx) with
        | error e =>
          have he : e = .panic := by
            revert hse
            unfold setExpr
            split
            · rw [eval_cast, eval_bin, eval_bin, hbyte]; intro hse; cases hse; rfl
            · rw [eval, hval]; simp only [Except.bind, typeWidth_u8]; intro hse; cases hse
          subst he; rfl
        | ok y =>
          simp only [Except.bind, hidx]
          split
          · rw [hset]; rfl
          · rfl

/-- What the text of a setter does. -/
theorem run_setter (m : Mode) {name ty : List Char} {P : List LengthText.Tok} (hn : NameOk name P)
    (W : Nat) (ht : typeWidth ty = some W) (ops : List SetOperation)
    (hop : ∀ op ∈ ops, SetOk op ∧ op.saveMask < 256) (hl : ops.length ≤ 256)
    (buf : Buf) (co v : Nat) (hvlt : v < 2 ^ W) (hco : co + ops.length ≤ 2 ^ 64) :
    runSetter m ty (genSetOps name ops) buf co v = setOps W ops buf co v := by
  unfold runSetter
  rw [parse_setter hn ops (fun op ho => (hop op ho).1) hl, setOps]
  simp only [ht]
  exact exec_set m W v hvlt ops 0 _ (fun op ho => (hop op ho).2) rfl hco

/-! ## The operations of the macro -/

/-- What the texts need, as a check. -/
def opsOk (ops : List GetOperation) : Bool :=
  ops.length ≤ 9 && !ops.isEmpty && ops.all fun op =>
    op.shiftl < 256 && op.shiftr < 256 && 0 < op.mask && op.mask < 256 &&
    0 < op.toMutator.valueMask && op.toMutator.valueMask < 2 ^ 64

theorem operations_ok : ((List.range 8).all fun o => (List.range 65).all fun n =>
    [Endianness.big, .little, .host].all fun e =>
      match operations o n e with
      | none => true
      | some ops => opsOk ops) = true := by decide +kernel

theorem operations_range {o n : Nat} {e : Endianness} {ops : List GetOperation}
    (h : operations o n e = some ops) : o ≤ 7 ∧ n ≤ 64 := by
  unfold operations at h
  split at h
  · cases h
  · omega

theorem operations_opsOk {o n : Nat} {e : Endianness} {ops : List GetOperation}
    (h : operations o n e = some ops) : opsOk ops = true := by
  obtain ⟨h1, h2⟩ := operations_range h
  have k := List.all_eq_true.mp (List.all_eq_true.mp (List.all_eq_true.mp operations_ok o
    (by simp; omega)) n (by simp; omega)) e (by cases e <;> simp)
  rw [h] at k
  exact k

theorem width_ge (n : Nat) : 8 ≤ storageWidth n ∧ storageWidth n ≤ 64 := by
  unfold storageWidth; repeat' split
  all_goals omega

end Verif.CodeText
