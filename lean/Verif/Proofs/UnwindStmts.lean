import Verif.Spec.MiniLeft
import Verif.Proofs.Unwind
import Verif.Proofs.Template
import Verif.Props.Template

/-! # Lemmas: the bytes left by the generated statements -/

set_option autoImplicit false

namespace Verif
open Spec Props

theorem outcome_fst {l : Left} {b : Buf} (h : outcome l = .ok b) : l.1 = b := by
  rw [outcome_inv h]

theorem reading_fst {α : Type} (buf : Buf) (r : Res α) (next : α → Left) :
    (reading buf r next).1 = match r with | .ok a => (next a).1 | .error _ => buf := by
  cases r <;> rfl

/-- `set_<field>` of an integer, and `set_arg<i>`. -/
theorem left_intSet (W : RustWorld) (C : RustCalls) (buf : Buf) (v : Nat)
    (hw : ∀ co, W.co buf = .ok co → W.writeOps buf co v = outcome (C.writeOps buf co v)) :
    leftAll W C (argEnv buf (some ("val", .int v))) intSetBody =
      (reading buf (W.co buf) fun co => C.writeOps buf co v).1 := by
  simp only [intSetBody, leftAll, RustStmt.exec, RustExp.eval, argEnv, put_self]
  cases hc : W.co buf with
  | error e => rfl
  | ok co =>
    simp only [ok_bind, put_get, put_self, if_true, String.reduceEq, if_false, reading]
    rw [hw co hc]
    cases ho : outcome (C.writeOps buf co v) with
    | ok b => exact (outcome_fst ho).symm
    | error e =>
      simp only [RustStmt.left, RustExp.eval, put_get, put_self, if_true, String.reduceEq, if_false]
      rfl

/-- The calls `set_arg<i>(self, vals.<i>)` one after the other. -/
def callSetsLeft : List (Buf → Nat → Left) → List Nat → Buf → Left
  | f :: fs, v :: vs, buf => andThen (f buf v) fun buf => callSetsLeft fs vs buf
  | _, _, buf => (buf, .ok ())

theorem left_sets (W : RustWorld) (C : RustCalls) (P : Buf → Prop) (hP : ∀ f ∈ C.setArgs, ∀ b v, P b → P (f b v).1)
    (fs : List (Buf → Nat → Left)) (gs : List (Buf → Nat → Res Buf)) (vs all : List Nat) (i : Nat) (env : RustEnv)
    (hb : P env.self)
    (hv : env.get "vals" = some (.given (.nums all))) (hi : all.drop i = vs) (hf : C.setArgs.drop i = fs)
    (hg : W.setArgs.drop i = gs) (hlen : vs.length = fs.length) (hlen' : vs.length = gs.length)
    (hfg : ∀ (j : Nat) f g, fs[j]? = some f → gs[j]? = some g → ∀ b v, P b → g b v = outcome (f b v)) :
    leftAll W C env ((List.range' i fs.length).map fun i => .callSet i "vals") =
      (callSetsLeft fs vs env.self).1 := by
  induction fs generalizing i vs gs env with
  | nil => cases vs <;> rfl
  | cons f fs ih =>
    cases vs with
    | nil => simp at hlen
    | cons v vs =>
      cases gs with
      | nil => simp at hlen'
      | cons g gs =>
        have hget : all[i]? = some v := by rw [← List.head?_drop, hi]; rfl
        have hdrop : all.drop (i + 1) = vs := by rw [← List.tail_drop, hi]; rfl
        have hget' : W.setArgs[i]? = some g := by rw [← List.head?_drop, hg]; rfl
        have hdrop' : W.setArgs.drop (i + 1) = gs := by rw [← List.tail_drop, hg]; rfl
        have hget2 : C.setArgs[i]? = some f := by rw [← List.head?_drop, hf]; rfl
        have hdrop2 : C.setArgs.drop (i + 1) = fs := by rw [← List.tail_drop, hf]; rfl
        have h0 : g env.self v = outcome (f env.self v) := hfg 0 f g rfl rfl _ _ hb
        have hp := hP f (List.mem_of_getElem? hget2) env.self v hb
        simp only [callSetsLeft, List.length_cons, List.range'_succ, List.map_cons, leftAll, RustStmt.exec, hv, hget,
          hget', RustStmt.left, hget2, h0]
        cases hr : (f env.self v).2 with
        | error e =>
          simp only [outcome, hr, Verif.andThen]
          rfl
        | ok u =>
          simp only [outcome, hr, Verif.andThen]
          exact ih gs vs (i + 1) ⟨(f env.self v).1, env.get⟩ hp hv hdrop hdrop2 hdrop' (by simpa using hlen)
            (by simpa using hlen') (fun j f g h1 h2 => hfg (j + 1) f g (by simpa using h1) (by simpa using h2))

/-- The loop of a setter of a vector of integers. -/
theorem left_setLoop (W : RustWorld) (C : RustCalls) (p : Prim) (all : List Nat) (n : Nat) (hsl : SliceLen n)
    (hw : ∀ b co v, W.writeOps b co v = setPrimU W.mode ⟨p.size, .big⟩ 0 b co v)
    (hC : C.writeOps = setPrimLeft ⟨p.size, .big⟩ 0)
    (vs : List Nat) (i co : Nat) (hlt : co < 2 ^ 64)
    (env : RustEnv) (hn : env.self.length = n) (hco : env.get "co" = some (.int co))
    (hv : env.get "vals" = some (.given (.nums all))) (hi : all.drop i = vs) :
    loopLeft (fun k env => execAll W (env.put "i" (.int k)) (vecSetLoop (p.size / 8)))
      (fun k env => leftAll W C (env.put "i" (.int k)) (vecSetLoop (p.size / 8))) vs.length i env =
      (setElemsLeft p co vs env.self).1 := by
  induction vs generalizing i co env with
  | nil => rfl
  | cons v vs ih =>
    have hget : all[i]? = some v := by rw [← List.head?_drop, hi]; rfl
    have hdrop : all.drop (i + 1) = vs := by rw [← List.tail_drop, hi]; rfl
    have hsl' : SliceLen env.self.length := by rw [hn]; exact hsl
    have hU : W.writeOps env.self co v = outcome (setPrimLeft ⟨p.size, .big⟩ 0 env.self co v) := by
      rw [hw, setPrimU_eq W.mode _ 0 hsl' co v hlt, setPrim_outcome]
    have ho := setPrim_outcome ⟨p.size, .big⟩ 0 env.self co v
    simp only [setElemsLeft, loopLeft, List.length_cons, vecSetLoop, execAll, leftAll, RustStmt.exec, RustExp.eval,
      put_get, put_self, String.reduceEq, if_false, if_true, hco, hv, ok_bind, hget, andThen_next, hU]
    cases hr : (setPrimLeft ⟨p.size, .big⟩ 0 env.self co v).2 with
    | error e =>
      simp only [outcome, hr, Verif.andThen]
      simp only [RustStmt.left, RustExp.eval, put_get, put_self, String.reduceEq, if_false, if_true, hco, hC]
      rfl
    | ok u =>
      have hv' : setPrim ⟨p.size, .big⟩ 0 env.self co v =
          .ok (setPrimLeft ⟨p.size, .big⟩ 0 env.self co v).1 := by
        rw [← ho, outcome, hr]; rfl
      obtain ⟨h1, h2⟩ := setPrim_inside hv'
      have hl := setPrim_length hv'
      dsimp only at h2
      have h3 : co + p.size / 8 < usizeCard := by unfold SliceLen at hsl; unfold usizeCard; omega
      simp only [outcome, hr, Verif.andThen, Except.map, ok_bind, andThen_next, put_get, String.reduceEq, if_false,
        hco, uadd_lt h3]
      exact ih (i + 1) (co + p.size / 8) h3 _ (by rw [put_self]; simp only; omega) (by simp [put_get])
        (by simp [put_get, hv]) hdrop

theorem left_vecSet (W : RustWorld) (C : RustCalls) (p : Prim) (hasLength : Bool) (buf : Buf)
    (hsl : SliceLen buf.length) (vs : List Nat) (hvs : SliceLen vs.length)
    (hlt : ∀ co, W.co buf = .ok co → co < 2 ^ 64)
    (hw : ∀ b co v, W.writeOps b co v = setPrimU W.mode ⟨p.size, .big⟩ 0 b co v)
    (hC : C.writeOps = setPrimLeft ⟨p.size, .big⟩ 0) :
    leftAll W C (argEnv buf (some ("vals", .given (.nums vs))))
      (vecSetBody hasLength (decide (p.size = 8)) (p.size / 8)) =
    (reading buf (W.co buf) fun co =>
      reading buf (if hasLength then do
          let len ← W.packetLength buf
          if vs.length ≤ len then pure () else panic
        else pure ()) fun _ =>
      if p.size = 8 then atOnce buf (copyInto buf co (vs.map UInt8.ofNat)) else setElemsLeft p co vs buf).1 := by
  have copy : ∀ env : RustEnv, env.self = buf → ∀ co, co < 2 ^ 64 → env.get "current_offset" = some (.int co) →
      env.get "vals" = some (.given (.nums vs)) →
      leftAll W C env (copyVals (decide (p.size = 8)) (p.size / 8)) =
      (if p.size = 8 then atOnce buf (copyInto buf co (vs.map UInt8.ofNat)) else setElemsLeft p co vs buf).1 := by
    intro env hs co hlt' hc hv
    subst hs
    unfold copyVals
    by_cases h8 : p.size = 8
    · rw [if_pos h8, if_pos (by simpa using h8)]
      rw [← copyIntoU_eq W.mode hsl co (by simpa using hvs) hlt']
      simp only [leftAll, RustStmt.exec, RustExp.eval, hc, hv, ok_bind, copyIntoU, List.length_map]
      cases uadd W.mode co vs.length with
      | error e => rfl
      | ok b =>
        simp only [ok_bind]
        cases slice env.self co b with
        | error e => rfl
        | ok old =>
          simp only [ok_bind]
          by_cases hl : vs.length = old.length
          · rw [if_pos hl, if_pos hl]; rfl
          · rw [if_neg hl, if_neg hl]; rfl
    · rw [if_neg h8, if_neg (by simpa using h8)]
      have key := left_setLoop W C p vs env.self.length hsl hw hC vs 0 co hlt' (env.put "co" (.int co))
        (by rw [put_self]) (by simp [put_get]) (by simp [put_get, hv]) rfl
      rw [put_self] at key
      simp only [leftAll, RustStmt.exec, RustExp.eval, hc, hv, ok_bind, put_get, String.reduceEq, if_false]
      rcases run_setLoop W p vs env.self.length hsl (fun b co v _ _ _ => hw b co v) vs 0 co hlt'
        (env.put "co" (.int co)) (by rw [put_self]) (by simp [put_get]) (by simp [put_get, hv]) rfl with
        ⟨e, h1, h2⟩ | ⟨b, env', h1, h2, h3⟩
      · rw [h2]
        simp only [RustStmt.left, RustExp.eval, put_get, String.reduceEq, if_false, hv]
        exact key
      · rw [put_self, setElemsU_eq _ _ _ _ _ hsl hlt', ← setElems_outcome] at h1
        rw [h2]
        simp only
        rw [h3, outcome_fst h1]
  unfold vecSetBody checkLen
  simp only [leftAll, RustStmt.exec, RustExp.eval, argEnv, put_self, reading_fst]
  cases hcb : W.co buf with
  | error e => rfl
  | ok co =>
    cases hasLength with
    | false =>
      simp only [ok_bind, Bool.false_eq_true, if_false, List.nil_append]
      exact copy _ rfl co (hlt co hcb) (by simp [put_get]) (by simp [put_get])
    | true =>
      simp only [ok_bind, if_true, List.cons_append, List.nil_append, leftAll, RustStmt.exec,
        RustExp.eval, put_self]
      cases W.packetLength buf with
      | error e => rfl
      | ok len =>
        simp only [ok_bind, put_get, if_true, String.reduceEq, if_false]
        by_cases hl : vs.length ≤ len
        · rw [if_pos hl, if_pos hl]
          exact copy _ rfl co (hlt co hcb) (by simp [put_get]) (by simp [put_get])
        · rw [if_neg hl, if_neg hl]
          rfl

/-- The loop of a setter of packets. -/
theorem left_packetsLoop (W : RustWorld) (C : RustCalls) (hl : Leaves W.inner C.populate) (endOff : Nat)
    (vs : List Val) (cur : Nat) (env : RustEnv)
    (hc : env.get "current_offset" = some (.int cur)) (he : env.get "end" = some (.int endOff)) :
    eachLeft (fun v env => execAll W (env.put "val" (.given v)) packetsSetLoop)
      (fun v env => leftAll W C (env.put "val" (.given v)) packetsSetLoop) vs env =
      (setPacketsLeft W.mode W.inner C.populate endOff cur vs env.self).1 := by
  induction vs generalizing cur env with
  | nil => rfl
  | cons v vs ih =>
    simp only [eachLeft, setPacketsLeft, packetsSetLoop, execAll, leftAll, RustStmt.exec, RustExp.eval, put_get,
      put_self, String.reduceEq, if_false, hc, ok_bind]
    cases hs : sliceFrom env.self cur with
    | error e => rfl
    | ok sub =>
      have hsub : sub = env.self.drop cur ∧ cur ≤ env.self.length := by
        unfold sliceFrom at hs
        split at hs <;> cases hs
        exact ⟨rfl, by assumption⟩
      simp only [ok_bind, reading]
      by_cases hm : W.inner.minSize ≤ sub.length
      · simp only [if_pos hm, andThen_next, put_get, put_self, String.reduceEq, if_false, if_true]
        rw [← hsub.1, ← hl.same]
        cases hr : (C.populate W.mode sub v).2 with
        | error e =>
          simp only [outcome, hr, Verif.andThen, RustStmt.left, put_get, put_self, String.reduceEq, if_false,
            if_true, ← hsub.1]
          rfl
        | ok u =>
          have hd : (env.self.take cur ++ (C.populate W.mode sub v).1).drop cur = (C.populate W.mode sub v).1 := by
            rw [List.drop_append_of_le_length (by rw [List.length_take]; omega), List.drop_eq_nil_of_le
              (by rw [List.length_take]; omega), List.nil_append]
          simp only [outcome, hr, Verif.andThen, Except.map, ok_bind, andThen_next, put_get, String.reduceEq,
            if_false, if_true, hc, hd]
          cases W.inner.packetSize W.mode (C.populate W.mode sub v).1 with
          | error e => rfl
          | ok size =>
            simp only [ok_bind]
            cases uadd W.mode cur size with
            | error e => rfl
            | ok cur' =>
              simp only [ok_bind, andThen_next, put_get, String.reduceEq, if_false, if_true, he]
              by_cases hle : cur' ≤ endOff
              · simp only [if_pos hle, andThen_next]
                exact ih cur' _ (by simp [put_get]) (by simp [put_get, he])
              · simp only [if_neg hle]
                rfl
      · simp only [if_neg hm]
        rfl

theorem left_packetsSet (W : RustWorld) (C : RustCalls) (hl : Leaves W.inner C.populate) (buf : Buf)
    (vs : List Val) :
    leftAll W C (argEnv buf (some ("vals", .given (.list vs)))) packetsSetBody =
      (reading buf (W.co buf) fun co =>
        reading buf (W.packetLength buf) fun len =>
        reading buf (uadd W.mode co len) fun endOff =>
        setPacketsLeft W.mode W.inner C.populate endOff co vs buf).1 := by
  unfold packetsSetBody
  simp only [leftAll, RustStmt.exec, RustExp.eval, argEnv, put_self]
  cases W.co buf with
  | error e => rfl
  | ok co =>
    simp only [ok_bind, put_get, put_self, if_true, String.reduceEq, if_false, reading]
    cases W.packetLength buf with
    | error e => rfl
    | ok l =>
      simp only [ok_bind]
      cases uadd W.mode co l with
      | error e => rfl
      | ok b =>
        simp only [ok_bind, put_get, if_true, String.reduceEq, if_false]
        have key := left_packetsLoop W C hl b vs co ((((RustEnv.mk buf fun _ => none).put "vals"
          (.given (.list vs))).put "current_offset" (.int co)).put "end" (.int b)) (by simp [put_get])
          (by simp [put_get])
        simp only [put_self] at key
        rcases run_packetsLoop W b vs co ((((RustEnv.mk buf fun _ => none).put "vals" (.given (.list vs))).put
          "current_offset" (.int co)).put "end" (.int b)) (by simp [put_get]) (by simp [put_get]) with
          ⟨e, h1, h2⟩ | ⟨b', env', h1, h2, h3⟩
        · rw [h2]
          simp only [RustStmt.left, put_get, String.reduceEq, if_false, if_true]
          exact key
        · simp only [put_self] at h1
          rw [← setPackets_outcome hl] at h1
          rw [h2]
          simp only
          rw [h3, outcome_fst h1]

/-! ## Writes that run past the end of the buffer -/

theorem index_append_lt {buf ext : Buf} {i : Nat} (h : i < buf.length) : index (buf ++ ext) i = index buf i := by
  unfold index
  rw [List.getElem?_append_left h]

theorem index_ge {buf : Buf} {i : Nat} (h : buf.length ≤ i) : index buf i = panic := by
  unfold index
  rw [List.getElem?_eq_none h]

/-- The operations on the buffer and on a longer one. -/
theorem setOps_torn {W co v : Nat} (ops : List SetOperation) (idx : Nat) (buf ext new : Buf)
    (h : setOpsFrom W co v idx ops (buf ++ ext) = .ok new) :
    (setOpsLeft W co v idx ops buf).1 = new.take buf.length ∧
    (Failed (setOpsLeft W co v idx ops buf) → buf.length < co + idx + ops.length) := by
  induction ops generalizing idx buf with
  | nil =>
    cases h
    exact ⟨(by simp [setOpsLeft]), fun ⟨e, he⟩ => by cases he⟩
  | cons op ops ih =>
    by_cases hi : co + idx < buf.length
    · rw [setOpsFrom, index_append_lt hi] at h
      rw [setOpsLeft]
      cases hx : index buf (co + idx) with
      | error e => rw [hx] at h; cases h
      | ok old =>
        rw [hx, ok_bind] at h
        cases hv : op.eval W old.toNat v with
        | error e => rw [hv] at h; cases h
        | ok byte =>
          rw [hv, ok_bind] at h
          unfold setIndex at h ⊢
          rw [if_pos (by rw [List.length_append]; omega), ok_bind, List.set_append_left _ _ hi] at h
          have := ih (idx + 1) (buf.set (co + idx) (UInt8.ofNat byte)) h
          rw [List.length_set] at this
          simp only [reading, hv, if_pos hi, atOnce, Verif.andThen, List.length_cons]
          exact ⟨this.1, fun hf => by have := this.2 hf; omega⟩
    · have hk := setOps_kept (W := W) (v := v) (a := buf.length) (x := buf ++ ext) (co := co + idx) (op :: ops) 0
        (buf ++ ext) (Kept.refl _ _) (by omega)
      have hshift : ∀ (ops : List SetOperation) (i : Nat) (b : Buf),
          setOpsLeft W (co + idx) v i ops b = setOpsLeft W co v (idx + i) ops b := by
        intro ops
        induction ops with
        | nil => intro i b; rfl
        | cons o os ih =>
          intro i b
          simp only [setOpsLeft, ih, Nat.add_assoc]
      rw [hshift, Nat.add_zero] at hk
      rw [← setOps_outcome] at h
      rw [outcome_fst h] at hk
      have hl : setOpsLeft W co v idx (op :: ops) buf = (buf, panic) := by
        rw [setOpsLeft, index_ge (by omega)]; rfl
      rw [hl]
      refine ⟨?_, fun _ => by rw [List.length_cons]; omega⟩
      rw [hk.2, List.take_left]

theorem setPrim_torn {p : Prim} {s co v : Nat} {buf ext new : Buf} (h : setPrim p s (buf ++ ext) co v = .ok new) :
    (setPrimLeft p s buf co v).1 = new.take buf.length ∧
    (Failed (setPrimLeft p s buf co v) → buf.length < co + numBytes s p.size) := by
  unfold setPrim at h
  unfold setPrimLeft
  cases ho : operations s p.size p.endian with
  | none => rw [ho] at h; cases h
  | some ops =>
    rw [ho] at h
    have := setOps_torn _ 0 buf ext new h
    simp only [toMutator, List.length_map, (operations_length ho).1, Nat.add_zero] at this
    exact this

theorem setElems_torn {p : Prim} (vs : List Nat) (co : Nat) (buf ext new : Buf)
    (h : setElems p co vs (buf ++ ext) = .ok new) :
    (setElemsLeft p co vs buf).1 = new.take buf.length := by
  induction vs generalizing co buf ext with
  | nil => cases h; simp [setElemsLeft]
  | cons v vs ih =>
    rw [setElems] at h
    rw [setElemsLeft]
    cases hp : setPrim ⟨p.size, .big⟩ 0 (buf ++ ext) co v with
    | error e => rw [hp] at h; cases h
    | ok b1 =>
      rw [hp, ok_bind] at h
      obtain ⟨h1, h2⟩ := setPrim_torn hp
      have hl := setPrim_length hp
      rw [List.length_append] at hl
      simp only [Verif.andThen]
      cases hr : (setPrimLeft ⟨p.size, .big⟩ 0 buf co v).2 with
      | ok u =>
        simp only
        have hb : b1 = b1.take buf.length ++ b1.drop buf.length := (List.take_append_drop _ _).symm
        rw [hb] at h
        rw [h1]
        have := ih _ _ _ h
        rw [this, List.length_take, hl]
        congr 1
        omega
      | error e =>
        simp only
        rw [h1]
        have hge := h2 ⟨e, hr⟩
        have hn : numBytes 0 p.size ≤ p.size / 8 + 1 := by
          unfold numBytes
          split <;> omega
        dsimp only at hge
        have hk := setElems_kept (p := p) (a := buf.length) (x := b1) vs (co + p.size / 8) b1 (Kept.refl _ _)
          (by omega)
        rw [← setElems_outcome] at h
        rw [outcome_fst h] at hk
        exact hk.2.symm

end Verif
