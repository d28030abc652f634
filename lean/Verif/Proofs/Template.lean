import Verif.Model.Template
import Verif.Proofs.Index

/-! # Lemmas about the generated methods -/

namespace Verif
open Spec

theorem put_get (env : RustEnv) (x y : String) (v : RustVal) :
    (env.put x v).get y = if y = x then some v else env.get y := rfl

theorem put_self (env : RustEnv) (x : String) (v : RustVal) : (env.put x v).self = env.self := rfl

@[simp] theorem andThen_error (e : Fail) (k : RustEnv → Res RustFlow) :
    RustFlow.andThen (.error e) k = .error e := rfl
@[simp] theorem andThen_panic (k : RustEnv → Res RustFlow) : RustFlow.andThen panic k = panic := rfl
@[simp] theorem andThen_next (env : RustEnv) (k : RustEnv → Res RustFlow) :
    RustFlow.andThen (.ok (.next env)) k = k env := rfl
@[simp] theorem andThen_ret (v : RustVal) (s : Buf) (k : RustEnv → Res RustFlow) :
    RustFlow.andThen (.ok (.ret v s)) k = .ok (.ret v s) := rfl

theorem eval_var {W : RustWorld} {env : RustEnv} {x : String} {n : Nat} (h : env.get x = some (.int n)) :
    (RustExp.var x).eval W env = .ok n := by simp only [RustExp.eval, h]

/-- `get_<field>_raw`. -/
theorem run_raw (W : RustWorld) (buf : Buf) :
    runMethod W rawBody buf none = (varSlice W.mode buf (W.co buf) (W.packetLength buf)).map fun s => (.bytes s, buf) := by
  unfold runMethod rawBody endExp varSlice
  simp only [execAll, RustStmt.exec, RustExp.eval, argEnv]
  cases W.co buf with
  | error e => rfl
  | ok a =>
    simp only [ok_bind, andThen_next, put_get, put_self, if_true]
    cases W.packetLength buf with
    | error e => rfl
    | ok l =>
      simp only [ok_bind]
      cases uadd W.mode a l with
      | error e => rfl
      | ok b =>
        simp only [ok_bind, andThen_next, put_get, put_self, if_true, String.reduceEq, if_false]
        cases slice buf a (min b buf.length) <;> rfl

theorem uadd_range {m : Mode} {a b c : Nat} (h : uadd m a b = .ok c) : c < 2 ^ 64 := by
  unfold uadd at h
  split at h
  · rename_i h'
    cases h
    exact h'
  · cases m
    · cases h
    · cases h
      exact Nat.mod_lt _ (by decide)

theorem slice_short {buf new : Buf} {a b : Nat} (h : slice buf a b = .ok new) : new.length ≤ buf.length := by
  unfold slice at h
  split at h
  · cases h
    simp only [List.length_drop, List.length_take]
    omega
  · cases h

/-- The loop of a vector getter. -/
theorem run_getLoop (W : RustWorld) (p : Prim) (packet : Buf)
    (hr : ∀ co, co < 2 ^ 64 → W.readOps packet co = getPrimU W.mode ⟨p.size, .big⟩ 0 packet co)
    (n i co : Nat) (hlt : co < 2 ^ 64) (env : RustEnv) (ns : List Nat) (c : Nat)
    (hco : env.get "co" = some (.int co)) (hp : env.get "packet" = some (.bytes packet))
    (hv : env.get "vec" = some (.vec ns c)) (hc : ns.length + n ≤ c) :
    (∃ e, getElemsU W.mode p packet n co = .error e ∧
      rustLoop (fun k env => execAll W (env.put "_" (.int k)) (vecGetLoop (p.size / 8)))
        n i env = .error e) ∨
    ∃ vs env', getElemsU W.mode p packet n co = .ok vs ∧
      rustLoop (fun k env => execAll W (env.put "_" (.int k)) (vecGetLoop (p.size / 8)))
        n i env = .ok (.next env') ∧ env'.get "vec" = some (.vec (ns ++ vs) c) ∧ env'.self = env.self := by
  induction n generalizing i co env ns with
  | zero => exact .inr ⟨[], env, rfl, rfl, by simpa using hv, rfl⟩
  | succ n ih =>
    have step : execAll W (env.put "_" (.int i)) (vecGetLoop (p.size / 8)) = (do
        let v ← getPrimU W.mode ⟨p.size, .big⟩ 0 packet co
        let co' ← uadd W.mode co (p.size / 8)
        .ok (.next (((env.put "_" (.int i)).put "vec" (.vec (ns ++ [v]) c)).put "co" (.int co')))) := by
      simp only [vecGetLoop, execAll, RustStmt.exec, RustExp.eval, put_get, String.reduceEq, if_false, hco, hp, hv,
        ok_bind, hr co hlt]
      cases hg : getPrimU W.mode ⟨p.size, .big⟩ 0 packet co with
      | error e => rfl
      | ok v =>
        simp only [ok_bind, andThen_next, put_get, String.reduceEq, if_false, hco, if_pos (show ns.length < c by omega)]
        cases hu : uadd W.mode co (p.size / 8) <;> rfl
    simp only [getElemsU, rustLoop, step]
    cases hg : getPrimU W.mode ⟨p.size, .big⟩ 0 packet co with
    | error e => exact .inl ⟨e, rfl, rfl⟩
    | ok v =>
      simp only [ok_bind]
      cases hu : uadd W.mode co (p.size / 8) with
      | error e => exact .inl ⟨e, rfl, rfl⟩
      | ok co' =>
        simp only [ok_bind, andThen_next]
        have := ih (i + 1) co' (uadd_range hu) ((((env.put "_" (.int i)).put "vec" (.vec (ns ++ [v]) c))).put "co" (.int co')) (ns ++ [v])
          (by simp [put_get]) (by simp [put_get, hp]) (by simp [put_get]) (by simp; omega)
        rcases this with ⟨e, h1, h2⟩ | ⟨vs, env', h1, h2, h3, h4⟩
        · left
          exact ⟨e, by rw [h1]; rfl, h2⟩
        · right
          exact ⟨v :: vs, env', by rw [h1]; rfl, h2, by simpa using h3, h4⟩

/-- `get_<field>` of a vector of integers. -/
theorem run_vecGet (W : RustWorld) (p : Prim) (buf : Buf)
    (hr : ∀ b co, b.length ≤ buf.length → co < 2 ^ 64 → W.readOps b co = getPrimU W.mode ⟨p.size, .big⟩ 0 b co) :
    runMethod W (vecGetBody (p.size / 8)) buf none = (do
      let packet ← varSlice W.mode buf (W.co buf) (W.packetLength buf)
      let ns ← getElemsU W.mode p packet (W.cap packet.length) 0
      .ok (.vec ns (W.cap packet.length), buf)) := by
  unfold runMethod vecGetBody varSlice
  simp only [execAll, RustStmt.exec, RustExp.eval, argEnv]
  cases W.co buf with
  | error e => rfl
  | ok a =>
    simp only [ok_bind, andThen_next, put_get, put_self, if_true, String.reduceEq, if_false]
    cases W.packetLength buf with
    | error e => rfl
    | ok l =>
      simp only [ok_bind]
      cases uadd W.mode a l with
      | error e => rfl
      | ok b =>
        simp only [ok_bind, andThen_next, put_get, put_self, if_true, String.reduceEq, if_false]
        cases hs : slice buf a (min b buf.length) with
        | error e => rfl
        | ok packet =>
          simp only [ok_bind, andThen_next, put_get, if_true, String.reduceEq, if_false]
          rcases run_getLoop W p packet (fun co => hr packet co (slice_short hs)) (W.cap packet.length) 0 0 (by decide)
            (((((((RustEnv.mk buf fun _ => none).put "current_offset" (.int a)).put "pkt_len" (.int buf.length)).put
              "end" (.int (min b buf.length))).put "packet" (.bytes packet)).put "vec" (.vec [] (W.cap packet.length))).put
              "co" (.int 0)) [] (W.cap packet.length)
            (by simp [put_get]) (by simp [put_get]) (by simp [put_get]) (by simp) with ⟨e, h1, h2⟩ | ⟨vs, env', h1, h2, h3, h4⟩
          · rw [h2, h1]; rfl
          · rw [h2, h1]
            simp only [andThen_next, h3, ok_bind, List.nil_append, h4]
            rfl

/-- The loop of a vector setter. -/
theorem run_setLoop (W : RustWorld) (p : Prim) (all : List Nat) (n : Nat) (hsl : SliceLen n)
    (hw : ∀ b co v, b.length = n → co < 2 ^ 64 → v ∈ all → W.writeOps b co v = setPrimU W.mode ⟨p.size, .big⟩ 0 b co v)
    (vs : List Nat) (i co : Nat) (hlt : co < 2 ^ 64) (env : RustEnv) (hn : env.self.length = n) (hco : env.get "co" = some (.int co))
    (hv : env.get "vals" = some (.given (.nums all))) (hi : all.drop i = vs) :
    (∃ e, setElemsU W.mode p co vs env.self = .error e ∧
      rustLoop (fun k env => execAll W (env.put "i" (.int k)) (vecSetLoop (p.size / 8))) vs.length i env = .error e) ∨
    ∃ buf env', setElemsU W.mode p co vs env.self = .ok buf ∧
      rustLoop (fun k env => execAll W (env.put "i" (.int k)) (vecSetLoop (p.size / 8))) vs.length i env = .ok (.next env') ∧
      env'.self = buf := by
  induction vs generalizing i co env with
  | nil => exact .inr ⟨env.self, env, rfl, rfl, rfl⟩
  | cons v vs ih =>
    have hget : all[i]? = some v := by
      rw [← List.head?_drop, hi]; rfl
    have hdrop : all.drop (i + 1) = vs := by
      rw [← List.tail_drop, hi]; rfl
    have step : execAll W (env.put "i" (.int i)) (vecSetLoop (p.size / 8)) = (do
        let b ← setPrimU W.mode ⟨p.size, .big⟩ 0 env.self co v
        let co' ← uadd W.mode co (p.size / 8)
        .ok (.next (RustEnv.put ⟨b, ((env.put "i" (.int i)).put "val" (.int v)).get⟩ "co" (.int co')))) := by
      simp only [vecSetLoop, execAll, RustStmt.exec, RustExp.eval, put_get, String.reduceEq, if_false, if_true, hco, hv,
        ok_bind, hget, andThen_next, put_self, hw env.self co v hn hlt (List.mem_of_getElem? hget)]
      cases setPrimU W.mode ⟨p.size, .big⟩ 0 env.self co v with
      | error e => rfl
      | ok b =>
        simp only [ok_bind, andThen_next, put_get, String.reduceEq, if_false, hco]
        cases uadd W.mode co (p.size / 8) <;> rfl
    simp only [setElemsU, rustLoop, step, List.length_cons]
    cases hg : setPrimU W.mode ⟨p.size, .big⟩ 0 env.self co v with
    | error e => exact .inl ⟨e, rfl, rfl⟩
    | ok b =>
      simp only [ok_bind]
      cases hu : uadd W.mode co (p.size / 8) with
      | error e => exact .inl ⟨e, rfl, rfl⟩
      | ok co' =>
        simp only [ok_bind, andThen_next]
        exact ih (i + 1) co' (uadd_range hu) (RustEnv.put ⟨b, ((env.put "i" (.int i)).put "val" (.int v)).get⟩ "co" (.int co'))
          (by rw [setPrimU_eq W.mode _ 0 (hn ▸ hsl) co v hlt] at hg; rw [put_self, ← hn]; exact setPrim_length hg) (by simp [put_get]) (by simp [put_get, hv]) hdrop

/-- The value a method without result returns. -/
def unitOf (r : Res Buf) : Res (RustVal × Buf) := r.map fun b => (.unit, b)

/-- `set_<field>` of a vector of integers. -/
theorem run_vecSet (W : RustWorld) (p : Prim) (hasLength : Bool) (buf : Buf) (hsl : SliceLen buf.length) (vs : List Nat)
    (hlt : ∀ co, W.co buf = .ok co → co < 2 ^ 64)
    (hw : p.size ≠ 8 → ∀ b co v, b.length = buf.length → co < 2 ^ 64 → v ∈ vs →
      W.writeOps b co v = setPrimU W.mode ⟨p.size, .big⟩ 0 b co v) :
    runMethod W (vecSetBody hasLength (decide (p.size = 8)) (p.size / 8)) buf (some ("vals", .given (.nums vs))) =
    unitOf (do
      let co ← W.co buf
      if hasLength then
        let len ← W.packetLength buf
        if vs.length ≤ len then pure () else panic
      if p.size = 8 then copyIntoU W.mode buf co (vs.map UInt8.ofNat) else setElemsU W.mode p co vs buf) := by
  have copy : ∀ env : RustEnv, env.self = buf → ∀ co, co < 2 ^ 64 → env.get "current_offset" = some (.int co) →
      env.get "vals" = some (.given (.nums vs)) →
      RustFlow.finish (execAll W env (copyVals (decide (p.size = 8)) (p.size / 8))) =
      unitOf (if p.size = 8 then copyIntoU W.mode buf co (vs.map UInt8.ofNat) else setElemsU W.mode p co vs buf) := by
    intro env hs co hlt' hc hv
    subst hs
    unfold copyVals
    by_cases h8 : p.size = 8
    · rw [if_pos h8, if_pos (by simpa using h8)]
      simp only [execAll, RustStmt.exec, RustExp.eval, hc, hv, ok_bind, copyIntoU, List.length_map]
      cases uadd W.mode co vs.length with
      | error e => rfl
      | ok b =>
        simp only [ok_bind]
        cases slice env.self co b with
        | error e => rfl
        | ok old =>
          simp only [ok_bind]
          by_cases hl : vs.length = old.length
          · rw [if_pos hl, if_pos hl]; rfl
          · rw [if_neg hl, if_neg hl]; rfl
    · rw [if_neg h8, if_neg (by simpa using h8)]
      simp only [execAll, RustStmt.exec, RustExp.eval, hc, hv, ok_bind, andThen_next, put_get, String.reduceEq, if_false]
      rcases run_setLoop W p vs env.self.length hsl (hw h8) vs 0 co hlt' (env.put "co" (.int co)) (by rw [put_self]) (by simp [put_get]) (by simp [put_get, hv]) rfl with
        ⟨e, h1, h2⟩ | ⟨b, env', h1, h2, h3⟩
      · rw [put_self] at h1
        rw [h1, h2]; rfl
      · rw [put_self] at h1
        rw [h1, h2]
        simp only [andThen_next, ← h3]
        rfl
  unfold runMethod vecSetBody checkLen
  simp only [execAll, RustStmt.exec, RustExp.eval, argEnv, put_self]
  cases hcb : W.co buf with
  | error e => rfl
  | ok co =>
    cases hasLength with
    | false =>
      simp only [ok_bind, andThen_next, Bool.false_eq_true, if_false, List.nil_append]
      rw [copy _ rfl co (hlt co hcb) (by simp [put_get]) (by simp [put_get])]
    | true =>
      simp only [ok_bind, andThen_next, if_true, List.cons_append, List.nil_append, execAll, RustStmt.exec,
        RustExp.eval, put_self]
      cases W.packetLength buf with
      | error e => rfl
      | ok len =>
        simp only [ok_bind, andThen_next, put_get, if_true, String.reduceEq, if_false]
        by_cases hl : vs.length ≤ len
        · rw [if_pos hl, if_pos hl]
          simp only [andThen_next]
          rw [copy _ rfl co (hlt co hcb) (by simp [put_get]) (by simp [put_get])]
        · rw [if_neg hl, if_neg hl]
          rfl

/-- The loop of a setter of packets. -/
theorem run_packetsLoop (W : RustWorld) (endOff : Nat) (vs : List Val) (cur : Nat) (env : RustEnv)
    (hc : env.get "current_offset" = some (.int cur)) (he : env.get "end" = some (.int endOff)) :
    (∃ e, setPackets W.mode W.inner endOff cur vs env.self = .error e ∧
      rustEach (fun v env => execAll W (env.put "val" (.given v)) packetsSetLoop) vs env = .error e) ∨
    ∃ buf env', setPackets W.mode W.inner endOff cur vs env.self = .ok buf ∧
      rustEach (fun v env => execAll W (env.put "val" (.given v)) packetsSetLoop) vs env = .ok (.next env') ∧
      env'.self = buf := by
  induction vs generalizing cur env with
  | nil => exact .inr ⟨env.self, env, rfl, rfl, rfl⟩
  | cons v vs ih =>
    have step : execAll W (env.put "val" (.given v)) packetsSetLoop = (do
        let sub ← sliceFrom env.self cur
        if W.inner.minSize ≤ sub.length then do
          let sub ← W.inner.populate W.mode sub v
          let size ← W.inner.packetSize W.mode sub
          let cur' ← uadd W.mode cur size
          if cur' ≤ endOff then
            .ok (.next (RustEnv.put ⟨env.self.take cur ++ sub,
              ((env.put "val" (.given v)).put "packet" (.packetAt cur)).get⟩ "current_offset" (.int cur')))
          else panic
        else panic) := by
      simp only [packetsSetLoop, execAll, RustStmt.exec, RustExp.eval, put_get, put_self, String.reduceEq, if_false,
        hc, ok_bind]
      cases hs : sliceFrom env.self cur with
      | error e => rfl
      | ok sub =>
        have hsub : sub = env.self.drop cur ∧ cur ≤ env.self.length := by
          unfold sliceFrom at hs
          split at hs <;> cases hs
          exact ⟨rfl, by assumption⟩
        simp only [ok_bind]
        by_cases hm : W.inner.minSize ≤ sub.length
        · simp only [if_pos hm, andThen_next, put_get, put_self, String.reduceEq, if_false, if_true]
          rw [← hsub.1]
          cases W.inner.populate W.mode sub v with
          | error e => rfl
          | ok sub' =>
            have hd : (env.self.take cur ++ sub').drop cur = sub' := by
              rw [List.drop_append_of_le_length (by rw [List.length_take]; omega), List.drop_eq_nil_of_le
                (by rw [List.length_take]; omega), List.nil_append]
            simp only [ok_bind, andThen_next, put_get, String.reduceEq, if_false, if_true, hc, hd]
            cases W.inner.packetSize W.mode sub' with
            | error e => rfl
            | ok size =>
              simp only [ok_bind]
              cases uadd W.mode cur size with
              | error e => rfl
              | ok cur' =>
                simp only [ok_bind, andThen_next, put_get, String.reduceEq, if_false, if_true, he]
                by_cases hle : cur' ≤ endOff
                · simp only [if_pos hle, andThen_next]
                · simp only [if_neg hle, andThen_panic]
        · simp only [if_neg hm, andThen_panic]
    simp only [setPackets, rustEach, step]
    cases hs : sliceFrom env.self cur with
    | error e => exact .inl ⟨e, rfl, rfl⟩
    | ok sub =>
      simp only [ok_bind]
      by_cases hm : W.inner.minSize ≤ sub.length
      · simp only [if_pos hm]
        cases hp : W.inner.populate W.mode sub v with
        | error e => exact .inl ⟨e, rfl, rfl⟩
        | ok sub' =>
          simp only [ok_bind]
          cases W.inner.packetSize W.mode sub' with
          | error e => exact .inl ⟨e, rfl, rfl⟩
          | ok size =>
            simp only [ok_bind]
            cases uadd W.mode cur size with
            | error e => exact .inl ⟨e, rfl, rfl⟩
            | ok cur' =>
              simp only [ok_bind]
              by_cases hle : cur' ≤ endOff
              · simp only [if_pos hle, andThen_next]
                exact ih cur' (RustEnv.put ⟨env.self.take cur ++ sub',
                  ((env.put "val" (.given v)).put "packet" (.packetAt cur)).get⟩ "current_offset" (.int cur'))
                  (by simp [put_get]) (by simp [put_get, he])
              · simp only [if_neg hle, andThen_panic]
                exact .inl ⟨_, rfl, rfl⟩
      · simp only [if_neg hm, andThen_panic]
        exact .inl ⟨_, rfl, rfl⟩

/-- `set_<field>` of a vector of packets. -/
theorem run_packetsSet (W : RustWorld) (buf : Buf) (vs : List Val) :
    runMethod W packetsSetBody buf (some ("vals", .given (.list vs))) = unitOf (do
      let co ← W.co buf
      let len ← W.packetLength buf
      let endOff ← uadd W.mode co len
      setPackets W.mode W.inner endOff co vs buf) := by
  unfold runMethod packetsSetBody
  simp only [execAll, RustStmt.exec, RustExp.eval, argEnv, put_self]
  cases W.co buf with
  | error e => rfl
  | ok co =>
    simp only [ok_bind, andThen_next, put_get, put_self, if_true, String.reduceEq, if_false]
    cases W.packetLength buf with
    | error e => rfl
    | ok l =>
      simp only [ok_bind]
      cases uadd W.mode co l with
      | error e => rfl
      | ok b =>
        simp only [ok_bind, andThen_next, put_get, if_true, String.reduceEq, if_false]
        rcases run_packetsLoop W b vs co ((((RustEnv.mk buf fun _ => none).put "vals" (.given (.list vs))).put
          "current_offset" (.int co)).put "end" (.int b)) (by simp [put_get]) (by simp [put_get]) with
          ⟨e, h1, h2⟩ | ⟨b, env', h1, h2, h3⟩
        · simp only [put_self] at h1
          rw [h1, h2]; rfl
        · simp only [put_self] at h1
          rw [h1, h2]
          simp only [andThen_next, ← h3]
          rfl

/-- `payload` and `payload_mut`. -/
theorem run_payload (W : RustWorld) (buf : Buf) (lower upper : RustExp) (lo up : Res Nat)
    (hl : ∀ env : RustEnv, env.self = buf → lower.eval W env = lo)
    (hu : ∀ env : RustEnv, env.self = buf → upper.eval W env = up) :
    runMethod W (payloadBody lower upper) buf none = (do
      let lower ← lo
      let upper ← up
      let s ← if buf.length ≤ lower then .ok [] else slice buf lower (min upper buf.length)
      .ok (.bytes s, buf)) := by
  unfold runMethod payloadBody
  simp only [execAll, RustStmt.exec, RustExp.eval, argEnv]
  rw [hl _ rfl]
  cases lo with
  | error e => rfl
  | ok a =>
    simp only [ok_bind, andThen_next]
    rw [hu _ rfl]
    cases up with
    | error e => rfl
    | ok b =>
      simp only [ok_bind, andThen_next, put_get, put_self, if_true, String.reduceEq, if_false]
      by_cases hle : buf.length ≤ a
      · rw [if_pos hle]
        exact congrArg RustFlow.finish (congrArg (fun r => RustFlow.andThen r _) (if_pos hle))
      · rw [if_neg hle]
        refine (congrArg RustFlow.finish (congrArg (fun r => RustFlow.andThen r _) (if_neg hle))).trans ?_
        simp only [andThen_next, put_get, put_self, if_true, String.reduceEq, if_false, ok_bind]
        cases slice buf a (min b buf.length) <;> rfl

/-- What `next` returns. -/
def nextVal : Buf → Option (Buf × Buf) → RustVal × Buf
  | _, some (p, rest) => (.some (.bytes p), rest)
  | buf, none => (.none, buf)

/-- `next` of an iterator. -/
theorem run_next (W : RustWorld) (buf : Buf) :
    runMethod W nextBody buf none = (W.inner.next W.mode buf).map (nextVal buf) := by
  unfold runMethod nextBody Codec.next
  simp only [execAll, RustStmt.exec, RustExp.eval, argEnv, ok_bind]
  by_cases h1 : 1 ≤ buf.length
  · by_cases h2 : W.inner.minSize ≤ buf.length
    · rw [if_pos (show buf.length > 0 ∧ W.inner.minSize ≤ buf.length from ⟨h1, h2⟩)]
      simp only [if_pos h1, if_pos h2, put_get, put_self, if_true]
      cases W.inner.packetSize W.mode buf with
      | error e => rfl
      | ok size =>
        simp only [ok_bind, andThen_next, put_get, put_self, if_true]
        cases sliceFrom buf (min size buf.length) with
        | error e => rfl
        | ok rest =>
          simp only [ok_bind, andThen_next, put_get, String.reduceEq, if_false, if_true, andThen_ret]
          rfl
    · rw [if_neg (fun h : buf.length > 0 ∧ W.inner.minSize ≤ buf.length => h2 h.2)]
      simp only [if_pos h1]
      exact congrArg RustFlow.finish (congrArg (fun r => RustFlow.andThen (RustFlow.andThen r _) _) (if_neg h2))
  · rw [if_neg (fun h : buf.length > 0 ∧ W.inner.minSize ≤ buf.length => h1 h.1)]
    simp only [if_neg h1, andThen_next]
    rfl

/-- `get_<field>` of an integer, and `get_arg<i>`. -/
theorem run_intGet (W : RustWorld) (buf : Buf) :
    runMethod W intGetBody buf none = (do
      let co ← W.co buf
      let n ← W.readOps buf co
      .ok (.int n, buf)) := by
  unfold runMethod intGetBody
  simp only [execAll, RustStmt.exec, RustExp.eval, argEnv]
  cases W.co buf with
  | error e => rfl
  | ok co =>
    simp only [ok_bind, andThen_next, put_get, put_self, if_true]
    cases W.readOps buf co <;> rfl

/-- `set_<field>` of an integer, and `set_arg<i>`. -/
theorem run_intSet (W : RustWorld) (buf : Buf) (v : Nat) :
    runMethod W intSetBody buf (some ("val", .int v)) = unitOf (do
      let co ← W.co buf
      W.writeOps buf co v) := by
  unfold runMethod intSetBody
  simp only [execAll, RustStmt.exec, RustExp.eval, argEnv, put_self]
  cases W.co buf with
  | error e => rfl
  | ok co =>
    simp only [ok_bind, andThen_next, put_get, put_self, if_true, String.reduceEq, if_false]
    cases W.writeOps buf co v <;> rfl

/-- The calls `set_arg<i>(self, vals.<i>)` one after the other. -/
def callSets : List (Buf → Nat → Res Buf) → List Nat → Buf → Res Buf
  | f :: fs, v :: vs, buf => do callSets fs vs (← f buf v)
  | _, _, buf => .ok buf

theorem run_sets (W : RustWorld) (fs : List (Buf → Nat → Res Buf)) (vs all : List Nat) (i : Nat) (env : RustEnv)
    (hv : env.get "vals" = some (.given (.nums all))) (hi : all.drop i = vs) (hf : W.setArgs.drop i = fs)
    (hlen : vs.length = fs.length) :
    (∃ e, callSets fs vs env.self = .error e ∧
      execAll W env ((List.range' i fs.length).map fun i => .callSet i "vals") = .error e) ∨
    ∃ buf env', callSets fs vs env.self = .ok buf ∧
      execAll W env ((List.range' i fs.length).map fun i => .callSet i "vals") = .ok (.next env') ∧ env'.self = buf := by
  induction fs generalizing i vs env with
  | nil => exact .inr ⟨env.self, env, by simp [callSets], rfl, rfl⟩
  | cons f fs ih =>
    cases vs with
    | nil => simp at hlen
    | cons v vs =>
      have hget : all[i]? = some v := by rw [← List.head?_drop, hi]; rfl
      have hdrop : all.drop (i + 1) = vs := by rw [← List.tail_drop, hi]; rfl
      have hget' : W.setArgs[i]? = some f := by rw [← List.head?_drop, hf]; rfl
      have hdrop' : W.setArgs.drop (i + 1) = fs := by rw [← List.tail_drop, hf]; rfl
      simp only [callSets, List.length_cons, List.range'_succ, List.map_cons, execAll, RustStmt.exec, hv, hget, hget']
      cases f env.self v with
      | error e => exact .inl ⟨e, rfl, rfl⟩
      | ok b =>
        simp only [ok_bind, andThen_next]
        exact ih vs (i + 1) ⟨b, env.get⟩ hv hdrop hdrop' (by simpa using hlen)

/-- `set_<field>` of a user-defined type. -/
theorem run_miscSet (W : RustWorld) (buf : Buf) (vs : List Nat) (hlen : vs.length = W.setArgs.length) :
    runMethod W (miscSetBody W.setArgs.length) buf (some ("val", .given (.nums vs))) =
      unitOf (callSets W.setArgs vs buf) := by
  unfold runMethod miscSetBody
  simp only [execAll, RustStmt.exec, argEnv, put_get, if_true, andThen_next, List.range_eq_range']
  rcases run_sets W W.setArgs vs vs 0 (((RustEnv.mk buf fun _ => none).put "val" (.given (.nums vs))).put
    "vals" (.given (.nums vs))) (by simp [put_get]) rfl rfl hlen with ⟨e, h1, h2⟩ | ⟨b, env', h1, h2, h3⟩
  · simp only [put_self] at h1
    rw [h1, h2]; rfl
  · simp only [put_self] at h1
    rw [h1, h2]
    rw [← h3]
    rfl

/-- `get_<field>` of a user-defined type. -/
theorem run_miscGet (W : RustWorld) (buf : Buf) :
    runMethod W miscGetBody buf none =
      (W.getArgs.mapM fun (get : Buf → Res Nat) => get buf).map fun ns => (.given (.nums ns), buf) := by
  unfold runMethod miscGetBody
  simp only [execAll, RustStmt.exec, argEnv]
  cases W.getArgs.mapM (fun (get : Buf → Res Nat) => get buf) <;> rfl

end Verif
