import Verif.Proofs.UnwindStmts
import Verif.Props.Unwind

/-!
# C124: what the generated statements leave when they panic

The bodies are those of `Model/Template`, and `Spec/MiniLeft` says what is in the buffer when one of their
statements panics. Here this is compared with `Decl.setLeft`, with which C122 and C123 are stated.
-/

set_option autoImplicit false

namespace Verif.Props
open Spec

/-- The functions called from the setter of an integer: the block for its type, see `gen_set_ops`. -/
def intCalls (p : Prim) (bit : Nat) : RustCalls where
  writeOps := setPrimLeft p (bit % 8)
  populate _ buf _ := (buf, panic)
  setArgs := []

/-- The functions `set_arg<i>`; every argument begins where the one before it ends. -/
def argLefts (d : Decl) (m : Mode) (cap : Capacity) (k : Nat) : (bit : Nat) → List Prim → List (Buf → Nat → Left)
  | _, [] => []
  | bit, p :: ps =>
    (fun b v => runLeft (intWorld d m cap k bit p) (intCalls p bit) intSetBody b (some ("val", .int v))) ::
    argLefts d m cap k (bit + p.size) ps

/-- What is called from the setter of field `k`; `pop k` is `populate` of its elements. -/
def fieldCalls (d : Decl) (pop : Nat → PopulateLeft) (m : Mode) (cap : Capacity) (k : Nat) (f : Field) :
    RustCalls where
  writeOps :=
    match f.ty with
    | .prim p => setPrimLeft p (firstBit d k % 8)
    | .vecPrim p => setPrimLeft ⟨p.size, .big⟩ 0
    | _ => fun buf _ _ => (buf, panic)
  populate := pop k
  setArgs :=
    match f.ty with
    | .misc args => argLefts d m cap k (firstBit d k) args
    | _ => []

theorem argLeft_run (d : Decl) (m : Mode) (cap : Capacity) (k bit : Nat) (p : Prim) (hb : bit < 2 ^ 64)
    (b : Buf) (hsl : SliceLen b.length) (v : Nat) :
    runLeft (intWorld d m cap k bit p) (intCalls p bit) intSetBody b (some ("val", .int v)) =
      reading b (curOff m bit (d.before m b k).lens) fun co => setPrimLeft p (bit % 8) b co v := by
  have hw : ∀ co, (intWorld d m cap k bit p).co b = .ok co → (intWorld d m cap k bit p).writeOps b co v =
      outcome ((intCalls p bit).writeOps b co v) := by
    intro co hco
    simp only [intWorld, intCalls] at hco ⊢
    rw [setPrimU_eq m _ _ hsl co v (curOff_card hb hco), setPrim_outcome]
  refine Prod.ext (left_intSet _ _ b v hw) ?_
  rw [runLeft, run_intSet]
  simp only [intWorld, unitOf]
  cases hc : curOff m bit (d.before m b k).lens with
  | error e => rfl
  | ok co =>
    have := hw co hc
    simp only [intWorld, intCalls] at this
    simp only [ok_bind, this, outcome, reading]
    cases (setPrimLeft p (bit % 8) b co v).2 <;> rfl

theorem argLefts_run (d : Decl) (m : Mode) (cap : Capacity) (k : Nat) (args : List Prim) (vs : List Nat) (bit : Nat)
    (hb : bit + (args.map (·.size)).sum < 2 ^ 64) (buf : Buf) (hsl : SliceLen buf.length) :
    callSetsLeft (argLefts d m cap k bit args) vs buf =
      setArgsLeft m (fun b => (d.before m b k).lens) bit args vs buf := by
  induction args generalizing bit vs buf with
  | nil => cases vs <;> rfl
  | cons p ps ih =>
    simp only [List.map_cons, List.sum_cons] at hb
    cases vs with
    | nil => rfl
    | cons v vs =>
      rw [argLefts, callSetsLeft, argLeft_run d m cap k bit p (by omega) buf hsl, setArgsLeft]
      cases curOff m bit (d.before m buf k).lens with
      | error e => rfl
      | ok co =>
        simp only [reading, Verif.andThen]
        have hl := (setPrim_kept (p := p) (s := bit % 8) (v := v) (Kept.refl buf 0) (Nat.zero_le co)).1
        cases hr : (setPrimLeft p (bit % 8) buf co v).2 with
        | error e => rfl
        | ok u => exact ih vs (bit + p.size) (by omega) _ (by rw [hl]; exact hsl)

theorem argLefts_length (d : Decl) (m : Mode) (cap : Capacity) (k : Nat) (args : List Prim) (bit : Nat) :
    (argLefts d m cap k bit args).length = args.length := by
  induction args generalizing bit with
  | nil => rfl
  | cons p ps ih => rw [argLefts, List.length_cons, ih, List.length_cons]

/-- Each of the functions is that of `argSetters`, and keeps the length. -/
theorem argLefts_spec (d : Decl) (m : Mode) (cap : Capacity) (k : Nat) (args : List Prim) (bit : Nat)
    (hb : bit + (args.map (·.size)).sum < 2 ^ 64) :
    (∀ f ∈ argLefts d m cap k bit args, ∀ b v, SliceLen b.length → (f b v).1.length = b.length) ∧
    ∀ (j : Nat) f g, (argLefts d m cap k bit args)[j]? = some f → (argSetters d m cap k bit args)[j]? = some g →
      ∀ b v, SliceLen b.length → g b v = outcome (f b v) := by
  induction args generalizing bit with
  | nil => exact ⟨fun f hf => (by cases hf), fun j f g hf => (by cases hf)⟩
  | cons p ps ih =>
    simp only [List.map_cons, List.sum_cons] at hb
    obtain ⟨h1, h2⟩ := ih (bit + p.size) (by omega)
    refine ⟨fun f hf b v hsl => ?_, fun j f g hf hg b v hsl => ?_⟩
    · rw [argLefts, List.mem_cons] at hf
      rcases hf with rfl | hf
      · dsimp only
        rw [argLeft_run d m cap k bit p (by omega) b hsl]
        cases curOff m bit (d.before m b k).lens with
        | error e => rfl
        | ok co => exact (setPrim_kept (p := p) (s := bit % 8) (v := v) (Kept.refl b 0) (Nat.zero_le co)).1
      · exact h1 f hf b v hsl
    · cases j with
      | zero =>
        simp only [argLefts, argSetters, List.getElem?_cons_zero, Option.some.injEq] at hf hg
        subst hf hg
        dsimp only
        rw [argLeft_run d m cap k bit p (by omega) b hsl, outcome_reading, run_intSet]
        simp only [intWorld, unitOf, asBuf]
        cases hc : curOff m bit (d.before m b k).lens with
        | error e => rfl
        | ok co =>
          simp only [ok_bind]
          rw [setPrim_outcome, setPrimU_eq m _ _ hsl co v (curOff_card (by unfold usizeCard; omega) hc)]
          cases setPrim p (bit % 8) b co v <;> rfl
      | succ j => exact h2 j f g (by simpa [argLefts] using hf) (by simpa [argSetters] using hg) b v hsl

/-- **C124**: the body of the setter of every field of every declaration, run statement by statement, leaves
the bytes that `Decl.setLeft` says and ends as it says, whether it returns or panics. -/
theorem C124_setters (d : Decl) (pop : Nat → PopulateLeft) (hp : LeavesAll d pop) (m : Mode) (cap : Capacity)
    (buf : Buf) (hsl : SliceLen buf.length)
    (hb : d.bits < 2 ^ 64) (k : Nat) (f : Field) (hf : d.fields[k]? = some f) (v : Val)
    (hv : ∀ ns, v = .nums ns → SliceLen ns.length) (arg : String × RustVal) (harg : passed f.ty v = some arg) :
    runLeft (fieldWorld d m cap k f) (fieldCalls d pop m cap k f) (setBody f) buf (some arg) =
      d.setLeft pop m buf k v := by
  have hco : ∀ co, curOff m (firstBit d k) (d.before m buf k).lens = .ok co → co < 2 ^ 64 :=
    fun co h => curOff_card (Nat.lt_of_le_of_lt (firstBit_le d k) hb) h
  refine Prod.ext ?_ ?_
  · simp only [runLeft]
    simp only [Decl.setLeft, hf, before_firstBit]
    cases hk : f.ty with
    | prim p =>
      rw [hk] at harg
      cases v <;> cases harg
      simp only [setBody, hk]
      rw [left_intSet]
      · simp only [fieldWorld, fieldCalls, hk]
      · intro co h
        simp only [fieldWorld, fieldCalls, hk] at h ⊢
        rw [setPrimU_eq m _ _ hsl co _ (hco co h), setPrim_outcome]
    | misc args =>
      rw [hk] at harg
      cases v with
      | nums ns =>
        simp only [passed] at harg
        split at harg
        · rename_i hlen
          cases harg
          have hbits : firstBit d k + (args.map (·.size)).sum < 2 ^ 64 := by
            have h1 := firstBit_le d (k + 1)
            have h2 : firstBit d (k + 1) = firstBit d k + f.ty.bits := by
              unfold firstBit
              rw [List.take_add_one, hf]
              simp
            rw [hk] at h2
            simp only [Ty.bits] at h2
            omega
          obtain ⟨h1, h2⟩ := argLefts_spec d m cap k args (firstBit d k) hbits
          have hC : (fieldCalls d pop m cap k f).setArgs = argLefts d m cap k (firstBit d k) args := by
            simp only [fieldCalls, hk]
          have hW : (fieldWorld d m cap k f).setArgs = argSetters d m cap k (firstBit d k) args := by
            simp only [fieldWorld, hk]
          simp only [setBody, hk, if_pos hlen]
          rw [← argLefts_run d m cap k args ns _ hbits buf hsl]
          simp only [miscSetBody, leftAll, RustStmt.exec, argEnv, put_get, if_true, List.range_eq_range']
          have key := left_sets (fieldWorld d m cap k f) (fieldCalls d pop m cap k f) (fun b => SliceLen b.length)
            (fun g hg b v hb => by rw [hC] at hg; show SliceLen _; rw [h1 g hg b v hb]; exact hb)
            (argLefts d m cap k (firstBit d k) args) (argSetters d m cap k (firstBit d k) args) ns ns 0
            (((RustEnv.mk buf fun _ => none).put "val" (.given (.nums ns))).put "vals" (.given (.nums ns)))
            hsl (by simp [put_get]) rfl (by rw [hC]; rfl) (by rw [hW]; rfl) (by rw [argLefts_length, hlen])
            (by rw [argSetters_length, hlen]) h2
          rw [argLefts_length] at key
          exact key
        · cases harg
      | num n => cases harg
      | list vs => cases harg
    | vecPrim p =>
      rw [hk] at harg
      cases v with
      | nums ns =>
        cases harg
        simp only [setBody, hk]
        rw [left_vecSet _ _ p _ buf hsl ns (hv ns rfl) hco
          (by intro b co v; simp only [fieldWorld, hk]) (by simp only [fieldCalls, hk])]
        simp only [fieldWorld, fieldLen]
        cases f.len with
        | none => rfl
        | some e => rfl
      | num n => cases harg
      | list vs => cases harg
    | vecPkt c =>
      rw [hk] at harg
      cases v with
      | list vs =>
        cases harg
        simp only [setBody, hk]
        rw [left_packetsSet _ _ (by simp only [fieldWorld, fieldCalls, hk]; exact hp k f c hf hk)]
        simp only [fieldWorld, fieldCalls, hk]
      | num n => cases harg
      | nums vs => cases harg
  · rw [runLeft, C116_setters d m cap buf hsl hb k f hf v hv arg harg, ← set_outcome hp]
    simp only [outcome]
    cases (d.setLeft pop m buf k v).2 <;> rfl

/-- The options of a TCP packet that has no room for them: the statements leave the option in the payload. -/
example : ∃ f, tcp.fields[10]? = some f ∧
    runLeft (fieldWorld tcp .debug id 10 f) (fieldCalls tcp tcpOptionLeft .debug id 10 f) (setBody f)
      (List.replicate 12 0 ++ [0x50] ++ List.replicate 7 0 ++ [7, 8])
      (some ("vals", .given (.list [.list [.nums [1], .nums [], .nums []]]))) =
    (List.replicate 12 0 ++ [0x50] ++ List.replicate 7 0 ++ [1, 8], .error .panic) :=
  ⟨_, rfl, (C124_setters tcp tcpOptionLeft tcp_leaves .debug id _ (by decide) (by decide) 10 _ rfl
    (.list [.list [.nums [1], .nums [], .nums []]]) (by simp) _ rfl).trans (by decide +kernel)⟩

theorem ethernet_leaves : LeavesAll ethernet noPackets := by
  refine flat_leaves fun f hf c => ?_
  simp only [ethernet, List.mem_cons, List.not_mem_nil, or_false] at hf
  rcases hf with rfl | rfl | rfl | rfl <;> intro h <;> cases h

theorem udp_leaves : LeavesAll udp noPackets := by
  refine flat_leaves fun f hf c => ?_
  simp only [udp, List.mem_cons, List.not_mem_nil, or_false] at hf
  rcases hf with rfl | rfl | rfl | rfl | rfl <;> intro h <;> cases h

/-- An address of which two bytes fit. -/
example : ∃ f, ethernet.fields[1]? = some f ∧
    runLeft (fieldWorld ethernet .debug id 1 f) (fieldCalls ethernet noPackets .debug id 1 f) (setBody f)
      (List.replicate 8 0) (some ("val", .given (.nums [1, 2, 3, 4, 5, 6]))) =
    ([0, 0, 0, 0, 0, 0, 1, 2], .error .panic) :=
  ⟨_, rfl, (C124_setters ethernet noPackets ethernet_leaves .debug id _ (by decide) (by decide) 1 _ rfl
    (.nums [1, 2, 3, 4, 5, 6]) (by intro ns h; cases h; decide) _ rfl).trans (by decide +kernel)⟩

/-- `populate`: the setters of fields `k`, `k+1`, .. one after the other, each run statement by statement, as
long as none panics. -/
def settersLeft (d : Decl) (pop : Nat → PopulateLeft) (m : Mode) (cap : Capacity) :
    (k : Nat) → List (String × RustVal) → Buf → Left
  | _, [], buf => (buf, .ok ())
  | k, a :: as, buf =>
    match d.fields[k]? with
    | none => (buf, panic)
    | some f =>
      let l := runLeft (fieldWorld d m cap k f) (fieldCalls d pop m cap k f) (setBody f) buf (some a)
      match l.2 with
      | .ok _ => settersLeft d pop m cap (k + 1) as l.1
      | .error e => (l.1, .error e)

theorem settersLeft_run (d : Decl) (pop : Nat → PopulateLeft) (hp : LeavesAll d pop) (m : Mode) (cap : Capacity)
    (hb : d.bits < 2 ^ 64) (args : List (String × RustVal)) (vs : List Val) (k : Nat)
    (hlen : args.length = vs.length)
    (harg : ∀ (i : Nat) v a, vs[i]? = some v → args[i]? = some a →
      (∀ ns, v = .nums ns → SliceLen ns.length) ∧ ∃ f, d.fields[k + i]? = some f ∧ passed f.ty v = some a)
    (buf : Buf) (hsl : SliceLen buf.length) :
    settersLeft d pop m cap k args buf = d.populateFromLeft pop m k vs buf := by
  induction args generalizing vs k buf with
  | nil =>
    cases vs with
    | nil => rfl
    | cons v vs => cases hlen
  | cons a args ih =>
    cases vs with
    | nil => cases hlen
    | cons v vs =>
      obtain ⟨hv, f, hf, ha⟩ := harg 0 v a rfl rfl
      rw [Nat.add_zero] at hf
      simp only [settersLeft, hf, Decl.populateFromLeft,
        C124_setters d pop hp m cap buf hsl hb k f hf v hv a ha, Verif.andThen]
      have hl := set_left_length hp m buf k v
      cases (d.setLeft pop m buf k v).2 with
      | error e => rfl
      | ok u =>
        exact ih vs (k + 1) (by simpa using hlen)
          (fun i w b hw hbb => by
            obtain ⟨h1, g, h2, h3⟩ := harg (i + 1) w b (by simpa using hw) (by simpa using hbb)
            exact ⟨h1, g, by rw [← h2]; congr 1; omega, h3⟩)
          _ (by rw [hl]; exact hsl)

/-- **C124**, `populate`: the setters of all fields in the order of the struct, each run statement by
statement with its part of the struct, leave what `Decl.populateLeft` says. -/
theorem C124_populate (d : Decl) (pop : Nat → PopulateLeft) (hp : LeavesAll d pop) (m : Mode) (cap : Capacity)
    (hb : d.bits < 2 ^ 64) (vs : List Val) (hvs : vs.length = d.fields.length)
    (args : List (String × RustVal)) (hlen : args.length = vs.length)
    (harg : ∀ (k : Nat) f v a, d.fields[k]? = some f → vs[k]? = some v → args[k]? = some a →
      passed f.ty v = some a)
    (hv : ∀ v ∈ vs, ∀ ns, v = .nums ns → SliceLen ns.length) (buf : Buf) (hsl : SliceLen buf.length) :
    settersLeft d pop m cap 0 args buf = d.populateLeft pop m buf (.list vs) := by
  simp only [Decl.populateLeft]
  rw [if_pos hvs]
  refine settersLeft_run d pop hp m cap hb args vs 0 hlen (fun i v a h1 h2 => ?_) buf hsl
  refine ⟨hv v (List.mem_of_getElem? h1), ?_⟩
  have hi : i < d.fields.length := by
    have := (List.getElem?_eq_some_iff.mp h1).1
    omega
  refine ⟨d.fields[i], ?_, ?_⟩
  · rw [Nat.zero_add]
    exact List.getElem?_eq_getElem hi
  · exact harg i _ v a (List.getElem?_eq_getElem hi) h1 h2

/-- A UDP packet whose payload is longer than the rest of the buffer: ports, length and checksum are written,
then the setter of the payload panics. -/
example : settersLeft udp noPackets .debug id 0 [("val", .int 1), ("val", .int 2), ("val", .int 9), ("val", .int 0),
      ("vals", .given (.nums [7, 8]))] (List.replicate 9 5) =
    ([0, 1, 0, 2, 0, 9, 0, 0, 5], .error .panic) :=
  (C124_populate udp noPackets udp_leaves .debug id (by decide)
    [.num 1, .num 2, .num 9, .num 0, .nums [7, 8]] rfl _ rfl
    (by
      intro k f v a hf hv ha
      match k, hf, hv, ha with
      | 0, hf, hv, ha => cases hf; cases hv; cases ha; rfl
      | 1, hf, hv, ha => cases hf; cases hv; cases ha; rfl
      | 2, hf, hv, ha => cases hf; cases hv; cases ha; rfl
      | 3, hf, hv, ha => cases hf; cases hv; cases ha; rfl
      | 4, hf, hv, ha => cases hf; cases hv; cases ha; rfl
      | k + 5, hf, hv, ha => cases hf)
    (by intro v hv ns h; subst h; simp at hv; subst hv; decide)
    _ (by decide)).trans (by decide +kernel)

/-- **C124**, integers and vectors of integers that run past the end of the buffer: the bytes left are those that
the same write leaves in this part of a longer buffer, in which it returns. So what fits is written. -/
theorem C124_torn (p : Prim) (s : Nat) (buf ext new : Buf) (co : Nat) :
    (∀ v, setPrim p s (buf ++ ext) co v = .ok new → (setPrimLeft p s buf co v).1 = new.take buf.length) ∧
    ∀ vs, setElems p co vs (buf ++ ext) = .ok new → (setElemsLeft p co vs buf).1 = new.take buf.length :=
  ⟨fun _ h => (setPrim_torn h).1, fun vs h => setElems_torn vs co buf ext new h⟩

/-- A 32-bit integer of which three bytes fit, and two 16-bit elements of which one and a half fit. -/
example : (setPrimLeft ⟨32, .big⟩ 0 [0, 0, 0, 0] 1 0x01020304).1 = [0, 1, 2, 3] ∧
    (setElemsLeft ⟨16, .big⟩ 1 [0x0102, 0x0304] [0, 0, 0, 0]).1 = [0, 1, 2, 3] :=
  ⟨(C124_torn ⟨32, .big⟩ 0 [0, 0, 0, 0] [0] [0, 1, 2, 3, 4] 1).1 0x01020304 (by decide +kernel),
   (C124_torn ⟨16, .big⟩ 0 [0, 0, 0, 0] [0] [0, 1, 2, 3, 4] 1).2 [0x0102, 0x0304] (by decide +kernel)⟩

end Verif.Props
