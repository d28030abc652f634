import Verif.Spec.LengthText
import Verif.Proofs.Bounds

/-! # Lemmas for C77: the length functions compute the `#[length]` texts -/

namespace Verif
open Spec LengthText

/-- Name of field `i`. -/
def nameAt (d : Decl) (i : Nat) : String := ((d.fields[i]?).map (·.name)).getD ""

/-- Field `i` has type `ty`, and no earlier field has its name. -/
def FieldIs (d : Decl) (i : Nat) (ty : Ty) : Prop :=
  position d (nameAt d i) = some i ∧ (d.fields[i]?).map Field.ty = some ty

theorem FieldIs.get {d : Decl} {i : Nat} {ty : Ty} (h : FieldIs d i ty) :
    ∃ f, d.fields[i]? = some f ∧ f.ty = ty := by
  obtain ⟨-, h2⟩ := h
  cases hf : d.fields[i]? with
  | none => rw [hf] at h2; cases h2
  | some f => rw [hf] at h2; exact ⟨f, rfl, Option.some.inj h2⟩

theorem eval_getter {d : Decl} {i : Nat} {ty : Ty} (h : FieldIs d i ty) (m : Mode)
    (get : Nat → Res Val) (rest : Res Buf) :
    eval m d get rest (.getter (nameAt d i)) = get i >>= ofVal ty := by
  obtain ⟨f, hf, rfl⟩ := h.get
  rw [eval, h.1]
  dsimp only
  rw [hf]

theorem FieldIs.typed {d : Decl} {i k : Nat} {ty : Ty} {get : Nat → Res Val}
    (h : FieldIs d i ty) (hik : i < k) (ht : TypedGetters d k get) {v : Val} (hg : get i = .ok v) :
    HasType ty v := by
  obtain ⟨f, hf, rfl⟩ := h.get
  exact ht i f v hik hf hg

theorem prim_case {d : Decl} {i k : Nat} {p : Prim} {get : Nat → Res Val}
    (h : FieldIs d i (.prim p)) (hik : i < k) (ht : TypedGetters d k get) :
    (∃ e, get i = .error e) ∨ ∃ x, get i = .ok (.num x) ∧ x < 2 ^ p.size := by
  cases hg : get i with
  | error e => exact .inl ⟨e, rfl⟩
  | ok v =>
    have h3 := h.typed hik ht hg
    cases v with
    | num x => exact .inr ⟨x, rfl, h3⟩
    | nums ns => exact h3.elim
    | list vs => exact h3.elim

theorem tuple_case {d : Decl} {i k : Nat} {p : Prim} {get : Nat → Res Val}
    (h : FieldIs d i (.misc [p])) (hik : i < k) (ht : TypedGetters d k get) :
    (∃ e, get i = .error e) ∨ ∃ x, get i = .ok (.nums [x]) := by
  cases hg : get i with
  | error e => exact .inl ⟨e, rfl⟩
  | ok v =>
    have h3 := h.typed hik ht hg
    cases v with
    | num x => exact h3.elim
    | nums ns =>
      obtain ⟨h4, -⟩ := h3
      match ns, h4 with
      | [x], _ => exact .inr ⟨x, rfl⟩
    | list vs => exact h3.elim

theorem bytes_case {d : Decl} {i k : Nat} {p : Prim} {get : Nat → Res Val}
    (h : FieldIs d i (.vecPrim p)) (hik : i < k) (ht : TypedGetters d k get) :
    (∃ e, get i = .error e) ∨ ∃ ns, get i = .ok (.nums ns) ∧ ∀ x ∈ ns, x < 2 ^ p.size := by
  cases hg : get i with
  | error e => exact .inl ⟨e, rfl⟩
  | ok v =>
    have h3 := h.typed hik ht hg
    cases v with
    | num x => exact h3.elim
    | nums ns => exact .inr ⟨ns, rfl, h3⟩
    | list vs => exact h3.elim

theorem err_bind {α β : Type} (e : Fail) (f : α → Res β) : ((Except.error e : Res α) >>= f) = .error e := rfl

theorem den_const (d : Decl) (k n : Nat) : Denotes d k (lenConst n) (.int n) := fun _ _ _ _ => rfl

theorem den_num {d : Decl} {k i : Nat} {p : Prim} (h : FieldIs d i (.prim p))
    (hik : i < k) : Denotes d k (lenNum i id) (.getter (nameAt d i)) := by
  intro m get rest ht
  rcases prim_case h hik ht with ⟨e, hg⟩ | ⟨x, hg, hx⟩
  · simp only [evalUsize, lenNum, ↓eval_getter h, hg, err_bind]
  · simp only [evalUsize, lenNum, ↓eval_getter h, hg, ok_bind, ofVal]; rfl

/-- A call of a function of an integer field. -/
theorem den_call_num {d : Decl} {k i : Nat} {f : String} {p : Prim} {g : Nat → Nat}
    (h : FieldIs d i (.prim p)) (hik : i < k)
    (hf : ∀ x, apply1 f (.int (some (storageWidth p.size)) x) = .ok (.int (some 64) (g x))) :
    Denotes d k (lenNum i g) (.call1 f (.getter (nameAt d i))) := by
  intro m get rest ht
  rcases prim_case h hik ht with ⟨e, hg⟩ | ⟨x, hg, hx⟩
  · simp only [evalUsize, eval, lenNum, ↓eval_getter h, hg, err_bind]
  · simp only [evalUsize, eval, lenNum, ↓eval_getter h, hg, ok_bind, ofVal, hf]; rfl

theorem den_ipv4_payload {d : Decl} {k i j : Nat} (h : FieldIs d i (.prim (u 16)))
    (h' : FieldIs d j (.prim (u 4))) (hik : i < k) (hjk : j < k) :
    Denotes d k (fun _ get _ => do
      let t ← get i
      let h ← get j
      .ok (ipv4PayloadLength (← t.asNum) (← h.asNum)))
      (.call2 "ipv4_payload_length" (.getter (nameAt d i)) (.getter (nameAt d j))) := by
  intro m get rest ht
  rcases prim_case h hik ht with ⟨e, hg⟩ | ⟨x, hg, hx⟩
  · simp only [evalUsize, eval, ↓eval_getter h, hg, err_bind]
  rcases prim_case h' hjk ht with ⟨e, hg'⟩ | ⟨y, hg', hy⟩
  · simp only [evalUsize, eval, ↓eval_getter h, ↓eval_getter h', hg, hg', err_bind, ok_bind, ofVal]
  · simp only [evalUsize, eval, ↓eval_getter h, ↓eval_getter h', hg, hg', ok_bind, ofVal]; rfl

/-- A call of a function of a field with one `construct_with` argument. -/
theorem den_call_tuple {d : Decl} {k i : Nat} {f : String} {p : Prim} {g : Nat → Nat}
    (h : FieldIs d i (.misc [p])) (hik : i < k)
    (hf : ∀ x, apply1 f (.tuple (storageWidth p.size) x) = .ok (.int (some 64) (g x))) :
    Denotes d k (fun _ get _ => do
      let v ← get i
      .ok (g (← v.asTuple1))) (.call1 f (.getter (nameAt d i))) := by
  intro m get rest ht
  rcases tuple_case h hik ht with ⟨e, hg⟩ | ⟨x, hg⟩
  · simp only [evalUsize, eval, ↓eval_getter h, hg, err_bind]
  · simp only [evalUsize, eval, ↓eval_getter h, hg, ok_bind, ofVal, hf]; rfl

/-- A call of a function of a reference to a byte vector. -/
theorem den_call_bytes {d : Decl} {k i : Nat} {f : String} {g : List Nat → Nat}
    (h : FieldIs d i (.vecPrim (u 8))) (hik : i < k)
    (hf : ∀ x, apply1 f (.bytes x) = .ok (.int (some 64) (g x))) :
    Denotes d k (fun _ get _ => do
      let v ← get i
      .ok (g (← v.asNums))) (.call1 f (.ref (.getter (nameAt d i)))) := by
  intro m get rest ht
  rcases bytes_case h hik ht with ⟨e, hg⟩ | ⟨x, hg, hx⟩
  · simp only [evalUsize, eval, ↓eval_getter h, hg, err_bind]
  · simp only [evalUsize, eval, ↓eval_getter h, hg, ok_bind, ofVal, hf, if_true]; rfl

theorem den_ndp {d : Decl} {k i : Nat} (h : FieldIs d i (.prim (u 8))) (hik : i < k) :
    Denotes d k (fun m get _ => do
      let v ← get i
      ndpOptionDataLength m (← v.asNum))
      (.method1 (.bin .mul (.getter (nameAt d i)) (.int 8)) "saturating_sub" (.int 2)) := by
  intro m get rest ht
  rcases prim_case h hik ht with ⟨e, hg⟩ | ⟨x, hg, hx⟩
  · simp only [evalUsize, eval, ↓eval_getter h, hg, err_bind]
  · simp only [evalUsize, eval, ↓eval_getter h, hg, ok_bind, ofVal, joinWidth, arith, Val.asNum]
    have hs : storageWidth (u 8).size = 8 := rfl
    rw [hs]
    by_cases hm : x * 8 < 256
    · have h2 : x * 8 < 2 ^ 8 := hm
      simp only [ndpOptionDataLength, h2, decide_true, ok_bind, applyMethod1, if_true,
        joinWidth, Nat.mod_eq_of_lt h2]
    · have h2 : ¬ x * 8 < 2 ^ 8 := hm
      cases m
      · simp only [ndpOptionDataLength, h2, decide_false]; rfl
      · simp only [ndpOptionDataLength, h2, decide_false, ok_bind, applyMethod1, if_true,
          joinWidth, if_false]

theorem den_gre_opt {d : Decl} {k : Nat} (h : FieldIs d 0 (.prim (u 1)))
    (h' : FieldIs d 1 (.prim (u 1))) (hk : 1 < k) :
    Denotes d k greOptLen (.bin .mul (.bin .or (.getter (nameAt d 0)) (.getter (nameAt d 1))) (.int 2)) := by
  intro m get rest ht
  rcases prim_case h (by omega) ht with ⟨e, hg⟩ | ⟨x, hg, hx⟩
  · simp only [evalUsize, greOptLen, eval, ↓eval_getter h, hg, err_bind]
  rcases prim_case h' hk ht with ⟨e, hg'⟩ | ⟨y, hg', hy⟩
  · simp only [evalUsize, greOptLen, eval, ↓eval_getter h, ↓eval_getter h', hg, hg', err_bind, ok_bind,
      ofVal]
  · simp only [evalUsize, greOptLen, eval, ↓eval_getter h, ↓eval_getter h', hg, hg', ok_bind, ofVal]
    have hx' : x = 0 ∨ x = 1 := by simp at hx; omega
    have hy' : y = 0 ∨ y = 1 := by simp at hy; omega
    rcases hx' with rfl | rfl <;> rcases hy' with rfl | rfl <;> rfl

theorem den_mul4 {d : Decl} {k i : Nat} (h : FieldIs d i (.prim (u 1))) (hik : i < k) :
    Denotes d k (lenNum i (· * 4)) (.bin .mul (.getter (nameAt d i)) (.int 4)) := by
  intro m get rest ht
  rcases prim_case h hik ht with ⟨e, hg⟩ | ⟨x, hg, hx⟩
  · simp only [evalUsize, lenNum, eval, ↓eval_getter h, hg, err_bind]
  · simp only [evalUsize, lenNum, eval, ↓eval_getter h, hg, ok_bind, ofVal]
    have hx' : x = 0 ∨ x = 1 := by simp at hx; omega
    rcases hx' with rfl | rfl <;> rfl

theorem den_gre_routing {d : Decl} {k : Nat} (h : FieldIs d 1 (.prim (u 1)))
    (hk : 1 < k) :
    Denotes d k (fun _ get _ => do
      let r ← get 1
      if (← r.asNum) = 0 then .ok 0 else panic)
      (.ite (.bin .eq (.getter (nameAt d 1)) (.int 0)) (.int 0) .unimplemented) := by
  intro m get rest ht
  rcases prim_case h hk ht with ⟨e, hg⟩ | ⟨x, hg, hx⟩
  · simp only [evalUsize, eval, ↓eval_getter h, hg, err_bind]
  · simp only [evalUsize, eval, ↓eval_getter h, hg, ok_bind, ofVal]
    have hx' : x = 0 ∨ x = 1 := by simp at hx; omega
    rcases hx' with rfl | rfl <;> rfl

theorem usize_map (x : Res Nat) :
    (x.map (RVal.int (some 64)) >>= fun r => match r with
      | .int _ n => .ok n
      | _ => panic) = x := by
  cases x <;> rfl

theorem den_varintLength (d : Decl) (k : Nat) :
    Denotes d k lenVarintLength (.call1 "varint_length" .rest) := by
  intro m get rest _
  cases rest with
  | error e => rfl
  | ok b => exact (usize_map _).symm

theorem den_varint {d : Decl} {k i : Nat} (h : FieldIs d i (.vecPrim (u 8)))
    (hik : i < k) : Denotes d k (lenVarint i) (.call1 "varint" (.ref (.getter (nameAt d i)))) := by
  intro m get rest ht
  rcases bytes_case h hik ht with ⟨e, hg⟩ | ⟨x, hg, hx⟩
  · simp only [evalUsize, lenVarint, eval, ↓eval_getter h, hg, err_bind]
  · simp only [evalUsize, lenVarint, eval, ↓eval_getter h, hg, ok_bind, ofVal, if_true]
    exact (usize_map _).symm

theorem den_succ {d : Decl} {k i : Nat} (h : FieldIs d i (.prim (u 2))) (hik : i < k) :
    Denotes d k (lenPn i) (.bin .add (.getter (nameAt d i)) (.int 1)) := by
  intro m get rest ht
  rcases prim_case h hik ht with ⟨e, hg⟩ | ⟨x, hg, hx⟩
  · simp only [evalUsize, lenPn, lenNum, eval, ↓eval_getter h, hg, err_bind]
  · simp only [evalUsize, lenPn, lenNum, eval, ↓eval_getter h, hg, ok_bind, ofVal]
    have hx' : x = 0 ∨ x = 1 ∨ x = 2 ∨ x = 3 := by simp at hx; omega
    rcases hx' with rfl | rfl | rfl | rfl <;> rfl

theorem varint_fold_lt64 {xs : List Nat} (hx : ∀ x ∈ xs, x < 2 ^ 8) (a : Nat) (ha : a < 2 ^ 64) :
    xs.foldl (fun length v => (length <<< 8) % 2 ^ 64 + v) a < 2 ^ 64 := by
  induction xs generalizing a with
  | nil => exact ha
  | cons x xs ih =>
    refine ih (fun y hy => hx y (List.mem_cons_of_mem _ hy)) _ ?_
    have := hx x List.mem_cons_self
    show a <<< 8 % 2 ^ 64 + x < 2 ^ 64
    rw [Nat.shiftLeft_eq]
    omega

theorem varint_lt64 {xs : List Nat} {l : Nat} (hx : ∀ x ∈ xs, x < 2 ^ 8) (h : varint xs = .ok l) :
    l < 2 ^ 64 := by
  cases xs with
  | nil => cases h
  | cons x xs =>
    cases h
    refine varint_fold_lt64 (fun y hy => hx y (List.mem_cons_of_mem _ hy)) _ ?_
    have : x &&& 0x3f ≤ 0x3f := Nat.and_le_right
    omega

theorem den_frames {d : Decl} {k i j : Nat} (h : FieldIs d i (.vecPrim (u 8)))
    (h' : FieldIs d j (.vecPrim (u 8))) (hik : i < k) (hjk : j < k) :
    Denotes d k (lenFrames i j)
      (.bin .sub (.call1 "varint" (.ref (.getter (nameAt d i)))) (.method0 (.getter (nameAt d j)) "len")) := by
  intro m get rest ht
  rcases bytes_case h hik ht with ⟨e, hg⟩ | ⟨x, hg, hx⟩
  · simp only [evalUsize, lenFrames, eval, ↓eval_getter h, hg, err_bind]
  simp only [evalUsize, lenFrames, eval, ↓eval_getter h, ↓eval_getter h', hg, ok_bind, ofVal, if_true,
    apply1, Val.asNums]
  cases hv : varint x with
  | error e => rfl
  | ok l =>
    rcases bytes_case h' hjk ht with ⟨e, hg'⟩ | ⟨y, hg', hy⟩
    · rw [hg']; rfl
    · simp only [hg', ok_bind, Except.map, ofVal, if_true, applyMethod0, joinWidth, arith]
      by_cases hc : y.length ≤ l
      · simp only [usub, hc, if_true, decide_true, ok_bind, Except.ok.injEq]
        have := varint_lt64 hx hv
        omega
      · cases m
        · simp only [usub, hc, if_false, decide_false]; rfl
        · simp only [usub, hc, if_false, decide_false, ok_bind, Except.ok.injEq, usizeCard]
          omega

theorem den_nVarintsOf {d : Decl} {k i : Nat} (h : FieldIs d i (.vecPrim (u 8)))
    (hik : i < k) :
    Denotes d k (lenNVarintsOf i) (.call2 "n_varints" (.call1 "varint" (.ref (.getter (nameAt d i)))) .rest) := by
  intro m get rest ht
  rcases bytes_case h hik ht with ⟨e, hg⟩ | ⟨x, hg, hx⟩
  · simp only [evalUsize, lenNVarintsOf, eval, ↓eval_getter h, hg, err_bind]
  simp only [evalUsize, lenNVarintsOf, eval, ↓eval_getter h, hg, ok_bind, ofVal, if_true, apply1,
    Val.asNums]
  cases hv : varint x with
  | error e => rfl
  | ok l =>
    cases rest with
    | error e => rfl
    | ok b => exact (usize_map _).symm

theorem den_streamData {d : Decl} {k i : Nat} (h : FieldIs d i (.vecPrim (u 8)))
    (hik : i < k) :
    Denotes d k (lenStreamData i) (.ite (.method0 (.getter (nameAt d i)) "is_empty") (.method0 .rest "len")
      (.call1 "varint" (.ref (.getter (nameAt d i))))) := by
  intro m get rest ht
  rcases bytes_case h hik ht with ⟨e, hg⟩ | ⟨x, hg, hx⟩
  · simp only [evalUsize, lenStreamData, eval, ↓eval_getter h, hg, err_bind]
  simp only [evalUsize, lenStreamData, eval, ↓eval_getter h, hg, ok_bind, ofVal, if_true, Val.asNums]
  cases x with
  | nil =>
    cases rest with
    | error e => rfl
    | ok b => rfl
  | cons y ys => exact (usize_map _).symm

/-! ## Getters return values of the right type -/

theorem getArgs_typed {m : Mode} {lens : List (Res Nat)} {buf : Buf} (args : List Prim) (bit : Nat)
    (hs : (args.all fun p => p.endian == .big) = true) {vs : List Nat}
    (h : getArgs m lens buf bit args = .ok vs) :
    vs.length = args.length ∧ ∀ q ∈ args.zip vs, q.2 < 2 ^ q.1.size := by
  induction args generalizing bit vs with
  | nil => cases h; simp
  | cons p ps ih =>
    simp only [List.all_cons, Bool.and_eq_true, beq_iff_eq] at hs
    rw [getArgs, bind_eq_ok] at h
    obtain ⟨co, -, h⟩ := h
    rw [bind_eq_ok] at h
    obtain ⟨v, hv, h⟩ := h
    rw [bind_eq_ok] at h
    obtain ⟨vs', hvs, h⟩ := h
    cases h
    obtain ⟨h1, h2⟩ := ih _ (by simpa using hs.2) hvs
    refine ⟨by simp [h1], ?_⟩
    intro q hq
    rw [List.zip_cons_cons] at hq
    rcases List.mem_cons.mp hq with rfl | hq
    · obtain ⟨n, e⟩ := p
      have he : e = .big := hs.1
      subst he
      exact getPrim_lt hv
    · exact h2 q hq

theorem getElems_typed {p : Prim} {packet : Buf} (n co : Nat) {vs : List Nat}
    (h : getElems p packet n co = .ok vs) : ∀ n ∈ vs, n < 2 ^ p.size := by
  induction n generalizing co vs with
  | zero => cases h; simp
  | succ n ih =>
    rw [getElems, bind_eq_ok] at h
    obtain ⟨v, hv, h⟩ := h
    rw [bind_eq_ok] at h
    obtain ⟨vs', hvs, h⟩ := h
    cases h
    intro x hx
    rcases List.mem_cons.mp hx with rfl | hx
    · exact getPrim_lt hv
    · exact ih _ hvs x hx

/-- All integers of the type are big endian. -/
def bigTy : Ty → Bool
  | .prim p => p.endian == .big
  | .misc args => args.all fun p => p.endian == .big
  | .vecPrim _ => true
  | .vecPkt _ => true

theorem get_typed {d : Decl} {m : Mode} {buf : Buf} {i : Nat} {f : Field} {v : Val}
    (hf : d.fields[i]? = some f) (hb : bigTy f.ty = true) (h : d.get m buf i = .ok v) :
    HasType f.ty v := by
  unfold Decl.get at h
  rw [hf] at h
  dsimp only at h
  cases ht : f.ty with
  | prim p =>
    rw [ht] at h hb
    rw [getField, bind_eq_ok] at h
    obtain ⟨co, -, h⟩ := h
    obtain ⟨n, hn, rfl⟩ := map_eq_ok h
    obtain ⟨w, e⟩ := p
    have he : e = .big := by simpa [bigTy] using hb
    subst he
    exact getPrim_lt hn
  | misc args =>
    rw [ht] at h hb
    rw [getField] at h
    obtain ⟨vs, hv, rfl⟩ := map_eq_ok h
    exact getArgs_typed args _ hb hv
  | vecPrim p =>
    rw [ht] at h
    rw [getField, bind_eq_ok] at h
    obtain ⟨pk, -, h⟩ := h
    obtain ⟨vs, hv, rfl⟩ := map_eq_ok h
    exact getElems_typed _ _ hv
  | vecPkt c =>
    rw [ht] at h
    rw [getField, bind_eq_ok] at h
    obtain ⟨pk, -, h⟩ := h
    obtain ⟨vs, hv, rfl⟩ := map_eq_ok h
    trivial

/-! ## The declarations -/

/-- Field `k`: without length both in the source and in the declaration, or the length function
computes the text. -/
def LensAt (src : List RawField) (d : Decl) (k : Nat) (f : Field) : Prop :=
  (f.len = none ∧ exprOf src k = none) ∨
    ∃ len x, f.len = some len ∧ exprOf src k = some x ∧ Denotes d k len x

/-- `LensAt` for the fields from `k` on. -/
def LensFrom (src : List RawField) (d : Decl) : Nat → List Field → Prop
  | _, [] => True
  | k, f :: fs => LensAt src d k f ∧ LensFrom src d (k + 1) fs

theorem LensFrom.get {src : List RawField} {d : Decl} {k : Nat} {fs : List Field}
    (h : LensFrom src d k fs) {i : Nat} {f : Field} (hf : fs[i]? = some f) : LensAt src d (k + i) f := by
  induction fs generalizing k i with
  | nil => cases hf
  | cons g fs ih =>
    cases i with
    | zero => cases hf; exact h.1
    | succ i =>
      have := ih h.2 (i := i) (by simpa using hf)
      rwa [Nat.add_right_comm] at this

/-- The two tests of `ty.0` that occur. -/
theorem den_nVarints_eq {d : Decl} {k c a b : Nat} (h : FieldIs d 0 (.misc [u 8])) (hk : 0 < k) :
    Denotes d k (lenNVarints fun ty => if ty = c then a else b)
      (.call2 "n_varints" (.ite (.bin .eq (.first (.getter (nameAt d 0))) (.int c)) (.int a) (.int b))
        .rest) := by
  intro m get rest ht
  rcases tuple_case h hk ht with ⟨e, hg⟩ | ⟨x, hg⟩
  · simp only [evalUsize, lenNVarints, eval, ↓eval_getter h, hg, err_bind]
  simp only [evalUsize, lenNVarints, eval, ↓eval_getter h, hg, ok_bind, ofVal, Val.asTuple1, joinWidth,
    arith]
  by_cases hx : x = c
  · simp only [hx, if_true, beq_self_eq_true]
    cases rest with
    | error e => rfl
    | ok b => exact (usize_map _).symm
  · simp only [hx, if_false, beq_eq_false_iff_ne.mpr hx]
    cases rest with
    | error e => rfl
    | ok b => exact (usize_map _).symm

theorem den_nVarints_bit {d : Decl} {k c a b : Nat} (h : FieldIs d 0 (.misc [u 8])) (hk : 0 < k) :
    Denotes d k (lenNVarints fun ty => if ty &&& c > 0 then a else b)
      (.call2 "n_varints" (.ite (.bin .gt (.bin .and (.first (.getter (nameAt d 0))) (.int c)) (.int 0))
        (.int a) (.int b)) .rest) := by
  intro m get rest ht
  rcases tuple_case h hk ht with ⟨e, hg⟩ | ⟨x, hg⟩
  · simp only [evalUsize, lenNVarints, eval, ↓eval_getter h, hg, err_bind]
  simp only [evalUsize, lenNVarints, eval, ↓eval_getter h, hg, ok_bind, ofVal, Val.asTuple1, joinWidth,
    arith]
  by_cases hx : x &&& c > 0
  · simp only [hx, if_true, decide_true]
    cases rest with
    | error e => rfl
    | ok b => exact (usize_map _).symm
  · simp only [hx, if_false, decide_false]
    cases rest with
    | error e => rfl
    | ok b => exact (usize_map _).symm

/-- One field. -/
macro "len_field" : tactic => `(tactic| first
  | exact Or.inl ⟨rfl, by decide +kernel⟩
  | exact Or.inr ⟨_, _, rfl, by decide +kernel, den_const _ _ _⟩
  | exact Or.inr ⟨_, _, rfl, by decide +kernel, den_varintLength _ _⟩
  | exact Or.inr ⟨_, _, rfl, by decide +kernel, den_num ⟨by decide +kernel, rfl⟩ (by decide)⟩
  | exact Or.inr ⟨_, _, rfl, by decide +kernel, den_call_num (f := "ipv4_options_length") ⟨by decide +kernel, rfl⟩ (by decide) fun _ => rfl⟩
  | exact Or.inr ⟨_, _, rfl, by decide +kernel, den_call_num (f := "ipv6_extension_length") ⟨by decide +kernel, rfl⟩ (by decide) fun _ => rfl⟩
  | exact Or.inr ⟨_, _, rfl, by decide +kernel, den_call_num (f := "routing_extension_length") ⟨by decide +kernel, rfl⟩ (by decide) fun _ => rfl⟩
  | exact Or.inr ⟨_, _, rfl, by decide +kernel, den_call_num (f := "tcp_options_length") ⟨by decide +kernel, rfl⟩ (by decide) fun _ => rfl⟩
  | exact Or.inr ⟨_, _, rfl, by decide +kernel, den_ipv4_payload ⟨by decide +kernel, rfl⟩ ⟨by decide +kernel, rfl⟩ (by decide) (by decide)⟩
  | exact Or.inr ⟨_, _, rfl, by decide +kernel, den_call_tuple (f := "ipv4_option_length") ⟨by decide +kernel, rfl⟩ (by decide) fun _ => rfl⟩
  | exact Or.inr ⟨_, _, rfl, by decide +kernel, den_call_tuple (f := "tcp_option_length") ⟨by decide +kernel, rfl⟩ (by decide) fun _ => rfl⟩
  | exact Or.inr ⟨_, _, rfl, by decide +kernel, den_call_bytes (f := "ipv4_option_payload_length") ⟨by decide +kernel, rfl⟩ (by decide) fun _ => rfl⟩
  | exact Or.inr ⟨_, _, rfl, by decide +kernel, den_call_bytes (f := "tcp_option_payload_length") ⟨by decide +kernel, rfl⟩ (by decide) fun _ => rfl⟩
  | exact Or.inr ⟨_, _, rfl, by decide +kernel, den_ndp ⟨by decide +kernel, rfl⟩ (by decide)⟩
  | exact Or.inr ⟨_, _, rfl, by decide +kernel, den_mul4 ⟨by decide +kernel, rfl⟩ (by decide)⟩
  | exact Or.inr ⟨_, _, rfl, by decide +kernel, den_varint ⟨by decide +kernel, rfl⟩ (by decide)⟩
  | exact Or.inr ⟨_, _, rfl, by decide +kernel, den_succ ⟨by decide +kernel, rfl⟩ (by decide)⟩
  | exact Or.inr ⟨_, _, rfl, by decide +kernel, den_nVarintsOf ⟨by decide +kernel, rfl⟩ (by decide)⟩
  | exact Or.inr ⟨_, _, rfl, by decide +kernel, den_streamData ⟨by decide +kernel, rfl⟩ (by decide)⟩
  | exact Or.inr ⟨_, _, rfl, by decide +kernel, den_gre_opt ⟨by decide +kernel, rfl⟩ ⟨by decide +kernel, rfl⟩ (by decide)⟩
  | exact Or.inr ⟨_, _, rfl, by decide +kernel, den_gre_routing ⟨by decide +kernel, rfl⟩ (by decide)⟩
  | exact Or.inr ⟨_, _, rfl, by decide +kernel, den_frames ⟨by decide +kernel, rfl⟩ ⟨by decide +kernel, rfl⟩ (by decide) (by decide)⟩
  | exact Or.inr ⟨_, _, rfl, by decide +kernel, den_nVarints_eq ⟨by decide +kernel, rfl⟩ (by decide)⟩
  | exact Or.inr ⟨_, _, rfl, by decide +kernel, den_nVarints_bit ⟨by decide +kernel, rfl⟩ (by decide)⟩)

/-- All fields of a declaration. -/
macro "len_fields" : tactic => `(tactic| (repeat' first | exact trivial | refine And.intro ?_ ?_) <;> len_field)

theorem lens_Ethernet : LensFrom Source.srcEthernet ethernet 0 (Decl.fields ethernet) := by len_fields

theorem lens_Vlan : LensFrom Source.srcVlan vlan 0 (Decl.fields vlan) := by len_fields

theorem lens_Arp : LensFrom Source.srcArp arp 0 (Decl.fields arp) := by len_fields

theorem lens_Ipv4 : LensFrom Source.srcIpv4 ipv4 0 (Decl.fields ipv4) := by len_fields

theorem lens_Ipv4Option : LensFrom Source.srcIpv4Option ipv4Option 0 (Decl.fields ipv4Option) := by len_fields

theorem lens_Ipv6 : LensFrom Source.srcIpv6 ipv6 0 (Decl.fields ipv6) := by len_fields

theorem lens_Extension : LensFrom Source.srcExtension extension 0 (Decl.fields extension) := by len_fields

theorem lens_Routing : LensFrom Source.srcRouting routing 0 (Decl.fields routing) := by len_fields

theorem lens_Fragment : LensFrom Source.srcFragment fragment 0 (Decl.fields fragment) := by len_fields

theorem lens_Udp : LensFrom Source.srcUdp udp 0 (Decl.fields udp) := by len_fields

theorem lens_Tcp : LensFrom Source.srcTcp tcp 0 (Decl.fields tcp) := by len_fields

theorem lens_TcpOption : LensFrom Source.srcTcpOption tcpOption 0 (Decl.fields tcpOption) := by len_fields

theorem lens_IcmpIcmp : LensFrom Source.srcIcmpIcmp icmp 0 (Decl.fields icmp) := by len_fields

theorem lens_IcmpEchoReply : LensFrom Source.srcIcmpEchoReply echoReply 0 (Decl.fields echoReply) := by len_fields

theorem lens_IcmpEchoRequest : LensFrom Source.srcIcmpEchoRequest echoRequest 0 (Decl.fields echoRequest) := by len_fields

theorem lens_IcmpDestinationUnreachable : LensFrom Source.srcIcmpDestinationUnreachable destinationUnreachable 0 (Decl.fields destinationUnreachable) := by len_fields

theorem lens_IcmpTimeExceeded : LensFrom Source.srcIcmpTimeExceeded timeExceeded 0 (Decl.fields timeExceeded) := by len_fields

theorem lens_Icmpv6Icmpv6 : LensFrom Source.srcIcmpv6Icmpv6 icmpv6 0 (Decl.fields icmpv6) := by len_fields

theorem lens_Icmpv6NdpOption : LensFrom Source.srcIcmpv6NdpOption ndpOption 0 (Decl.fields ndpOption) := by len_fields

theorem lens_Icmpv6RouterSolicit : LensFrom Source.srcIcmpv6RouterSolicit routerSolicit 0 (Decl.fields routerSolicit) := by len_fields

theorem lens_Icmpv6RouterAdvert : LensFrom Source.srcIcmpv6RouterAdvert routerAdvert 0 (Decl.fields routerAdvert) := by len_fields

theorem lens_Icmpv6NeighborSolicit : LensFrom Source.srcIcmpv6NeighborSolicit neighborSolicit 0 (Decl.fields neighborSolicit) := by len_fields

theorem lens_Icmpv6NeighborAdvert : LensFrom Source.srcIcmpv6NeighborAdvert neighborAdvert 0 (Decl.fields neighborAdvert) := by len_fields

theorem lens_Icmpv6Redirect : LensFrom Source.srcIcmpv6Redirect redirect 0 (Decl.fields redirect) := by len_fields

theorem lens_Gre : LensFrom Source.srcGre gre 0 (Decl.fields gre) := by len_fields

theorem lens_U16BE : LensFrom Source.srcU16BE u16BE 0 (Decl.fields u16BE) := by len_fields

theorem lens_U32BE : LensFrom Source.srcU32BE u32BE 0 (Decl.fields u32BE) := by len_fields

theorem lens_QuicVersionNegotiation : LensFrom Source.srcQuicVersionNegotiation versionNegotiation 0 (Decl.fields versionNegotiation) := by len_fields

theorem lens_QuicInitial : LensFrom Source.srcQuicInitial initial 0 (Decl.fields initial) := by len_fields

theorem lens_QuicZeroRtt : LensFrom Source.srcQuicZeroRtt zeroRtt 0 (Decl.fields zeroRtt) := by len_fields

theorem lens_QuicHandshake : LensFrom Source.srcQuicHandshake handshake 0 (Decl.fields handshake) := by len_fields

theorem lens_QuicRetry : LensFrom Source.srcQuicRetry retry 0 (Decl.fields retry) := by len_fields

theorem lens_QuicOneRtt : LensFrom Source.srcQuicOneRtt oneRtt 0 (Decl.fields oneRtt) := by len_fields

theorem lens_QuicPadding : LensFrom Source.srcQuicPadding frameBare 0 (Decl.fields frameBare) := by len_fields

theorem lens_QuicPing : LensFrom Source.srcQuicPing frameBare 0 (Decl.fields frameBare) := by len_fields

theorem lens_QuicAck : LensFrom Source.srcQuicAck frameAck 0 (Decl.fields frameAck) := by len_fields

theorem lens_QuicResetStream : LensFrom Source.srcQuicResetStream frameResetStream 0 (Decl.fields frameResetStream) := by len_fields

theorem lens_QuicStopSending : LensFrom Source.srcQuicStopSending frameStopSending 0 (Decl.fields frameStopSending) := by len_fields

theorem lens_QuicCrypto : LensFrom Source.srcQuicCrypto frameCrypto 0 (Decl.fields frameCrypto) := by len_fields

theorem lens_QuicNewToken : LensFrom Source.srcQuicNewToken frameNewToken 0 (Decl.fields frameNewToken) := by len_fields

theorem lens_QuicStream : LensFrom Source.srcQuicStream frameStream 0 (Decl.fields frameStream) := by len_fields

theorem lens_QuicMaxData : LensFrom Source.srcQuicMaxData (frameOneVarint "max_data") 0 (Decl.fields (frameOneVarint "max_data")) := by len_fields

theorem lens_QuicMaxStreamData : LensFrom Source.srcQuicMaxStreamData frameTwoVarints 0 (Decl.fields frameTwoVarints) := by len_fields

theorem lens_QuicMaxStreams : LensFrom Source.srcQuicMaxStreams (frameOneVarint "max_streams") 0 (Decl.fields (frameOneVarint "max_streams")) := by len_fields

theorem lens_QuicDataBlocked : LensFrom Source.srcQuicDataBlocked (frameOneVarint "max_data") 0 (Decl.fields (frameOneVarint "max_data")) := by len_fields

theorem lens_QuicStreamDataBlocked : LensFrom Source.srcQuicStreamDataBlocked frameTwoVarints 0 (Decl.fields frameTwoVarints) := by len_fields

theorem lens_QuicStreamsBlocked : LensFrom Source.srcQuicStreamsBlocked (frameOneVarint "max_streams") 0 (Decl.fields (frameOneVarint "max_streams")) := by len_fields

theorem lens_QuicNewConnectionId : LensFrom Source.srcQuicNewConnectionId frameNewConnectionId 0 (Decl.fields frameNewConnectionId) := by len_fields

theorem lens_QuicRetireConnectionId : LensFrom Source.srcQuicRetireConnectionId (frameOneVarint "sequence_number") 0 (Decl.fields (frameOneVarint "sequence_number")) := by len_fields

theorem lens_QuicPathChallenge : LensFrom Source.srcQuicPathChallenge framePath 0 (Decl.fields framePath) := by len_fields

theorem lens_QuicPathResponse : LensFrom Source.srcQuicPathResponse framePath 0 (Decl.fields framePath) := by len_fields

theorem lens_QuicConnectionClose : LensFrom Source.srcQuicConnectionClose frameConnectionClose 0 (Decl.fields frameConnectionClose) := by len_fields

theorem lens_QuicHandshakeDone : LensFrom Source.srcQuicHandshakeDone frameBare 0 (Decl.fields frameBare) := by len_fields

end Verif
