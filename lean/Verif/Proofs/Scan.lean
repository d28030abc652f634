import Verif.Model.Quic
import Verif.Spec.Quic
import Verif.Proofs.Headers
import Verif.Proofs.Bounds

/-!
Helper lemmas: generated getters of declarations made of bytes that follow each other (as in QUIC)
are equivalent to a left-to-right scan.
-/

namespace Verif
open Spec

/-- The kinds of fields after the first byte of QUIC frames and packets. -/
inductive Item
  | vi
  | nvi (f : Nat → Nat)
  | opt (f : Nat → Nat)
  | nviOf (j : Nat)
  | viBytes (j : Nat)
  | stream (j : Nat)
  | const (n : Nat)
  | u8
  | u8Bytes (j : Nat)
  | pn (j : Nat)

/-- Length expression of a field. -/
def Item.len : Item → Option LenExpr
  | .vi => some lenVarintLength
  | .nvi f => some (lenNVarints f)
  | .opt f => some (lenNVarints f)
  | .nviOf j => some (lenNVarintsOf j)
  | .viBytes j => some (lenVarint j)
  | .stream j => some (lenStreamData j)
  | .const n => some (lenConst n)
  | .u8 => none
  | .u8Bytes j => some (lenU8 j)
  | .pn j => some (lenPn j)

/-- The field has the item's type and length expression. -/
def Item.Is (it : Item) (f : Field) : Prop :=
  f.len = it.len ∧ f.ty = if it.len.isSome then .vecPrim (u 8) else .prim (u 8)

/-- Fields and items correspond. -/
def ItemsAre : List Item → List Field → Prop
  | [], [] => True
  | it :: is, f :: fs => it.Is f ∧ ItemsAre is fs
  | _, _ => False

/-- Left-to-right scan: the values of the fields and the bytes behind them; `none` when a field
does not fit. -/
def scan (m : Mode) : List Item → List Val → Buf → Option (List Val × Buf)
  | [], vals, rest => some (vals, rest)
  | it :: is, vals, rest =>
    match it.len with
    | none =>
      match rest with
      | [] => none
      | b :: rest => scan m is (vals ++ [.num b.toNat]) rest
    | some e =>
      match e m (env vals) (.ok rest) with
      | .error _ => none
      | .ok n =>
        if n ≤ rest.length then
          scan m is (vals ++ [.nums ((rest.take n).map (·.toNat))]) (rest.drop n)
        else none

/-- The state of the generated code after a successful scan. -/
structure Alive (buf : Buf) (st : St) (vals : List Val) (rest : Buf) : Prop where
  lens : ∃ sizes : List Nat, st.lens = sizes.map .ok ∧
    rest = buf.drop (st.bit / 8 + sizes.sum) ∧ st.bit / 8 + sizes.sum ≤ buf.length
  vals : st.vals = vals.map .ok
  bit : st.bit % 8 = 0

theorem Alive.curOff {buf : Buf} {st : St} {vals : List Val} {rest : Buf}
    (h : Alive buf st vals rest) (hsl : SliceLen buf.length) (m : Mode) :
    ∃ o, curOff m st.bit st.lens = .ok o ∧ rest = buf.drop o ∧ o ≤ buf.length := by
  obtain ⟨sizes, h1, h2, h3⟩ := h.lens
  unfold SliceLen at hsl
  refine ⟨_, by rw [h1]; exact curOff_ok (by unfold usizeCard; omega), h2, h3⟩

theorem get_env {st : St} {vals : List Val} (h : st.vals = vals.map .ok) : st.get = env vals := by
  funext i
  rw [St.get, h, List.getElem?_map, env]
  cases vals[i]? <;> rfl

theorem Alive.lenExpr {buf : Buf} {st : St} {vals : List Val} {rest : Buf}
    (h : Alive buf st vals rest) (hsl : SliceLen buf.length) (m : Mode) (e : LenExpr) :
    lenExpr m buf st e = e m (env vals) (.ok rest) := by
  obtain ⟨o, h1, h2, h3⟩ := h.curOff hsl m
  rw [Verif.lenExpr, h1, ok_bind, sliceFrom, if_pos h3, ← h2, get_env h.vals]

/-- One successful step. -/
theorem Alive.step_vec {m : Mode} {buf : Buf} {st : St} {vals : List Val} {rest : Buf}
    (h : Alive buf st vals rest) (hsl : SliceLen buf.length) {f : Field} {e : LenExpr}
    (he : f.len = some e) (hty : f.ty = .vecPrim (u 8)) {n : Nat}
    (hn : e m (env vals) (.ok rest) = .ok n) (hle : n ≤ rest.length) :
    Alive buf (st.step m buf f) (vals ++ [.nums ((rest.take n).map (·.toNat))]) (rest.drop n) := by
  have hle' : Verif.lenExpr m buf st e = .ok n := by rw [h.lenExpr hsl, hn]
  obtain ⟨sizes, h1, h2, h3⟩ := h.lens
  obtain ⟨o, ho, hr, hol⟩ := h.curOff hsl m
  have hoe : o = st.bit / 8 + sizes.sum := by
    rw [h1, curOff_ok (by unfold SliceLen at hsl; unfold usizeCard; omega)] at ho
    cases ho; rfl
  have hrl : rest.length = buf.length - o := by rw [hr, List.length_drop]
  refine ⟨⟨sizes ++ [n], ?_, ?_, ?_⟩, ?_, ?_⟩
  · simp only [St.step, he, hle', h1, List.map_append, List.map_cons, List.map_nil]
  · simp only [St.step, hty, Ty.bits, List.sum_append, List.sum_cons, List.sum_nil]
    rw [h2, List.drop_drop]; congr 1; omega
  · simp only [St.step, hty, Ty.bits, List.sum_append, List.sum_cons, List.sum_nil]
    omega
  · simp only [St.step, List.map_append, List.map_cons, List.map_nil, h.vals]
    congr 2
    rw [hty, getField, ho, fieldLen, he]
    simp only [hle']
    have hv : varSlice m buf (.ok o) (.ok n) = .ok (rest.take n) := by
      have hmin : min (o + n) buf.length = o + n := Nat.min_eq_left (by omega)
      rw [varSlice, ok_bind, ok_bind, uadd_ok (by unfold SliceLen at hsl; unfold usizeCard; omega),
        ok_bind, slice, hmin, if_pos ⟨by omega, by omega⟩, List.drop_take, hr]
      congr 2; omega
    rw [hv, ok_bind, getElems_u8 _ _ _ (by omega)]
    simp
  · simp only [St.step, hty, Ty.bits]; exact h.bit

/-- One successful step over a byte. -/
theorem Alive.step_u8 {m : Mode} {buf : Buf} {st : St} {vals : List Val} {b : UInt8} {rest : Buf}
    (h : Alive buf st vals (b :: rest)) (hsl : SliceLen buf.length) {f : Field}
    (he : f.len = none) (hty : f.ty = .prim (u 8)) :
    Alive buf (st.step m buf f) (vals ++ [.num b.toNat]) rest := by
  obtain ⟨sizes, h1, h2, h3⟩ := h.lens
  obtain ⟨o, ho, hr, hol⟩ := h.curOff hsl m
  have hoe : o = st.bit / 8 + sizes.sum := by
    rw [h1, curOff_ok (by unfold SliceLen at hsl; unfold usizeCard; omega)] at ho
    cases ho; rfl
  have hlt : o < buf.length := by
    have := congrArg List.length hr
    simp only [List.length_cons, List.length_drop] at this
    omega
  have hb := h.bit
  have hdiv : (st.bit + 8) / 8 = st.bit / 8 + 1 := by omega
  rw [List.drop_eq_getElem_cons hlt] at hr
  injection hr with hb1 hb2
  refine ⟨⟨sizes, ?_, ?_, ?_⟩, ?_, ?_⟩
  · simp only [St.step, he, h1]
  · simp only [St.step, hty, Ty.bits, u, hdiv]
    rw [hb2]; congr 1; omega
  · simp only [St.step, hty, Ty.bits, u, hdiv]; omega
  · simp only [St.step, List.map_append, List.map_cons, List.map_nil, h.vals]
    congr 2
    rw [hty, getField, ho, ok_bind, h.bit]
    show Val.num <$> getPrim ⟨8, .big⟩ 0 buf o = _
    rw [getPrim_u8 hlt, hb1]; rfl
  · simp only [St.step, hty, Ty.bits, u]; omega

/-- Soundness of the scan. -/
theorem scan_alive {m : Mode} {buf : Buf} (hsl : SliceLen buf.length) (is : List Item)
    (fs : List Field) (hi : ItemsAre is fs) {st : St} {vals : List Val} {rest : Buf}
    (h : Alive buf st vals rest) {vals' : List Val} {rest' : Buf}
    (hs : scan m is vals rest = some (vals', rest')) :
    Alive buf (St.run m buf st fs) vals' rest' := by
  induction is generalizing fs st vals rest with
  | nil =>
    cases fs with
    | nil => simp only [scan, Option.some.injEq, Prod.mk.injEq] at hs; rw [← hs.1, ← hs.2]; exact h
    | cons _ _ => exact hi.elim
  | cons it is ih =>
    cases fs with
    | nil => exact hi.elim
    | cons f fs =>
      obtain ⟨⟨hl, hty⟩, hi⟩ := hi
      unfold scan at hs
      change Alive buf (St.run m buf (st.step m buf f) fs) vals' rest'
      cases he : it.len with
      | none =>
        rw [he] at hs hl hty
        simp only at hs
        cases rest with
        | nil => simp at hs
        | cons b rest => exact ih fs hi (h.step_u8 hsl hl (by simpa using hty)) hs
      | some e =>
        rw [he] at hs hl hty
        simp only at hs
        cases hn : e m (env vals) (.ok rest) with
        | error x => rw [hn] at hs; simp at hs
        | ok n =>
          rw [hn] at hs
          simp only at hs
          by_cases hle : n ≤ rest.length
          · rw [if_pos hle] at hs
            exact ih fs hi (h.step_vec hsl hl (by simpa using hty) hn hle) hs
          · rw [if_neg hle] at hs; simp at hs

/-! ## Failure of the scan -/

theorem varint_foldl_eq (l : List Nat) (a : Nat) (ha : a < 2 ^ (64 - 8 * l.length)) (hl : l.length ≤ 8)
    (hb : ∀ x ∈ l, x < 256) :
    l.foldl (fun length v => (length <<< 8) % 2 ^ 64 + v) a = l.foldl (fun a b => a * 256 + b) a := by
  induction l generalizing a with
  | nil => rfl
  | cons v l ih =>
    simp only [List.length_cons] at ha hl
    have hv := hb v (by simp)
    have h8 : (2 : Nat) ^ (64 - 8 * l.length) = 2 ^ (64 - 8 * (l.length + 1)) * 256 := by
      rw [show 64 - 8 * l.length = 64 - 8 * (l.length + 1) + 8 by omega, Nat.pow_add]
    have hle : (2 : Nat) ^ (64 - 8 * l.length) ≤ 2 ^ 64 := Nat.pow_le_pow_right (by omega) (by omega)
    have hs : (a <<< 8) % 2 ^ 64 = a * 256 := by
      rw [Nat.shiftLeft_eq, Nat.mod_eq_of_lt]
      · omega
    simp only [List.foldl_cons, hs]
    exact ih (a * 256 + v) (by omega) (by omega) fun x hx => hb x (by simp [hx])

theorem foldl_be_lt (l : List Nat) (a : Nat) (hb : ∀ x ∈ l, x < 256) :
    l.foldl (fun a b => a * 256 + b) a < (a + 1) * 256 ^ l.length := by
  induction l generalizing a with
  | nil => simp
  | cons v l ih =>
    have := ih (a * 256 + v) fun x hx => hb x (by simp [hx])
    have hv := hb v (by simp)
    simp only [List.foldl_cons, List.length_cons, Nat.pow_succ]
    refine Nat.lt_of_lt_of_le this ?_
    have : a * 256 + v + 1 ≤ (a + 1) * 256 := by omega
    calc (a * 256 + v + 1) * 256 ^ l.length ≤ (a + 1) * 256 * 256 ^ l.length :=
          Nat.mul_le_mul_right _ this
      _ = (a + 1) * (256 ^ l.length * 256) := by rw [Nat.mul_assoc, Nat.mul_comm 256]

/-- Values decoded from at most 8 bytes. -/
theorem varint_lt {l : List Nat} {n : Nat} (h : varint l = .ok n) (hl : l.length ≤ 8)
    (hb : ∀ x ∈ l, x < 256) : n < 2 ^ 62 := by
  cases l with
  | nil => simp [varint] at h
  | cons a l =>
    simp only [varint, Except.ok.injEq] at h
    simp only [List.length_cons] at hl
    have ha : a &&& 0x3f < 2 ^ 6 := by
      rw [show 0x3f = 2 ^ 6 - 1 from rfl, Nat.and_two_pow_sub_one_eq_mod]; omega
    have h6 : (2 : Nat) ^ 6 ≤ 2 ^ (64 - 8 * l.length) := Nat.pow_le_pow_right (by omega) (by omega)
    rw [varint_foldl_eq l _ (by omega) (by omega) fun x hx => hb x (by simp [hx])] at h
    have := foldl_be_lt l (a &&& 0x3f) fun x hx => hb x (by simp [hx])
    have h2 : ((a &&& 0x3f) + 1) * 256 ^ l.length ≤ 2 ^ 6 * 256 ^ 7 :=
      Nat.mul_le_mul (by omega) (Nat.pow_le_pow_right (by omega) (by omega))
    omega

theorem shift_le (b : UInt8) : 1 <<< (b.toNat >>> 6) ≤ 8 := by
  rw [Nat.shiftRight_eq_div_pow, Nat.one_shiftLeft]
  have := b.toNat_lt
  exact Nat.pow_le_pow_right (n := 2) (i := b.toNat / 2 ^ 6) (j := 3) (by omega) (by omega)

theorem varintLength_le {rest : Buf} {n : Nat} (h : varintLength rest = .ok n) : n ≤ 8 := by
  rw [varintLength, bind_eq_ok] at h
  obtain ⟨b, -, h⟩ := h
  simp only [Except.ok.injEq] at h
  have := shift_le b
  omega

theorem nVarints_le {k : Nat} {rest : Buf} {n : Nat} (h : nVarints k rest = .ok n) :
    n ≤ rest.length ∧ n ≤ 8 * k := by
  induction k generalizing rest n with
  | zero => simp [nVarints] at h; omega
  | succ k ih =>
    simp only [nVarints, bind_eq_ok, Except.ok.injEq] at h
    obtain ⟨b, -, rest', hr, l, hl, rfl⟩ := h
    unfold sliceFrom at hr
    by_cases hc : 1 <<< (b.toNat >>> 6) ≤ rest.length
    · rw [if_pos hc] at hr
      cases hr
      have h1 := ih hl
      have := shift_le b
      rw [List.length_drop] at h1
      omega
    · rw [if_neg hc] at hr; simp at hr

/-- The most an item can add to the offset. -/
def Item.cap : Item → Nat
  | .vi => 8
  | .nvi _ => 0
  | .opt _ => 0
  | .nviOf _ => 0
  | .viBytes _ => 2 ^ 62
  | .stream _ => 2 ^ 62
  | .const n => n
  | .u8 => 1
  | .u8Bytes _ => 2 ^ 32
  | .pn _ => 2 ^ 32 + 1

/-- The length expression looks at the following bytes. -/
def Item.strict : Item → Bool
  | .vi => true
  | .nvi _ => true
  | .opt _ => true
  | .nviOf _ => true
  | _ => false

/-- The most that can be added up to the next field that looks at the bytes. -/
def grow : List Item → Nat
  | [] => 0
  | it :: is => if it.strict then 0 else it.cap + grow is

/-- Integer lengths refer to fields holding a variable-length integer (their positions are `V`). -/
def Item.ref (V : List Nat) : Item → Prop
  | .viBytes j => j ∈ V
  | .stream j => j ∈ V
  | .opt f => ∀ t, f t ≤ 1
  | _ => True

/-- Positions of variable-length integers after field `k`. -/
def Item.next (k : Nat) (V : List Nat) : Item → List Nat
  | .vi => k :: V
  | .opt _ => k :: V
  | _ => V

/-- Offsets cannot wrap around. -/
def tame : (k : Nat) → (V : List Nat) → List Item → Prop
  | _, _, [] => True
  | k, V, it :: is => it.cap + grow is ≤ 2 ^ 63 ∧ it.ref V ∧ tame (k + 1) (it.next k V) is

/-- The fields at the positions `V` hold at most 8 bytes. -/
def Short (V : List Nat) (vals : List (Res Val)) : Prop :=
  ∀ j ∈ V, ∃ l, vals[j]? = some (.ok (.nums l)) ∧ l.length ≤ 8 ∧ ∀ x ∈ l, x < 256

/-- Integer fields are small. -/
def NumSmall (vals : List (Res Val)) : Prop := ∀ x ∈ vals, ∀ n, x = .ok (.num n) → n < 2 ^ 32

theorem Short.append {V : List Nat} {vals : List (Res Val)} (h : Short V vals) (x : Res Val) :
    Short V (vals ++ [x]) := by
  intro j hj
  obtain ⟨l, h1, h2⟩ := h j hj
  exact ⟨l, by rw [List.getElem?_append_left (List.getElem?_eq_some_iff.mp h1).1, h1], h2⟩

theorem Short.snoc {V : List Nat} {vals : List (Res Val)} (h : Short V vals) {k : Nat}
    (hk : vals.length = k) {l : List Nat} (hl : l.length ≤ 8) (hb : ∀ x ∈ l, x < 256) :
    Short (k :: V) (vals ++ [.ok (.nums l)]) := by
  intro j hj
  rcases List.mem_cons.mp hj with rfl | hj
  · exact ⟨l, by rw [List.getElem?_append_right (by omega), hk]; simp, hl, hb⟩
  · exact h.append _ j hj

theorem NumSmall.step {m : Mode} {buf : Buf} {st : St} (h : NumSmall st.vals) {it : Item} {f : Field}
    (hf : it.Is f) : NumSmall (st.step m buf f).vals := by
  intro x hx n hn
  simp only [St.step, List.mem_append, List.mem_singleton] at hx
  rcases hx with hx | rfl
  · exact h x hx n hn
  · have hsm : smallTy f.ty = true := by
      rw [hf.2]; split <;> rfl
    exact getField_small hsm hn

/-- The scan has failed: a length has no value, or the offset is beyond the buffer and stays there. -/
def Dead (buf : Buf) (st : St) (g : Nat) (V : List Nat) : Prop :=
  (∃ x ∈ st.lens, ∀ n, x ≠ .ok n) ∨
    ∃ sizes : List Nat, st.lens = sizes.map .ok ∧ buf.length < st.bit / 8 + sizes.sum ∧
      st.bit / 8 + sizes.sum + g < 2 ^ 64 ∧ Short V st.vals ∧ NumSmall st.vals

theorem curOff_error {m : Mode} {bit : Nat} {lens : List (Res Nat)}
    (h : ∃ x ∈ lens, ∀ n, x ≠ .ok n) (o : Nat) : curOff m bit lens ≠ .ok o := by
  intro ho
  obtain ⟨sizes, hs⟩ := foldlM_uadd_ok ho
  obtain ⟨x, hx, hn⟩ := h
  rw [hs, List.mem_map] at hx
  obtain ⟨n, -, rfl⟩ := hx
  exact hn n rfl

/-- Value of a length expression of bounded size. -/
theorem cap_bound {m : Mode} {g : Nat → Res Val} {r : Res Buf} {V : List Nat} {it : Item} {e : LenExpr}
    (he : it.len = some e) (hns : it.strict = false) (href : it.ref V)
    (hV : ∀ j ∈ V, ∃ l, g j = .ok (.nums l) ∧ l.length ≤ 8 ∧ ∀ x ∈ l, x < 256)
    (hN : ∀ j n, g j = .ok (.num n) → n < 2 ^ 32) {n : Nat} (hn : e m g r = .ok n) :
    n ≤ it.cap ∨ ∃ rest, r = .ok rest ∧ n ≤ rest.length := by
  have hvi : ∀ j ∈ V, ∀ n, lenVarint j m g r = .ok n → n < 2 ^ 62 := by
    intro j hj n hn
    obtain ⟨l, h1, h2, h3⟩ := hV j hj
    rw [lenVarint, h1] at hn
    exact varint_lt hn h2 h3
  have hnum : ∀ j f n, lenNum j f m g r = .ok n → ∃ x, x < 2 ^ 32 ∧ n = f x := by
    intro j f n hn
    rw [lenNum, bind_eq_ok] at hn
    obtain ⟨v, hv, hn⟩ := hn
    rw [bind_eq_ok] at hn
    obtain ⟨x, hx, hn⟩ := hn
    cases hn
    rw [asNum_eq_ok hx] at hv
    exact ⟨x, hN j x hv, rfl⟩
  cases it <;> simp only [Item.strict, Bool.true_eq_false] at hns <;>
    simp only [Item.len, Option.some.injEq, reduceCtorEq] at he <;> subst he
  case viBytes j => exact .inl (Nat.le_of_lt (hvi j href n hn))
  case stream j =>
    obtain ⟨l, h1, h2, h3⟩ := hV j href
    simp only [lenStreamData, h1, ok_bind, Val.asNums] at hn
    by_cases hl : l.isEmpty = true
    · rw [if_pos hl, bind_eq_ok] at hn
      obtain ⟨rest, hr, hn⟩ := hn
      cases hn
      exact .inr ⟨rest, hr, Nat.le_refl _⟩
    · rw [if_neg hl] at hn
      exact .inl (Nat.le_of_lt (varint_lt hn h2 h3))
  case const c => cases hn; exact .inl (Nat.le_refl _)
  case u8Bytes j =>
    obtain ⟨x, hx, rfl⟩ := hnum j _ n hn
    exact .inl (Nat.le_of_lt hx)
  case pn j =>
    obtain ⟨x, hx, rfl⟩ := hnum j _ n hn
    left; show x + 1 ≤ 2 ^ 32 + 1; omega

theorem strict_panic {m : Mode} {g : Nat → Res Val} {it : Item} {e : LenExpr} (he : it.len = some e)
    (hs : it.strict = true) (n : Nat) : e m g panic ≠ .ok n := by
  cases it <;> simp only [Item.strict, Bool.false_eq_true] at hs <;>
    simp only [Item.len, Option.some.injEq] at he <;> subst he <;> intro hn
  · simp [lenVarintLength] at hn
  · simp only [lenNVarints, bind_eq_ok] at hn; obtain ⟨_, _, _, _, _, h, _⟩ := hn; simp at h
  · simp only [lenNVarints, bind_eq_ok] at hn; obtain ⟨_, _, _, _, _, h, _⟩ := hn; simp at h
  · simp only [lenNVarintsOf, bind_eq_ok] at hn; obtain ⟨_, _, _, _, _, _, _, h, _⟩ := hn; simp at h

theorem strict_bound {m : Mode} {g : Nat → Res Val} {it : Item} {e : LenExpr} (he : it.len = some e)
    (hs : it.strict = true) {rest : Buf} {n : Nat} (hn : e m g (.ok rest) = .ok n) :
    n ≤ it.cap ∨ n ≤ rest.length := by
  cases it <;> simp only [Item.strict, Bool.false_eq_true] at hs <;>
    simp only [Item.len, Option.some.injEq] at he <;> subst he
  · simp only [lenVarintLength, ok_bind] at hn; exact .inl (varintLength_le hn)
  · simp only [lenNVarints, bind_eq_ok] at hn; obtain ⟨_, _, _, _, _, h, hn⟩ := hn
    cases h; exact .inr (nVarints_le hn).1
  · simp only [lenNVarints, bind_eq_ok] at hn; obtain ⟨_, _, _, _, _, h, hn⟩ := hn
    cases h; exact .inr (nVarints_le hn).1
  · simp only [lenNVarintsOf, bind_eq_ok] at hn; obtain ⟨_, _, _, _, _, _, _, h, hn⟩ := hn
    cases h; exact .inr (nVarints_le hn).1

theorem get_of_vals {st : St} {j : Nat} {v : Val} (h : st.vals[j]? = some (.ok v)) :
    st.get j = .ok v := by rw [St.get, h]; rfl

theorem NumSmall.get {st : St} (h : NumSmall st.vals) (j n : Nat) (hn : st.get j = .ok (.num n)) :
    n < 2 ^ 32 := by
  rw [St.get] at hn
  cases hj : st.vals[j]? with
  | none => rw [hj] at hn; simp at hn
  | some x => rw [hj] at hn; exact h x (List.mem_of_getElem? hj) n hn

theorem Short.get {st : St} {V : List Nat} (h : Short V st.vals) :
    ∀ j ∈ V, ∃ l, st.get j = .ok (.nums l) ∧ l.length ≤ 8 ∧ ∀ x ∈ l, x < 256 := by
  intro j hj
  obtain ⟨l, h1, h2⟩ := h j hj
  exact ⟨l, get_of_vals h1, h2⟩

/-- Once failed, always failed. -/
theorem Dead.step {m : Mode} {buf : Buf} {st : St} {V : List Nat} {it : Item} {is : List Item}
    {f : Field} (h : Dead buf st (grow (it :: is)) V) (hf : it.Is f) (href : it.ref V)
    {k : Nat} : Dead buf (st.step m buf f) (grow is) (it.next k V) := by
  rcases h with ⟨x, hx, hn⟩ | ⟨sizes, h1, h2, h3, h4, h5⟩
  · left
    refine ⟨x, ?_, hn⟩
    simp only [St.step]
    cases f.len with
    | none => exact hx
    | some e => simp [hx]
  · cases he : it.len with
    | none =>
      have hit : it = .u8 := by cases it <;> simp [Item.len] at he; rfl
      subst hit
      have hty : f.ty = .prim (u 8) := hf.2
      have hlen : f.len = none := hf.1
      right
      simp only [grow, Item.strict, Item.cap, Bool.false_eq_true, ite_false] at h3
      refine ⟨sizes, by simp only [St.step, hlen, h1], ?_, ?_, ?_, h5.step hf⟩
      · simp only [St.step, hty, Ty.bits, u]; omega
      · simp only [St.step, hty, Ty.bits, u]; omega
      · exact h4.append _
    | some e =>
      have hlen : f.len = some e := by rw [hf.1, he]
      have hty : f.ty = .vecPrim (u 8) := by rw [hf.2, he]; rfl
      have hco : curOff m st.bit st.lens = .ok (st.bit / 8 + sizes.sum) := by
        rw [h1]; exact curOff_ok (by unfold usizeCard; omega)
      have hsf : sliceFrom buf (st.bit / 8 + sizes.sum) = panic := by
        rw [sliceFrom, if_neg (by omega)]
      have hl : lenExpr m buf st e = e m st.get panic := by rw [lenExpr, hco, ok_bind, hsf]
      cases hv : e m st.get panic with
      | error x =>
        left
        refine ⟨.error x, ?_, by simp⟩
        simp [St.step, hlen, hl, hv]
      | ok n =>
        have hns : it.strict = false := by
          cases hs : it.strict with
          | false => rfl
          | true => exact (strict_panic he hs n hv).elim
        have hcap := cap_bound he hns href h4.get h5.get hv
        have hcap : n ≤ it.cap := by
          rcases hcap with h | ⟨r, hr, -⟩
          · exact h
          · simp [panic] at hr
        right
        simp only [grow, hns, Bool.false_eq_true, ite_false] at h3
        have hnext : it.next k V = V := by
          cases it <;> simp [Item.strict] at hns <;> rfl
        refine ⟨sizes ++ [n], ?_, ?_, ?_, ?_, h5.step hf⟩
        · simp [St.step, hlen, hl, hv, h1]
        · simp only [St.step, hty, Ty.bits, List.sum_append, List.sum_cons, List.sum_nil]; omega
        · simp only [St.step, hty, Ty.bits, List.sum_append, List.sum_cons, List.sum_nil]; omega
        · rw [hnext]; exact h4.append _

theorem Dead.run {m : Mode} {buf : Buf} (is : List Item) (fs : List Field) (hi : ItemsAre is fs)
    {st : St} {k : Nat} {V : List Nat} (ht : tame k V is) (h : Dead buf st (grow is) V) :
    ∃ V', Dead buf (St.run m buf st fs) 0 V' := by
  induction is generalizing fs st k V with
  | nil =>
    cases fs with
    | nil => exact ⟨V, h⟩
    | cons _ _ => exact hi.elim
  | cons it is ih =>
    cases fs with
    | nil => exact hi.elim
    | cons f fs => exact ih fs hi.2 ht.2.2 (h.step hi.1 ht.2.1)

theorem Dead.curOff {m : Mode} {buf : Buf} {st : St} {g : Nat} {V : List Nat} (h : Dead buf st g V)
    {o : Nat} (ho : curOff m st.bit st.lens = .ok o) : buf.length < o := by
  rcases h with h | ⟨sizes, h1, h2, h3, -⟩
  · exact (curOff_error h o ho).elim
  · rw [h1, curOff_ok (by unfold usizeCard; omega)] at ho
    cases ho; exact h2

/-- The first failing step. -/
theorem Alive.dead {m : Mode} {buf : Buf} {st : St} {vals : List Val} {rest : Buf}
    (h : Alive buf st vals rest) (hsl : SliceLen buf.length) {V : List Nat}
    (hV : Short V st.vals) (hN : NumSmall st.vals) {it : Item} {is : List Item} {f : Field}
    (hf : it.Is f) (href : it.ref V) (hcap : it.cap + grow is ≤ 2 ^ 63)
    (hbad : match it.len with
      | none => rest = []
      | some e => ∀ n, e m (env vals) (.ok rest) = .ok n → rest.length < n) :
    Dead buf (st.step m buf f) (grow is) (it.next vals.length V) := by
  obtain ⟨sizes, h1, h2, h3⟩ := h.lens
  have hrl : rest.length = buf.length - (st.bit / 8 + sizes.sum) := by rw [h2, List.length_drop]
  have hsl' := hsl
  unfold SliceLen at hsl'
  cases he : it.len with
  | none =>
    have hit : it = .u8 := by cases it <;> simp [Item.len] at he; rfl
    subst hit
    have hty : f.ty = .prim (u 8) := hf.2
    have hlen : f.len = none := hf.1
    simp only [Item.len] at hbad
    rw [hbad] at hrl
    simp only [List.length_nil] at hrl
    simp only [Item.cap] at hcap
    right
    refine ⟨sizes, by simp only [St.step, hlen, h1], ?_, ?_, hV.append _, hN.step hf⟩
    · simp only [St.step, hty, Ty.bits, u]; omega
    · simp only [St.step, hty, Ty.bits, u]; omega
  | some e =>
    have hlen : f.len = some e := by rw [hf.1, he]
    have hty : f.ty = .vecPrim (u 8) := by rw [hf.2, he]; rfl
    rw [he] at hbad
    simp only at hbad
    have hl := h.lenExpr hsl m e
    cases hv : e m (env vals) (.ok rest) with
    | error x =>
      left
      refine ⟨.error x, ?_, by simp⟩
      simp [St.step, hlen, hl, hv]
    | ok n =>
      have hlt := hbad n hv
      have hn : n ≤ it.cap := by
        cases hs : it.strict with
        | true => rcases strict_bound he hs hv with h | h <;> omega
        | false =>
          rcases cap_bound he hs href (by rw [← get_env h.vals]; exact hV.get)
            (by rw [← get_env h.vals]; exact hN.get) hv with h | ⟨r, hr, h⟩
          · exact h
          · cases hr; omega
      right
      refine ⟨sizes ++ [n], ?_, ?_, ?_, ?_, hN.step hf⟩
      · simp [St.step, hlen, hl, hv, h1]
      · simp only [St.step, hty, Ty.bits, List.sum_append, List.sum_cons, List.sum_nil]; omega
      · simp only [St.step, hty, Ty.bits, List.sum_append, List.sum_cons, List.sum_nil]; omega
      · obtain ⟨o, ho, hr, hol⟩ := h.curOff hsl m
        have hoe : o = st.bit / 8 + sizes.sum := by
          rw [h1, curOff_ok (by unfold usizeCard; omega)] at ho
          cases ho; rfl
        have hvs : varSlice m buf (.ok o) (.ok n) = .ok rest := by
          have hmin : min (o + n) buf.length = buf.length := Nat.min_eq_right (by omega)
          rw [varSlice, ok_bind, ok_bind, uadd_ok (by unfold usizeCard; omega), ok_bind, slice, hmin,
            if_pos ⟨by omega, by omega⟩, List.take_length, hr]
        have hg : getField m buf st.bit st.lens (fieldLen m buf st f) f.ty =
            .ok (.nums (rest.map (·.toNat))) := by
          rw [hty, getField, ho, fieldLen, hlen]
          simp only [hl, hv]
          rw [hvs, ok_bind, getElems_u8 _ _ _ (by omega)]
          simp
        have hsnoc : n ≤ 8 → Short (vals.length :: V) (st.step m buf f).vals := fun h8 => by
          have hk : st.vals.length = vals.length := by rw [h.vals, List.length_map]
          simp only [St.step, hg]
          refine hV.snoc hk (by simp; omega) ?_
          intro x hx
          obtain ⟨b, -, rfl⟩ := List.mem_map.mp hx
          exact b.toNat_lt
        have happ : Short V (st.step m buf f).vals := hV.append _
        cases it <;> simp only [Item.next] <;> try exact happ
        · exact hsnoc hn
        · exact hsnoc (by simp only [Item.cap] at hn; omega)

/-- Completeness of the scan: when it fails, later offsets are beyond the buffer (or missing). -/
theorem scan_dead {m : Mode} {buf : Buf} (hsl : SliceLen buf.length) (is : List Item)
    (fs : List Field) (hi : ItemsAre is fs) {st : St} {vals : List Val} {rest : Buf}
    (h : Alive buf st vals rest) {V : List Nat} (ht : tame vals.length V is)
    (hV : Short V st.vals) (hN : NumSmall st.vals)
    (hs : scan m is vals rest = none) {o : Nat}
    (ho : curOff m (St.run m buf st fs).bit (St.run m buf st fs).lens = .ok o) : buf.length < o := by
  suffices ∃ V', Dead buf (St.run m buf st fs) 0 V' by
    obtain ⟨V', hd⟩ := this
    exact hd.curOff ho
  clear ho
  induction is generalizing fs st vals rest V with
  | nil => simp [scan] at hs
  | cons it is ih =>
    cases fs with
    | nil => exact hi.elim
    | cons f fs =>
      obtain ⟨hf, hi⟩ := hi
      obtain ⟨hcap, href, ht⟩ := ht
      change ∃ V', Dead buf (St.run m buf (st.step m buf f) fs) 0 V'
      have hk : st.vals.length = vals.length := by rw [h.vals, List.length_map]
      cases he : it.len with
      | none =>
        have hit : it = .u8 := by cases it <;> simp [Item.len] at he; rfl
        subst hit
        unfold scan at hs
        simp only [Item.len] at hs
        cases rest with
        | nil =>
          exact Dead.run is fs hi ht (h.dead hsl hV hN hf href hcap (by simp only [Item.len]))
        | cons b rest =>
          exact ih fs hi (h.step_u8 hsl hf.1 hf.2) (by simpa [Item.next] using ht) (hV.append _) (hN.step hf) hs
      | some e =>
        have hlen : f.len = some e := by rw [hf.1, he]
        have hty : f.ty = .vecPrim (u 8) := by rw [hf.2, he]; rfl
        by_cases hok : ∃ n, e m (env vals) (.ok rest) = .ok n ∧ n ≤ rest.length
        · obtain ⟨n, hn, hle⟩ := hok
          have ha := h.step_vec (m := m) hsl hlen hty hn hle
          unfold scan at hs
          simp only [he, hn, if_pos hle] at hs
          refine ih fs hi ha (V := it.next vals.length V) (by simpa using ht) ?_ (hN.step hf) hs
          have hval := ha.vals
          have hsnoc : n ≤ 8 → Short (vals.length :: V) (st.step m buf f).vals := fun h8 => by
            rw [hval, List.map_append, ← h.vals]
            refine hV.snoc hk (by simp; omega) ?_
            intro x hx
            obtain ⟨b, -, rfl⟩ := List.mem_map.mp hx
            exact b.toNat_lt
          have happ : Short V (st.step m buf f).vals := hV.append _
          cases it <;> simp only [Item.next] <;> try exact happ
          · simp only [Item.len, Option.some.injEq] at he
            subst he
            simp only [lenVarintLength, ok_bind] at hn
            exact hsnoc (varintLength_le hn)
          · rename_i g
            simp only [Item.len, Option.some.injEq] at he
            subst he
            simp only [lenNVarints, bind_eq_ok] at hn
            obtain ⟨_, _, t, _, _, h', hn⟩ := hn
            cases h'
            have h1 := (nVarints_le hn).2
            have h2 : g t ≤ 1 := href t
            exact hsnoc (by omega)
        · refine Dead.run is fs hi ht (h.dead hsl hV hN hf href hcap ?_)
          rw [he]
          intro n hn
          exact Nat.lt_of_not_le fun hle => hok ⟨n, hn, hle⟩

end Verif
