import Verif.Proofs.QuicFrameFields
import Verif.Proofs.QuicPopulate
import Verif.Spec.QuicFrameBytes

/-! Helper lemmas: `populate` of QUIC frames. -/

namespace Verif
open Spec

/-- The value of a field with these bytes. -/
def Item.val (it : Item) (bs : Buf) : Val :=
  match it.len with
  | none => .num (bs.headD 0).toNat
  | some _ => Quic.bytesOf bs

/-- Once the bytes `bss` of the fields stand in the last `r` bytes of a buffer, the length expressions give
their sizes. -/
def PutReads (m : Mode) : List Item → List Val → List Buf → Nat → Prop
  | [], _, [], _ => True
  | it :: is, vals, bs :: bss, r => bs.length ≤ r ∧ (it.len = none → bs.length = 1) ∧
      (∀ e, it.len = some e → ∀ rest : Buf, bs.length + rest.length = r →
        e m (env vals) (.ok (bs ++ rest)) = .ok bs.length) ∧
      PutReads m is (vals ++ [it.val bs]) bss (r - bs.length)
  | _, _, _, _ => False

/-- The length expressions leave enough room for `bss` where the old bytes `T` still stand. -/
def Room (m : Mode) : List Item → List Val → List Buf → Buf → Prop
  | it :: is, vals, bs :: bss, T =>
    (∀ e, it.len = some e → ∃ n, e m (env vals) (.ok T) = .ok n ∧ bs.length ≤ n) ∧
      Room m is (vals ++ [it.val bs]) bss (T.drop bs.length)
  | _, _, _, _ => True

theorem ofNat_bytes (bs : Buf) : (bs.map (·.toNat)).map UInt8.ofNat = bs := by
  rw [List.map_map]
  conv => rhs; rw [← List.map_id bs]
  apply List.map_congr_left
  intro a _
  simp

/-- A length expression either gives a length or panics. -/
theorem item_len_cases {m : Mode} (it : Item) {e : LenExpr} (he : it.len = some e) (vals : List Val) (T : Buf) :
    (∃ n, e m (env vals) (.ok T) = .ok n) ∨ e m (env vals) (.ok T) = panic := by
  have hnh := item_ends it he m (env vals) (.ok T) (fun i => by
    unfold env; split
    · exact NH.ok _
    · exact NH.panic) (NH.ok _)
  cases h : e m (env vals) (.ok T) with
  | ok n => exact .inl ⟨n, rfl⟩
  | error x =>
    rw [h] at hnh
    cases x with
    | panic => exact .inr rfl
    | hang => exact absurd rfl hnh

section
variable {m : Mode} {d : Decl}

/-- The setter of a byte vector. -/
theorem set_vec_alive {P T : Buf} {k : Nat} {vals : List Val} {f : Field} {e : LenExpr} {bs : Buf}
    (hsl : SliceLen (P ++ T).length) (hf : d.fields[k]? = some f) (he : f.len = some e)
    (hty : f.ty = .vecPrim (u 8)) (h : Alive (P ++ T) (d.before m (P ++ T) k) vals T)
    (hle : bs.length ≤ T.length) :
    d.set m (P ++ T) k (Quic.bytesOf bs) = (do
      let n ← e m (env vals) (.ok T)
      if bs.length ≤ n then .ok (P ++ bs ++ T.drop bs.length) else panic) := by
  obtain ⟨o, ho, hr, hol⟩ := h.curOff hsl m
  have hlr := congrArg List.length hr
  rw [List.length_drop] at hlr
  rw [List.length_append] at hol hlr
  have hoP : o = P.length := by omega
  subst hoP
  rw [Decl.set, hf]
  dsimp only
  rw [hty]
  dsimp only [Quic.bytesOf]
  rw [ho, ok_bind, he]
  dsimp only
  rw [h.lenExpr hsl]
  cases e m (env vals) (.ok T) with
  | error x => rfl
  | ok n =>
    rw [ok_bind, ok_bind, List.length_map]
    by_cases hn : bs.length ≤ n
    · rw [if_pos hn, if_pos hn]
      show (if (u 8).size = 8 then copyInto (P ++ T) P.length ((bs.map (·.toNat)).map UInt8.ofNat) else _) = _
      rw [if_pos rfl, ofNat_bytes, copyInto, if_pos (by rw [List.length_append]; omega),
        List.take_left, ← List.drop_drop, List.drop_left]
    · rw [if_neg hn, if_neg hn]; rfl

/-- The setter of a byte vector without a length expression. -/
theorem set_rest_alive {P T : Buf} {k : Nat} {vals : List Val} {f : Field} {bs : Buf}
    (hsl : SliceLen (P ++ T).length) (hf : d.fields[k]? = some f) (he : f.len = none)
    (hty : f.ty = .vecPrim (u 8)) (h : Alive (P ++ T) (d.before m (P ++ T) k) vals T)
    (hle : bs.length ≤ T.length) :
    d.set m (P ++ T) k (Quic.bytesOf bs) = .ok (P ++ bs ++ T.drop bs.length) := by
  obtain ⟨o, ho, hr, hol⟩ := h.curOff hsl m
  have hlr := congrArg List.length hr
  rw [List.length_drop] at hlr
  rw [List.length_append] at hol hlr
  have hoP : o = P.length := by omega
  subst hoP
  rw [Decl.set, hf]
  dsimp only
  rw [hty]
  dsimp only [Quic.bytesOf]
  rw [ho, ok_bind, he]
  show (if (u 8).size = 8 then copyInto (P ++ T) P.length ((bs.map (·.toNat)).map UInt8.ofNat) else _) = _
  rw [if_pos rfl, ofNat_bytes, copyInto, if_pos (by rw [List.length_append]; omega),
    List.take_left, ← List.drop_drop, List.drop_left]

/-- Writing a byte. -/
theorem setPrim_byte (P : Buf) (c : UInt8) (T : Buf) (v : Nat) :
    setPrim (u 8) 0 (P ++ c :: T) P.length v = .ok (P ++ UInt8.ofNat v :: T) := by
  obtain ⟨new, h1, h2, h3⟩ := setPrim_big (offset := 0) (size := 8) (by decide) (P ++ c :: T) P.length v
    (by rw [List.length_append, List.length_cons]; show P.length + 1 ≤ _; omega)
  change setPrim (u 8) 0 _ _ _ = _ at h1
  rw [h1]
  congr 1
  apply bitsOf_inj
  rw [h3, byte_bits, Nat.add_zero, bitsOf_append, List.take_left' (by rw [bitsOf_length]),
    show (c :: T) = [c] ++ T from rfl, bitsOf_append, ← List.append_assoc (bitsOf P),
    List.drop_left' (by rw [List.length_append, bitsOf_length, bitsOf_length]; rfl), ← bitsOf_append, ← bitsOf_append]
  congr 1
  simp

/-- The setter of a byte. -/
theorem set_u8_alive {P T : Buf} {c : UInt8} {k : Nat} {vals : List Val} {f : Field} {v : Nat}
    (hsl : SliceLen (P ++ c :: T).length) (hf : d.fields[k]? = some f)
    (hty : f.ty = .prim (u 8)) (h : Alive (P ++ c :: T) (d.before m (P ++ c :: T) k) vals (c :: T)) :
    d.set m (P ++ c :: T) k (.num v) = .ok (P ++ UInt8.ofNat v :: T) := by
  obtain ⟨o, ho, hr, hol⟩ := h.curOff hsl m
  have hlr := congrArg List.length hr
  rw [List.length_drop] at hlr
  rw [List.length_append] at hol hlr
  rw [List.length_cons] at hol hlr
  have hoP : o = P.length := by omega
  subst hoP
  rw [Decl.set, hf]
  dsimp only
  rw [hty]
  dsimp only
  rw [ho, ok_bind, h.bit, setPrim_byte]

/-- The setters of the fields of a frame after its type, on any old bytes `T`. -/
theorem put_items (nm : String) {rest : Buf} (its : List Item) (fs : List Field) (hi : ItemsAre its fs) (k : Nat)
    (hfs : d.fields.drop k = fs ++ [frest nm]) {vals : List Val} {bss : List Buf} {P T : Buf}
    (hsl : SliceLen (P ++ T).length)
    (hal : ∀ T' : Buf, T'.length = T.length → Alive (P ++ T') (d.before m (P ++ T') k) vals T')
    (hr : PutReads m its vals bss T.length) (hrest : bss.flatten.length + rest.length ≤ T.length) :
    (Room m its vals bss T →
      d.populateFrom m k (List.zipWith Item.val its bss ++ [Quic.bytesOf rest]) (P ++ T) =
        .ok (P ++ bss.flatten ++ rest ++ T.drop (bss.flatten.length + rest.length))) ∧
    (¬ Room m its vals bss T →
      d.populateFrom m k (List.zipWith Item.val its bss ++ [Quic.bytesOf rest]) (P ++ T) = panic) := by
  induction its generalizing fs k vals bss P T with
  | nil =>
    cases bss with
    | cons _ _ => exact hr.elim
    | nil =>
      cases fs with
      | cons _ _ => exact hi.elim
      | nil =>
        have hf : d.fields[k]? = some (frest nm) := by
          have := congrArg (·[0]?) hfs
          simpa using this
        refine ⟨fun _ => ?_, fun h => (h trivial).elim⟩
        have h1 := set_rest_alive (bs := rest) hsl hf rfl rfl (hal T rfl) (by
          simp only [List.flatten_nil, List.length_nil] at hrest; omega)
        simp only [List.zipWith_nil_left, List.nil_append, List.flatten_nil, List.append_nil,
          List.length_nil, Nat.zero_add]
        rw [Decl.populateFrom, h1, ok_bind, populateFrom_nil]
  | cons it its ih =>
    cases bss with
    | nil => exact hr.elim
    | cons bs bss =>
      cases fs with
      | nil => exact hi.elim
      | cons f fs =>
        obtain ⟨⟨hl, hty⟩, hi⟩ := hi
        obtain ⟨r1, r2, r3, r4⟩ := hr
        have hf : d.fields[k]? = some f := by
          have := congrArg (·[0]?) hfs
          simpa using this
        have hfs' : d.fields.drop (k + 1) = fs ++ [frest nm] := by
          rw [← List.drop_drop, hfs]; rfl
        have hbefore : ∀ b : Buf, d.before m b (k + 1) = (d.before m b k).step m b f := by
          intro b
          exact before_succ hf
        rw [List.flatten_cons, List.length_append] at hrest
        have hTd : (T.drop bs.length).length = T.length - bs.length := List.length_drop
        have hslP : SliceLen ((P ++ bs) ++ T.drop bs.length).length := by
          simp only [List.length_append, hTd] at hsl ⊢
          unfold SliceLen at *; omega
        have hal' : ∀ T' : Buf, T'.length = (T.drop bs.length).length →
            Alive ((P ++ bs) ++ T') (d.before m ((P ++ bs) ++ T') (k + 1)) (vals ++ [it.val bs]) T' := by
          intro T' hT'
          have h0 := hal (bs ++ T') (by rw [List.length_append]; omega)
          rw [← List.append_assoc] at h0
          rw [hbefore]
          have hsl0 : SliceLen (P ++ bs ++ T').length := by
            simp only [List.length_append, hTd] at hslP ⊢
            unfold SliceLen at *; omega
          cases he : it.len with
          | none =>
            have hb1 := r2 he
            match bs, hb1 with
            | [b], _ =>
              rw [he] at hl hty
              have := h0.step_u8 (m := m) hsl0 hl (by simpa using hty)
              simpa [Item.val, he] using this
          | some e =>
            rw [he] at hl hty
            have := h0.step_vec (m := m) hsl0 hl (by simpa using hty) (n := bs.length)
              (r3 e he T' (by omega)) (by rw [List.length_append]; omega)
            rw [List.take_left, List.drop_left] at this
            simpa [Item.val, he, Quic.bytesOf] using this
        obtain ⟨i1, i2⟩ := ih fs hi (k + 1) hfs' (vals := vals ++ [it.val bs]) (bss := bss) (P := P ++ bs)
          (T := T.drop bs.length) hslP hal' (by rw [hTd]; exact r4) (by rw [hTd]; omega)
        have hdone : P ++ bs ++ bss.flatten ++ rest ++
            (T.drop bs.length).drop (bss.flatten.length + rest.length) =
            P ++ (bs :: bss).flatten ++ rest ++ T.drop ((bs :: bss).flatten.length + rest.length) := by
          rw [List.drop_drop, List.flatten_cons, List.length_append, Nat.add_assoc]
          simp only [List.append_assoc]
        rw [hdone] at i1
        simp only [List.zipWith_cons_cons, List.cons_append]
        rw [Decl.populateFrom]
        cases he : it.len with
        | none =>
          have hb1 := r2 he
          rw [he] at hl hty
          have hset : d.set m (P ++ T) k (it.val bs) = .ok (P ++ bs ++ T.drop bs.length) := by
            match bs, hb1, r1 with
            | [b], _, r1 =>
              match T, r1 with
              | c :: T, _ =>
                have := set_u8_alive (v := b.toNat) hsl hf (by simpa using hty) (hal _ rfl)
                simp only [Item.val, he, List.headD_cons]
                rw [this]
                simp
          rw [hset, ok_bind]
          have hroom : Room m (it :: its) vals (bs :: bss) T ↔
              Room m its (vals ++ [it.val bs]) bss (T.drop bs.length) := by
            simp [Room, he]
          rw [hroom]
          exact ⟨i1, i2⟩
        | some e =>
          rw [he] at hl hty
          have hval : it.val bs = Quic.bytesOf bs := by simp [Item.val, he]
          have hset := set_vec_alive (bs := bs) hsl hf hl (by simpa using hty) (hal T rfl) r1
          rw [hval, hset]
          have hroom : Room m (it :: its) vals (bs :: bss) T ↔
              (∃ n, e m (env vals) (.ok T) = .ok n ∧ bs.length ≤ n) ∧
              Room m its (vals ++ [it.val bs]) bss (T.drop bs.length) := by
            simp [Room, he]
          rw [hroom]
          rcases item_len_cases (m := m) it he vals T with ⟨n, hn⟩ | hn
          · rw [hn, ok_bind]
            by_cases hle : bs.length ≤ n
            · rw [if_pos hle, ok_bind]
              refine ⟨fun h => i1 h.2, fun h => i2 fun h2 => h ⟨⟨n, rfl, hle⟩, h2⟩⟩
            · rw [if_neg hle]
              refine ⟨fun h => ?_, fun _ => rfl⟩
              obtain ⟨⟨n', hn', hle'⟩, -⟩ := h
              cases hn'
              exact absurd hle' hle
          · rw [hn]
            refine ⟨fun h => ?_, fun _ => rfl⟩
            obtain ⟨⟨n', hn', -⟩, -⟩ := h
            cases hn'

end

/-- `populate` of a frame over any buffer. -/
theorem frame_put (m : Mode) (k : FrameKind) (ty c : UInt8) {bss : List Buf} {rest T : Buf}
    (hsl : SliceLen (c :: T).length)
    (hr : PutReads m (frameItems k) [.nums [ty.toNat]] bss T.length)
    (hrest : bss.flatten.length + rest.length ≤ T.length) :
    (Room m (frameItems k) [.nums [ty.toNat]] bss T →
      k.decl.populate m (c :: T) (.list (.nums [ty.toNat] ::
          (List.zipWith Item.val (frameItems k) bss ++ [Quic.bytesOf rest]))) =
        .ok (ty :: (bss.flatten ++ rest ++ T.drop (bss.flatten.length + rest.length)))) ∧
    (¬ Room m (frameItems k) [.nums [ty.toNat]] bss T →
      k.decl.populate m (c :: T) (.list (.nums [ty.toNat] ::
          (List.zipWith Item.val (frameItems k) bss ++ [Quic.bytesOf rest]))) = panic) := by
  have hlen : ∀ (its : List Item) (fs : List Field) (vals : List Val) (bss : List Buf) (r : Nat), ItemsAre its fs → PutReads m its vals bss r →
      (List.zipWith Item.val its bss).length = fs.length := by
    intro its
    induction its with
    | nil => intro fs vals bss r h1 h2; cases fs <;> cases bss <;> first | rfl | exact h1.elim | exact h2.elim
    | cons it its ih =>
      intro fs vals bss r h1 h2
      cases fs with
      | nil => exact h1.elim
      | cons f fs =>
        cases bss with
        | nil => exact h2.elim
        | cons bs bss =>
          simp only [List.zipWith_cons_cons, List.length_cons]
          rw [ih fs _ bss _ h1.2 h2.2.2.2]
  have hl := hlen _ _ _ _ _ (frame_items k) hr
  have hfields := frame_fields k
  have hset : k.decl.set m (c :: T) 0 (.nums [ty.toNat]) = .ok (ty :: T) := by
    have hf : k.decl.fields[0]? = some (fmisc "ty" [8]) := by rw [hfields]; rfl
    rw [Decl.set, hf]
    simp only [fmisc, List.map_cons, List.map_nil, List.length_cons, List.length_nil, if_true]
    have : setPrim (u 8) 0 (c :: T) 0 ty.toNat = .ok (ty :: T) := by
      have := setPrim_byte [] c T ty.toNat
      simpa using this
    have hco : curOff m 0 [] = .ok 0 := by simp [curOff]
    simp only [setArgs, Decl.before, List.take_zero, St.run, List.foldl_nil, St.init, hco, ok_bind]
    show (setPrim (u 8) 0 (c :: T) 0 ty.toNat >>= _) = _
    rw [this]; rfl
  have hpop : k.decl.populate m (c :: T) (.list (.nums [ty.toNat] ::
      (List.zipWith Item.val (frameItems k) bss ++ [Quic.bytesOf rest]))) =
      k.decl.populateFrom m 1 (List.zipWith Item.val (frameItems k) bss ++ [Quic.bytesOf rest]) ([ty] ++ T) := by
    rw [Decl.populate, if_pos (by
      conv => rhs; rw [hfields]
      simp only [List.length_cons, List.length_append, List.length_nil, hl]; omega),
      Decl.populateFrom, hset, ok_bind]
    rfl
  rw [hpop]
  have := put_items (m := m) (d := k.decl) "remaining" (rest := rest) (frameItems k) _ (frame_items k) 1
    (by (conv => lhs; rw [hfields]); rfl) (vals := [.nums [ty.toNat]]) (bss := bss) (P := [ty]) (T := T) hsl
    (by
      intro T' _
      have := (frame_head m ty T').1
      rw [Decl.before, hfields]
      exact this)
    hr hrest
  exact this

/-- A frame of the same kind with fields of the same sizes leaves enough room. -/
theorem room_self {m : Mode} (its : List Item) {vals : List Val} {bss : List Buf} {t T : Buf}
    (hT : T = bss.flatten ++ t) (h : PutReads m its vals bss T.length) : Room m its vals bss T := by
  induction its generalizing vals bss T with
  | nil => cases bss <;> trivial
  | cons it its ih =>
    cases bss with
    | nil => trivial
    | cons bs bss =>
      obtain ⟨r1, -, r3, r4⟩ := h
      have hT' : T = bs ++ (bss.flatten ++ t) := by rw [hT, List.flatten_cons, List.append_assoc]
      refine ⟨fun e he => ⟨bs.length, ?_, Nat.le_refl _⟩, ih ?_ (by rw [List.length_drop]; exact r4)⟩
      · rw [hT']
        exact r3 e he _ (by rw [hT', List.length_append (as := bs)])
      · rw [hT', List.drop_left]

/-! ## Over zeroes -/

/-- All bytes below 64. -/
def SmallBytes (bs : Buf) : Prop := ∀ b ∈ bs, b.toNat < 64

theorem shift_one (b : UInt8) : 1 <<< (b.toNat >>> 6) ≤ 1 ↔ b.toNat < 64 := by
  have h : ∀ n < 256, 1 <<< (n >>> 6) ≤ 1 ↔ n < 64 := by decide +kernel
  exact h b.toNat b.toNat_lt

theorem varint_smallBytes {bs : Buf} {v : Nat} (h : Quic.Varint bs v) :
    bs.length ≤ 1 ↔ SmallBytes bs := by
  have he := (varint_enc h []).1
  cases bs with
  | nil => exact (varint_ne_nil h).elim
  | cons b t =>
    have hs : 1 <<< (b.toNat >>> 6) = (b :: t).length := by
      simpa [varintLength, index] using he
    rw [← hs, shift_one]
    constructor
    · intro hb c hc
      have : (b :: t).length ≤ 1 := by rw [← hs, shift_one]; exact hb
      cases t with
      | nil => simp only [List.mem_singleton] at hc; rw [hc]; exact hb
      | cons _ _ => simp at this
    · intro h; exact h b (by simp)

theorem varints_small (rs : List Buf) (h : ∀ r ∈ rs, ∃ v, Quic.Varint r v) :
    rs.length ≤ rs.flatten.length ∧ (rs.flatten.length ≤ rs.length ↔ SmallBytes rs.flatten) := by
  induction rs with
  | nil => simp [SmallBytes]
  | cons r rs ih =>
    obtain ⟨v, hv⟩ := h r (by simp)
    obtain ⟨i1, i2⟩ := ih fun x hx => h x (by simp [hx])
    have hp := varint_pos hv
    have hs := varint_smallBytes hv
    have hsplit : SmallBytes (r :: rs).flatten ↔ SmallBytes r ∧ SmallBytes rs.flatten := by
      simp only [SmallBytes, List.flatten_cons, List.mem_append]
      exact ⟨fun h => ⟨fun b hb => h b (.inl hb), fun b hb => h b (.inr hb)⟩,
        fun h b hb => hb.elim (h.1 b) (h.2 b)⟩
    rw [hsplit, ← hs, ← i2, List.flatten_cons, List.length_append, List.length_cons]
    omega

theorem nVarints_zero (n r : Nat) (h : n ≤ r) : nVarints n (List.replicate r 0) = .ok n := by
  induction n generalizing r with
  | zero => rfl
  | succ n ih =>
    cases r with
    | zero => omega
    | succ r =>
      have := ih r (by omega)
      rw [nVarints, List.replicate_succ]
      simp only [index, List.getElem?_cons_zero, ok_bind]
      show (sliceFrom (0 :: List.replicate r 0) 1 >>= _) = _
      rw [sliceFrom, if_pos (by simp), ok_bind, List.drop_succ_cons, List.drop_zero, this, ok_bind]
      congr 1
      show 1 + n = n + 1
      omega

/-- The fields can be read back, and written over zeroes if and only if `Q`. -/
def PutsZ (m : Mode) (its : List Item) (vals : List Val) (bss : List Buf) (r : Nat) (Q : Prop) : Prop :=
  PutReads m its vals bss r ∧ (Room m its vals bss (List.replicate r 0) ↔ Q)

theorem putsZ_nil {m : Mode} {vals : List Val} {r : Nat} : PutsZ m [] vals [] r True := ⟨trivial, Iff.rfl⟩

theorem putsZ_cons {m : Mode} {it : Item} {is : List Item} {vals : List Val} {bs : Buf} {bss : List Buf}
    {r : Nat} {Q Q' : Prop} {e : LenExpr} (he : it.len = some e) (hr : bs.length ≤ r)
    (h1 : ∀ rest : Buf, bs.length + rest.length = r → e m (env vals) (.ok (bs ++ rest)) = .ok bs.length)
    {n : Nat} (h2 : e m (env vals) (.ok (List.replicate r 0)) = .ok n) (hQ : bs.length ≤ n ↔ Q)
    (h : PutsZ m is (vals ++ [Quic.bytesOf bs]) bss (r - bs.length) Q') :
    PutsZ m (it :: is) vals (bs :: bss) r (Q ∧ Q') := by
  have hv : it.val bs = Quic.bytesOf bs := by simp [Item.val, he]
  refine ⟨⟨hr, fun h => (by rw [he] at h; cases h), fun e' he' => ?_, by rw [hv]; exact h.1⟩, ?_⟩
  · rw [he] at he'; cases he'; exact h1
  · rw [Room, hv, List.drop_replicate, h.2]
    refine and_congr_left fun _ => ⟨fun hh => ?_, fun hh e' he' => ?_⟩
    · obtain ⟨n', hn', hle⟩ := hh e he
      rw [h2] at hn'; cases hn'
      exact hQ.mp hle
    · rw [he] at he'; cases he'
      exact ⟨n, h2, hQ.mpr hh⟩

section
variable {m : Mode} {it : Item} {is : List Item} {vals : List Val} {bs : Buf} {bss : List Buf}
    {r : Nat} {Q : Prop} (hr : bs.length ≤ r)
include hr

theorem putsZ_vi {v : Nat} (hv : Quic.Varint bs v)
    (h : PutsZ m is (vals ++ [Quic.bytesOf bs]) bss (r - bs.length) Q) :
    PutsZ m (.vi :: is) vals (bs :: bss) r (SmallBytes bs ∧ Q) := by
  have hp := varint_pos hv
  exact putsZ_cons rfl hr (fun rest _ => (varint_enc hv rest).1)
    (n := 1) (varintLength_zero (by omega)) (varint_smallBytes hv) h

theorem putsZ_count {rs : List Buf} (hbs : bs = rs.flatten) (hc : Counts m it vals rs.length)
    (hv : ∀ x ∈ rs, ∃ v, Quic.Varint x v)
    (h : PutsZ m is (vals ++ [Quic.bytesOf bs]) bss (r - bs.length) Q) :
    PutsZ m (it :: is) vals (bs :: bss) r (SmallBytes bs ∧ Q) := by
  obtain ⟨e, he, hc⟩ := hc
  obtain ⟨h1, h2⟩ := varints_small rs hv
  subst hbs
  exact putsZ_cons he hr
    (fun rest _ => by rw [hc]; exact (nVarints_iff _ _ _).mpr ⟨rs, rest, rfl, hv, rfl, rfl⟩)
    (by rw [hc]; exact nVarints_zero _ _ (by omega)) h2 h

theorem putsZ_one {v : Nat} (hc : Counts m it vals 1) (hv : Quic.Varint bs v)
    (h : PutsZ m is (vals ++ [Quic.bytesOf bs]) bss (r - bs.length) Q) :
    PutsZ m (it :: is) vals (bs :: bss) r (SmallBytes bs ∧ Q) :=
  putsZ_count hr (rs := [bs]) (by simp) hc (by simpa using ⟨v, hv⟩) h

/-- A field whose length depends on earlier fields only. -/
theorem putsZ_data {e : LenExpr} (he : it.len = some e) (hn : ∀ rest, e m (env vals) rest = .ok bs.length)
    (h : PutsZ m is (vals ++ [Quic.bytesOf bs]) bss (r - bs.length) Q) :
    PutsZ m (it :: is) vals (bs :: bss) r Q := by
  have := putsZ_cons (Q := True) he hr (fun rest _ => hn _) (n := bs.length) (hn _) (by simp) h
  simpa using this

end

theorem putsZ_none {m : Mode} {it : Item} {is : List Item} {vals : List Val} {bss : List Buf} {r : Nat}
    {Q : Prop} (hc : Counts m it vals 0) (h : PutsZ m is (vals ++ [Quic.bytesOf []]) bss r Q) :
    PutsZ m (it :: is) vals ([] :: bss) r Q := by
  have := putsZ_count (bs := []) (rs := []) (by simp) (by simp) hc (by simp) h
  simpa [SmallBytes] using this

theorem putsZ_toEnd {m : Mode} {j : Nat} {is : List Item} {vals : List Val} {bs : Buf} {bss : List Buf}
    {Q : Prop} (hj : env vals j = .ok (Quic.bytesOf []))
    (h : PutsZ m is (vals ++ [Quic.bytesOf bs]) bss 0 Q) :
    PutsZ m (.stream j :: is) vals (bs :: bss) bs.length Q := by
  have := putsZ_cons (m := m) (it := .stream j) (Q := True) (bs := bs) (r := bs.length) (vals := vals) rfl (Nat.le_refl _)
    (fun rest hrest => by
      have : rest = [] := by rw [← List.length_eq_zero_iff]; omega
      subst this
      rw [lenStreamData, hj, List.append_nil]; rfl)
    (n := bs.length) (by rw [lenStreamData, hj]; simp [Quic.bytesOf, Val.asNums]) (by simp)
    (by rw [Nat.sub_self]; exact h)
  simpa using this

theorem putsZ_stream {m : Mode} {j : Nat} {is : List Item} {vals : List Val} {l bs : Buf} {bss : List Buf}
    {r : Nat} {Q : Prop} (hr : bs.length ≤ r) (hj : env vals j = .ok (Quic.bytesOf l))
    (hv : Quic.Varint l bs.length)
    (h : PutsZ m is (vals ++ [Quic.bytesOf bs]) bss (r - bs.length) Q) :
    PutsZ m (.stream j :: is) vals (bs :: bss) r Q := by
  refine putsZ_data hr rfl (fun rest => ?_) h
  rw [lenStreamData, hj]
  simp only [ok_bind, Val.asNums, Quic.bytesOf]
  cases l with
  | nil => exact (varint_ne_nil hv).elim
  | cons b l => exact (varint_enc hv []).2

theorem putsZ_u8 {m : Mode} {is : List Item} {vals : List Val} {b : UInt8} {bss : List Buf} {r : Nat}
    {Q : Prop} (hr : 1 ≤ r) (h : PutsZ m is (vals ++ [.num b.toNat]) bss (r - 1) Q) :
    PutsZ m (.u8 :: is) vals ([b] :: bss) r Q := by
  refine ⟨⟨hr, fun _ => rfl, fun e he => (by cases he), h.1⟩, ?_⟩
  have h2 := h.2
  rw [Room, List.drop_replicate]
  constructor
  · exact fun hh => h2.mp hh.2
  · exact fun hh => ⟨fun e he => (by cases he), h2.mpr hh⟩

/-- What is proved for each kind of frame. -/
def PutOk (ty : Nat) (body : Buf) (fields : List (String × Val)) : Prop :=
  ∃ k bss, FrameKind.ofType ty = some k ∧ body = bss.flatten ∧
    List.zipWith Item.val (frameItems k) bss = fields.map (·.2) ∧
    ∀ m r, body.length ≤ r → (Quic.openEnded ty → r = body.length) →
      PutsZ m (frameItems k) [.nums [ty]] bss r (Quic.OneByteInts fields)

theorem ints_bytes (bs : Buf) :
    (∀ ns, Quic.bytesOf bs = .nums ns → ∀ b ∈ ns, b < 64) ↔ SmallBytes bs := by
  simp [Quic.bytesOf, SmallBytes]

theorem smallBytes_nil : SmallBytes [] := by simp [SmallBytes]

theorem PutsZ.congr {m : Mode} {its : List Item} {vals : List Val} {bss : List Buf} {r : Nat} {Q Q' : Prop}
    (h : PutsZ m its vals bss r Q) (hq : Q ↔ Q') : PutsZ m its vals bss r Q' := ⟨h.1, h.2.trans hq⟩

/-- The condition of a frame, field by field. -/
macro "ints" : tactic => `(tactic|
  simp [Quic.OneByteInts, Quic.dataFields, ints_bytes, smallBytes_nil])

/-- The arithmetic of the space left. -/
macro "room" : tactic => `(tactic| (first | omega | (simp only [List.length_append] at *; omega)))

theorem fields_put {ty : Nat} {body : Buf} {fields : List (String × Val)}
    (h : Quic.Fields 1 ty body fields) : PutOk ty body fields := by
  cases h with
  | padding => exact ⟨_, [], rfl, rfl, rfl, fun m r _ _ => putsZ_nil.congr (by ints)⟩
  | ping => exact ⟨_, [], rfl, rfl, rfl, fun m r _ _ => putsZ_nil.congr (by ints)⟩
  | handshakeDone => exact ⟨_, [], rfl, rfl, rfl, fun m r _ _ => putsZ_nil.congr (by ints)⟩
  | @ack largest delay count first ranges a b n c h1 h2 h3 h4 h5 h6 =>
    refine ⟨_, [largest, delay, count, first, ranges.flatten, []], rfl, by simp, rfl, fun m r hr _ => ?_⟩
    exact (putsZ_vi (by room) h1 <| putsZ_vi (by room) h2 <| putsZ_vi (by room) h3 <| putsZ_vi (by room) h4 <|
      putsZ_count (by room) rfl (counts_of rfl (by rwa [h5, Nat.one_mul])) h6 <|
      putsZ_none (counts_nvi (ty := 2) rfl rfl) putsZ_nil).congr (by ints)
  | resetStream h1 h2 h3 =>
    refine ⟨_, [_, _, _], rfl, by simp, rfl, fun m r hr _ => ?_⟩
    exact (putsZ_vi (by room) h1 <| putsZ_vi (by room) h2 <| putsZ_vi (by room) h3 putsZ_nil).congr (by ints)
  | stopSending h1 h2 =>
    refine ⟨_, [_, _], rfl, by simp, rfl, fun m r hr _ => ?_⟩
    exact (putsZ_vi (by room) h1 <| putsZ_vi (by room) h2 putsZ_nil).congr (by ints)
  | @ackEcn largest delay count first ect0 ect1 ce ranges a b n c x y z h1 h2 h3 h4 h5 h6 h7 h8 h9 =>
    refine ⟨_, [largest, delay, count, first, ranges.flatten, ect0 ++ ect1 ++ ce], rfl, by simp, rfl,
      fun m r hr _ => ?_⟩
    have he : ect0 ++ ect1 ++ ce = [ect0, ect1, ce].flatten := by simp
    exact (putsZ_vi (by room) h1 <| putsZ_vi (by room) h2 <| putsZ_vi (by room) h3 <| putsZ_vi (by room) h4 <|
      putsZ_count (by room) rfl (counts_of rfl (by rwa [h5, Nat.one_mul])) h6 <|
      putsZ_count (by room) he (counts_nvi (ty := 3) rfl rfl) (by
        intro r hr
        simp only [List.mem_cons, List.not_mem_nil, or_false] at hr
        rcases hr with rfl | rfl | rfl
        · exact ⟨_, h7⟩
        · exact ⟨_, h8⟩
        · exact ⟨_, h9⟩) putsZ_nil).congr (by ints)
  | crypto h1 h2 =>
    refine ⟨_, [_, _, _], rfl, by simp, rfl, fun m r hr _ => ?_⟩
    exact (putsZ_vi (by room) h1 <| putsZ_vi (by room) h2 <|
      putsZ_data (by room) rfl (fun _ => (varint_enc h2 []).2) putsZ_nil).congr (by ints)
  | newToken h1 =>
    refine ⟨_, [_, _], rfl, by simp, rfl, fun m r hr _ => ?_⟩
    exact (putsZ_vi (by room) h1 <|
      putsZ_data (by room) rfl (fun _ => (varint_enc h1 []).2) putsZ_nil).congr (by ints)
  | stream ht h1 =>
    rcases ht with rfl | rfl
    all_goals
      refine ⟨_, [_, [], [], _], rfl, by simp, rfl, fun m r hr ho => ?_⟩
      have hr' := ho (by simp [Quic.openEnded])
      subst hr'
      refine (putsZ_vi (by room) h1 <| putsZ_none (counts_opt rfl rfl) <| putsZ_none (counts_opt rfl rfl) ?_).congr
        (Q := _ ∧ True) (by ints)
      rw [List.length_append, Nat.add_sub_cancel_left]
      exact putsZ_toEnd rfl putsZ_nil
  | streamLen ht h1 h2 =>
    rcases ht with rfl | rfl
    all_goals
      refine ⟨_, [_, [], _, _], rfl, by simp, rfl, fun m r hr _ => ?_⟩
      exact (putsZ_vi (by room) h1 <| putsZ_none (counts_opt rfl rfl) <|
        putsZ_one (by room) (counts_opt rfl rfl) h2 <| putsZ_stream (by room) rfl h2 putsZ_nil).congr (by ints)
  | streamOff ht h1 h2 =>
    rcases ht with rfl | rfl
    all_goals
      refine ⟨_, [_, _, [], _], rfl, by simp, rfl, fun m r hr ho => ?_⟩
      have hr' := ho (by simp [Quic.openEnded])
      subst hr'
      refine (putsZ_vi (by room) h1 <| putsZ_one (by room) (counts_opt rfl rfl) h2 <|
        putsZ_none (counts_opt rfl rfl) ?_).congr (Q := _ ∧ _ ∧ True) (by ints)
      rw [List.length_append, List.length_append, Nat.add_assoc, Nat.add_sub_cancel_left, Nat.add_sub_cancel_left]
      exact putsZ_toEnd rfl putsZ_nil
  | streamOffLen ht h1 h2 h3 =>
    rcases ht with rfl | rfl
    all_goals
      refine ⟨_, [_, _, _, _], rfl, by simp, rfl, fun m r hr _ => ?_⟩
      exact (putsZ_vi (by room) h1 <| putsZ_one (by room) (counts_opt rfl rfl) h2 <|
        putsZ_one (by room) (counts_opt rfl rfl) h3 <| putsZ_stream (by room) rfl h3 putsZ_nil).congr (by ints)
  | maxData h1 =>
    exact ⟨_, [_], rfl, by simp, rfl, fun m r hr _ => (putsZ_vi (by room) h1 putsZ_nil).congr (by ints)⟩
  | dataBlocked h1 =>
    exact ⟨_, [_], rfl, by simp, rfl, fun m r hr _ => (putsZ_vi (by room) h1 putsZ_nil).congr (by ints)⟩
  | retireConnectionId h1 =>
    exact ⟨_, [_], rfl, by simp, rfl, fun m r hr _ => (putsZ_vi (by room) h1 putsZ_nil).congr (by ints)⟩
  | maxStreams ht h1 =>
    rcases ht with rfl | rfl
    all_goals
      exact ⟨_, [_], rfl, by simp, rfl, fun m r hr _ => (putsZ_vi (by room) h1 putsZ_nil).congr (by ints)⟩
  | streamsBlocked ht h1 =>
    rcases ht with rfl | rfl
    all_goals
      exact ⟨_, [_], rfl, by simp, rfl, fun m r hr _ => (putsZ_vi (by room) h1 putsZ_nil).congr (by ints)⟩
  | maxStreamData h1 h2 =>
    refine ⟨_, [_, _], rfl, by simp, rfl, fun m r hr _ => ?_⟩
    exact (putsZ_vi (by room) h1 <| putsZ_vi (by room) h2 putsZ_nil).congr (by ints)
  | streamDataBlocked h1 h2 =>
    refine ⟨_, [_, _], rfl, by simp, rfl, fun m r hr _ => ?_⟩
    exact (putsZ_vi (by room) h1 <| putsZ_vi (by room) h2 putsZ_nil).congr (by ints)
  | @newConnectionId number retire id token len a b h1 h2 h3 h4 =>
    refine ⟨_, [number, retire, [len], id, token], rfl, by simp, by rw [← h3]; rfl, fun m r hr _ => ?_⟩
    have hl : List.length [len] = 1 := rfl
    exact (putsZ_vi (by room) h1 <| putsZ_vi (by room) h2 <| putsZ_u8 (by room) <|
      putsZ_data (by room) rfl (fun _ => congrArg Except.ok h3) <|
      putsZ_data (by room) rfl (fun _ => congrArg Except.ok h4.symm) putsZ_nil).congr (by ints)
  | path ht h1 =>
    rcases ht with rfl | rfl
    all_goals
      exact ⟨_, [_], rfl, by simp, rfl, fun m r hr _ =>
        (putsZ_data (by room) rfl (fun _ => congrArg Except.ok h1.symm) putsZ_nil).congr (by ints)⟩
  | close h1 h2 h3 =>
    refine ⟨_, [_, _, _, _], rfl, by simp, rfl, fun m r hr _ => ?_⟩
    exact (putsZ_vi (by room) h1 <| putsZ_one (by room) (counts_opt (ty := 0x1c) rfl rfl) h2 <|
      putsZ_vi (by room) h3 <|
      putsZ_data (by room) rfl (fun _ => (varint_enc h3 []).2) putsZ_nil).congr (by ints)
  | closeApp h1 h2 =>
    refine ⟨_, [_, [], _, _], rfl, by simp, rfl, fun m r hr _ => ?_⟩
    exact (putsZ_vi (by room) h1 <| putsZ_none (counts_opt (ty := 0x1d) rfl rfl) <|
      putsZ_vi (by room) h2 <|
      putsZ_data (by room) rfl (fun _ => (varint_enc h2 []).2) putsZ_nil).congr (by ints)

end Verif
