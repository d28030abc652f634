import Verif.Props.Template
import Verif.Proofs.ModesEq
import Verif.Proofs.Codec

/-!
# The generated methods that go through all fields (C116)

`populate` calls setters by name with fields of the struct by name, `from_packet` calls getters by name,
`packet_size(&s)` adds lengths of fields by name. The fields of a struct have different names.
-/

namespace Verif.Props
open Spec

/-- A struct: its fields by name. -/
abbrev Struct := String → Option Val

/-- The struct with these values, in the order of the declaration. -/
def structOf (d : Decl) (vs : List Val) : Struct := fun x =>
  ((d.fields.map (·.name)).zip vs).lookup x

/-- The method of this name among `<prefix><field>`: the field it belongs to. -/
def methodOf (d : Decl) (pre name : String) : Option Nat :=
  d.fields.findIdx? fun f => pre ++ f.name == name

/-- A call `self.<method>(packet.<field>)`, with the generated setter run statement by statement. What
does not compile (no such method or field, argument of a wrong type) is a panic here. -/
def callSetter (d : Decl) (m : Mode) (cap : Capacity) (s : Struct) (call : String × String) (buf : Buf) : Res Buf :=
  match methodOf d "set_" call.1, s call.2 with
  | some k, some v =>
    match d.fields[k]? with
    | some f =>
      match passed f.ty v with
      | some arg => asBuf (runMethod (fieldWorld d m cap k f) (setBody f) buf (some arg))
      | none => panic
    | none => panic
  | _, _ => panic

/-- The statements of `populate`, one after another. -/
def runCalls (d : Decl) (m : Mode) (cap : Capacity) (s : Struct) : List (String × String) → Buf → Res Buf
  | [], buf => .ok buf
  | c :: cs, buf => do
    let buf ← callSetter d m cap s c buf
    runCalls d m cap s cs buf

/-- The values fit the types of the fields, and lists are no longer than slices can be. -/
def Fits (d : Decl) (vs : List Val) : Prop :=
  vs.length = d.fields.length ∧
  ∀ (k : Nat) (f : Field) (v : Val), d.fields[k]? = some f → vs[k]? = some v →
    (passed f.ty v).isSome = true ∧ ∀ ns, v = .nums ns → SliceLen ns.length

theorem methodOf_eq (d : Decl) (hd : (d.fields.map (·.name)).Nodup) (pre : String) (k : Nat) (f : Field)
    (hf : d.fields[k]? = some f) : methodOf d pre (pre ++ f.name) = some k := by
  obtain ⟨hk, hf⟩ := List.getElem?_eq_some_iff.mp hf
  unfold methodOf
  rw [List.findIdx?_eq_some_iff_getElem]
  refine ⟨hk, by rw [hf]; exact beq_self_eq_true _, ?_⟩
  intro j hj he
  have he : pre ++ d.fields[j].name = pre ++ f.name := eq_of_beq he
  have he : d.fields[j].name = f.name := by
    have := congrArg String.toList he
    rw [String.toList_append, String.toList_append] at this
    exact String.toList_injective (List.append_cancel_left this)
  have hlt : j < d.fields.length := by omega
  have := (List.getElem_inj (h₀ := by simpa using hlt) (h₁ := by simpa using hk) hd).mp (by
    rw [List.getElem_map, List.getElem_map, he, hf])
  omega

theorem structOf_eq (d : Decl) (hd : (d.fields.map (·.name)).Nodup) (vs : List Val) (k : Nat) (f : Field) (v : Val)
    (hf : d.fields[k]? = some f) (hv : vs[k]? = some v) : structOf d vs f.name = some v := by
  unfold structOf
  obtain ⟨fs⟩ := d
  dsimp only at *
  induction fs generalizing vs k with
  | nil => simp at hf
  | cons g gs ih =>
    cases vs with
    | nil => simp at hv
    | cons w ws =>
      rw [List.map_cons, List.zip_cons_cons, List.lookup_cons]
      cases k with
      | zero =>
        simp only [List.getElem?_cons_zero, Option.some.injEq] at hf hv
        subst hf; subst hv
        rw [beq_self_eq_true]
      | succ k =>
        simp only [List.getElem?_cons_succ] at hf hv
        rw [List.map_cons, List.nodup_cons] at hd
        have hne : (f.name == g.name) = false := by
          rw [beq_eq_false_iff_ne]
          intro he
          exact hd.1 (he ▸ List.mem_map.mpr ⟨f, List.mem_of_getElem? hf, rfl⟩)
        rw [hne]
        exact ih ws k hv hd.2 hf

/-- **C116**, `populate`: its statements, with every setter run statement by statement, leave the packet that
`Decl.populate` says or fail as it does. -/
theorem C116_populate (d : Decl) (hd : (d.fields.map (·.name)).Nodup) (hb : d.bits < 2 ^ 64)
    (m : Mode) (cap : Capacity)
    (hkeep : ∀ f ∈ d.fields, ∀ c, f.ty = .vecPkt c → ∀ buf v new, c.populate m buf v = .ok new →
      new.length = buf.length)
    (vs : List Val) (hfit : Fits d vs) (buf : Buf) (hsl : SliceLen buf.length) :
    runCalls d m cap (structOf d vs) (populateCalls d) buf = d.populate m buf (.list vs) := by
  have key : ∀ (n k : Nat) (buf : Buf), SliceLen buf.length → n + k = d.fields.length →
      runCalls d m cap (structOf d vs) ((populateCalls d).drop k) buf = d.populateFrom m k (vs.drop k) buf := by
    intro n
    induction n with
    | zero =>
      intro k buf _ hk
      rw [List.drop_eq_nil_of_le (by rw [populateCalls, List.length_map]; omega),
        List.drop_eq_nil_of_le (by rw [hfit.1]; omega)]
      rfl
    | succ n ih =>
      intro k buf hs hk
      have hk1 : k < d.fields.length := by omega
      have hk2 : k < vs.length := by rw [hfit.1]; exact hk1
      have hf := List.getElem?_eq_getElem hk1
      have hv := List.getElem?_eq_getElem hk2
      obtain ⟨hp, hn⟩ := hfit.2 k _ _ hf hv
      obtain ⟨arg, harg⟩ := Option.isSome_iff_exists.mp hp
      rw [List.drop_eq_getElem_cons (by rw [populateCalls, List.length_map]; exact hk1),
        List.drop_eq_getElem_cons hk2, runCalls, Decl.populateFrom]
      have hcall : callSetter d m cap (structOf d vs) ((populateCalls d)[k]'(by
          rw [populateCalls, List.length_map]; exact hk1)) buf = d.set m buf k vs[k] := by
        simp only [populateCalls, List.getElem_map, callSetter, methodOf_eq d hd "set_" k _ hf,
          structOf_eq d hd vs k _ _ hf hv, hf, harg]
        rw [C116_setters d m cap buf hs hb k _ hf vs[k] hn arg harg]
        cases d.set m buf k vs[k] <;> rfl
      rw [hcall]
      cases hset : d.set m buf k vs[k] with
      | error e => rfl
      | ok new =>
        rw [ok_bind, ok_bind]
        refine ih (k + 1) new ?_ (by omega)
        rw [set_length_of hkeep hset]
        exact hs
  have := key d.fields.length 0 buf hsl rfl
  rw [List.drop_zero, List.drop_zero] at this
  rw [this, Decl.populate, if_pos hfit.1]

example := C116_populate udp (by decide) (by decide) .debug id
  (by intro f hf c; simp only [udp, List.mem_cons, List.not_mem_nil, or_false] at hf
      rcases hf with rfl | rfl | rfl | rfl | rfl <;> exact Ty.noConfusion)
  [.num 1, .num 2, .num 10, .num 0, .nums [7, 7]]
  ⟨rfl, by
    intro k f v hf hv
    match k with
    | 0 | 1 | 2 | 3 => cases hf; cases hv; exact ⟨rfl, by intro ns h; cases h⟩
    | 4 => cases hf; cases hv; exact ⟨rfl, by intro ns h; cases h; decide⟩
    | k + 5 => cases hf⟩
  (List.replicate 10 0) (by decide)

/-- The getter that a part of `from_packet` calls. What does not compile is a panic here. -/
def callGetter (d : Decl) (m : Mode) (buf : Buf) (part : String × String) : Res (String × Val) :=
  match methodOf d "get_" part.2 with
  | some k => (d.get m buf k).map fun v => (part.1, v)
  | none => panic

/-- **C116**, `from_packet`: the parts of the struct, in their order, are the fields with the values of
their getters; the first getter that fails ends it. -/
theorem C116_from_packet (d : Decl) (hd : (d.fields.map (·.name)).Nodup) (m : Mode) (buf : Buf) :
    ((fromPacketParts d).mapM (callGetter d m buf)).map (fun parts => Val.list (parts.map (·.2))) =
      d.fromPacket m buf ∧
    ∀ parts, (fromPacketParts d).mapM (callGetter d m buf) = .ok parts →
      parts.map (·.1) = d.fields.map (·.name) := by
  have hparts : ∀ (l : List Nat) (hl : ∀ k ∈ l, k < d.fields.length),
      (l.map fun k => ((d.fields.map fun f => (f.name, "get_" ++ f.name))[k]?.getD ("", ""))).mapM
          (callGetter d m buf) =
        (l.mapM fun k => (d.get m buf k)).map fun vs =>
          List.zip (l.map fun k => (d.fields.map (·.name))[k]?.getD "") vs := by
    intro l
    induction l with
    | nil => intro _; rfl
    | cons k ks ih =>
      intro hl
      have hk := hl k (List.mem_cons_self)
      have hf := List.getElem?_eq_getElem hk
      rw [List.map_cons, List.mapM_cons, ih (fun j hj => hl j (List.mem_cons_of_mem _ hj)), List.mapM_cons]
      simp only [List.getElem?_map, hf, Option.map_some, Option.getD_some, callGetter,
        methodOf_eq d hd "get_" k _ hf, List.map_cons]
      cases d.get m buf k with
      | error e => rfl
      | ok v =>
        show (Except.map _ (List.mapM _ ks) >>= _) = Except.map _ (List.mapM _ ks >>= _)
        cases List.mapM (d.get m buf) ks <;> rfl
  have hrange : ∀ {α : Type} (l : List α) (x : α), (List.range l.length).map (fun k => l[k]?.getD x) = l := by
    intro α l x
    apply List.ext_getElem (by simp)
    intro i h1 h2
    simp [List.getElem?_eq_getElem h2]
  have h := hparts (List.range d.fields.length) (fun k hk => List.mem_range.mp hk)
  have h1 := hrange (d.fields.map fun f => (f.name, "get_" ++ f.name)) ("", "")
  have h2 := hrange (d.fields.map (·.name)) ""
  rw [List.length_map] at h1 h2
  rw [h1, h2] at h
  have hfin : d.fromPacket m buf = ((List.range d.fields.length).mapM (d.get m buf)).map Val.list := by
    have hv := before_vals (d := d) (m := m) (buf := buf) d.fields.length (Nat.le_refl _)
    rw [Decl.before, List.take_length] at hv
    rw [Decl.fromPacket, Decl.final, hv, List.mapM_map]
    rfl
  have hlen : ∀ (l : List Nat) vs, l.mapM (d.get m buf) = .ok vs → vs.length = l.length := by
    intro l
    induction l with
    | nil => intro vs h; cases h; rfl
    | cons k ks ih =>
      intro vs h
      rw [List.mapM_cons, bind_eq_ok] at h
      obtain ⟨v, -, h⟩ := h
      rw [bind_eq_ok] at h
      obtain ⟨ws, hw, h⟩ := h
      cases h
      rw [List.length_cons, List.length_cons, ih ws hw]
  unfold fromPacketParts
  rw [h, hfin]
  cases hm : (List.range d.fields.length).mapM (d.get m buf) with
  | error e => exact ⟨rfl, fun parts hp => by cases hp⟩
  | ok vs =>
    have hl := hlen _ _ hm
    rw [List.length_range] at hl
    constructor
    · show Except.ok (Val.list _) = Except.ok (Val.list vs)
      rw [List.map_snd_zip (by rw [List.length_map, hl]; exact Nat.le_refl _)]
    · intro parts hp
      cases hp
      exact List.map_fst_zip (by rw [List.length_map, hl]; exact Nat.le_refl _)

example := C116_from_packet udp (by decide) .debug [0, 1, 0, 2, 0, 10, 0, 0, 7, 7]

/-- `len()` of a vector in a struct. -/
def lenOf (s : Struct) (x : String) : Res Nat :=
  match s x with
  | some (.nums ns) => .ok ns.length
  | some (.list vs) => .ok vs.length
  | _ => panic

/-- The sum of summands from left to right, with `usize` additions. -/
def sumUp (m : Mode) (s : Struct) : List String → Nat → Res Nat
  | [], n => .ok n
  | x :: xs, n => do
    let n ← uadd m n (← lenOf s x)
    sumUp m s xs n

/-- **C116**, the associated function `packet_size(&s)`: its summands, looked up by name and added with `usize`
additions, give what `Decl.staticSize` says, if that is a `usize`. -/
theorem C116_static_size (d : Decl) (hd : (d.fields.map (·.name)).Nodup) (m : Mode) (vs : List Val)
    (hlen : vs.length = d.fields.length)
    (hfit : ∀ (k : Nat) (f : Field) (v : Val), d.fields[k]? = some f → vs[k]? = some v → (passed f.ty v).isSome = true)
    (hsize : d.staticSize vs < 2 ^ 64) :
    sumUp m (structOf d vs) (structSizeTerms d).2 (structSizeTerms d).1 = .ok (d.staticSize vs) := by
  have key : ∀ (n k acc : Nat), n + k = d.fields.length →
      acc + (List.zipWith (fun f v => structLen f.ty v) (d.fields.drop k) (vs.drop k)).sum < 2 ^ 64 →
      sumUp m (structOf d vs) (((d.fields.drop k).filter fun f => f.ty.isVec).map (·.name)) acc =
        .ok (acc + (List.zipWith (fun f v => structLen f.ty v) (d.fields.drop k) (vs.drop k)).sum) := by
    intro n
    induction n with
    | zero =>
      intro k acc hk _
      rw [List.drop_eq_nil_of_le (as := d.fields) (by omega)]
      rfl
    | succ n ih =>
      intro k acc hk hlt
      have hk1 : k < d.fields.length := by omega
      have hk2 : k < vs.length := by omega
      have hf := List.getElem?_eq_getElem hk1
      have hv := List.getElem?_eq_getElem hk2
      have hp := hfit k _ _ hf hv
      rw [List.drop_eq_getElem_cons hk1, List.drop_eq_getElem_cons hk2, List.zipWith_cons_cons, List.sum_cons] at hlt ⊢
      rw [List.filter_cons]
      have hl : d.fields[k].ty.isVec = true →
          lenOf (structOf d vs) d.fields[k].name = .ok (structLen d.fields[k].ty vs[k]) := by
        intro hvec
        rw [lenOf, structOf_eq d hd vs k _ _ hf hv]
        generalize d.fields[k].ty = t at *
        generalize vs[k] = v at *
        cases t <;> cases v <;> first | rfl | exact absurd hp Bool.false_ne_true | exact absurd hvec Bool.false_ne_true
      have h0 : ¬ d.fields[k].ty.isVec = true → structLen d.fields[k].ty vs[k] = 0 := by
        intro hvec
        generalize d.fields[k].ty = t at *
        cases t with
        | prim p => rfl
        | misc args => rfl
        | vecPrim p => exact absurd rfl hvec
        | vecPkt c => exact absurd rfl hvec
      by_cases hvec : d.fields[k].ty.isVec = true
      · rw [if_pos hvec, List.map_cons, sumUp, hl hvec, ok_bind,
          uadd_ok (by unfold usizeCard; omega), ok_bind, ih (k + 1) _ (by omega) (by omega)]
        congr 1; omega
      · rw [if_neg hvec, ih (k + 1) _ (by omega) (by rw [h0 hvec] at hlt; omega), h0 hvec]
        congr 1; omega
  have := key d.fields.length 0 (d.bits / 8) rfl hsize
  rw [List.drop_zero, List.drop_zero] at this
  exact this

example := C116_static_size udp (by decide) .debug [.num 1, .num 2, .num 10, .num 0, .nums [7, 7]] rfl
  (by
    intro k f v hf hv
    match k with
    | 0 | 1 | 2 | 3 | 4 => cases hf; cases hv; rfl
    | k + 5 => cases hf)
  (by decide)

end Verif.Props
