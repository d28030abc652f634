import Verif.Props.Methods
import Verif.Props.Loops
import Verif.Props.TemplateCalls
import Verif.Spec.SourceCalls

/-!
# The methods that go through all fields, from the source of a struct (C121)

`Spec/SourceCalls` says what the calls by name do, `Model/Methods` which calls the macro writes.
-/

set_option autoImplicit false

namespace Verif
open Spec LengthText Props

/-! ## What is checked of the structs -/

theorem crate_sameNames : (crateSources.all fun e =>
    e.2.1.map (·.name) == e.2.2.fields.map (fun f => some f.name) &&
    decide (e.2.2.fields.map (·.name)).Nodup) = true := by decide +kernel

/-- Vectors of packets are vectors of packets of a struct without such vectors. -/
def FlatPkts (fs : List Field) : Prop :=
  ∀ f ∈ fs, ∀ c, f.ty = .vecPkt c → ∃ d : Decl, c = d.codec ∧
    d.fields.all (fun f => match f.ty with | .vecPkt _ => false | _ => true) = true

theorem flat_nil : FlatPkts [] := fun _ h => nomatch h

theorem flat_skip {f : Field} {fs : List Field}
    (h : (match f.ty with | .vecPkt _ => false | _ => true) = true) (hs : FlatPkts fs) : FlatPkts (f :: fs) :=
  List.forall_mem_cons.mpr ⟨fun c hc => (by rw [hc] at h; cases h), hs⟩

theorem flat_pkts {f : Field} {fs : List Field} (d : Decl) (hty : f.ty = .vecPkt d.codec)
    (h : d.fields.all (fun f => match f.ty with | .vecPkt _ => false | _ => true) = true) (hs : FlatPkts fs) :
    FlatPkts (f :: fs) :=
  List.forall_mem_cons.mpr ⟨fun c hc => (by rw [hty] at hc; cases hc; exact ⟨d, rfl, h⟩), hs⟩

theorem flat_fields {fs : List Field}
    (h : fs.all (fun f => match f.ty with | .vecPkt _ => false | _ => true) = true) : FlatPkts fs := by
  intro f hf c hc
  have := List.all_eq_true.mp h f hf
  rw [hc] at this
  cases this

theorem flat_gre : FlatPkts gre.fields := by
  iterate 9 refine flat_skip rfl ?_
  exact flat_pkts u16BE rfl rfl (flat_pkts u16BE rfl rfl (flat_pkts u32BE rfl rfl (flat_pkts u32BE rfl rfl
    (flat_fields rfl))))

theorem crate_flatPkts : ∀ e ∈ crateSources, FlatPkts e.2.2.fields := by
  have cons : ∀ {a : String × List RawField × Decl} {l : List (String × List RawField × Decl)},
      FlatPkts a.2.2.fields → (∀ e ∈ l, FlatPkts e.2.2.fields) → ∀ e ∈ a :: l, FlatPkts e.2.2.fields :=
    fun h hs => List.forall_mem_cons.mpr ⟨h, hs⟩
  unfold crateSources
  repeat' first
    | exact List.forall_mem_nil _
    | refine cons (flat_fields rfl) ?_
    | refine cons flat_gre ?_
    | (refine cons ?_ ?_
       · repeat' first
           | exact flat_nil
           | refine flat_skip rfl ?_
           | refine flat_pkts ipv4Option rfl rfl ?_
           | refine flat_pkts tcpOption rfl rfl ?_
           | refine flat_pkts ndpOption rfl rfl ?_)

section
variable {e : String × List RawField × Decl} (he : e ∈ crateSources)
include he

theorem crate_names_eq : e.2.1.map (·.name) = e.2.2.fields.map (fun f => some f.name) ∧
    (e.2.2.fields.map (·.name)).Nodup := by
  have h := List.all_eq_true.mp crate_sameNames e he
  simp only [Bool.and_eq_true, beq_iff_eq, decide_eq_true_eq] at h
  exact h

theorem name_at {k : Nat} {rf : RawField} {f : Field} (hrf : e.2.1[k]? = some rf) (hf : e.2.2.fields[k]? = some f) :
    rf.name = some f.name := by
  have h := congrArg (·[k]?) (crate_names_eq he).1
  simp only [List.getElem?_map, hrf, hf, Option.map_some, Option.some.injEq] at h
  exact h

theorem fields_length : e.2.1.length = e.2.2.fields.length := (crate_run_at he).1

theorem populate_calls : sourcePopulate e.2.1 = populateCalls e.2.2 := by
  have h : ∀ (l : List RawField) (l' : List Field), l.map (·.name) = l'.map (fun f => some f.name) →
      (l.filterMap fun rf => rf.name.map fun n => ("set_" ++ n, n)) = l'.map fun f => ("set_" ++ f.name, f.name) := by
    intro l
    induction l with
    | nil => intro l' h; cases l' with
      | nil => rfl
      | cons _ _ => cases h
    | cons a l ih => intro l' h; cases l' with
      | nil => cases h
      | cons b l' =>
        rw [List.map_cons, List.map_cons, List.cons.injEq] at h
        rw [List.filterMap_cons, h.1, Option.map_some, List.map_cons, ih l' h.2]
  exact h _ _ (crate_names_eq he).1

theorem from_parts : sourceParts e.2.1 = fromPacketParts e.2.2 := by
  have h : ∀ (l : List RawField) (l' : List Field), l.map (·.name) = l'.map (fun f => some f.name) →
      (l.filterMap fun rf => rf.name.map fun n => (n, "get_" ++ n)) = l'.map fun f => (f.name, "get_" ++ f.name) := by
    intro l
    induction l with
    | nil => intro l' h; cases l' with
      | nil => rfl
      | cons _ _ => cases h
    | cons a l ih => intro l' h; cases l' with
      | nil => cases h
      | cons b l' =>
        rw [List.map_cons, List.map_cons, List.cons.injEq] at h
        rw [List.filterMap_cons, h.1, Option.map_some, List.map_cons, ih l' h.2]
  exact h _ _ (crate_names_eq he).1

theorem method_named (pre name : String) : methodNamed e.2.1 pre name = methodOf e.2.2 pre name := by
  have h : ∀ (l : List RawField) (l' : List Field), l.map (·.name) = l'.map (fun f => some f.name) →
      l.findIdx? (fun rf => rf.name.map (pre ++ ·) == some name) = l'.findIdx? fun f => pre ++ f.name == name := by
    intro l
    induction l with
    | nil => intro l' h; cases l' with
      | nil => rfl
      | cons _ _ => cases h
    | cons a l ih => intro l' h; cases l' with
      | nil => cases h
      | cons b l' =>
        rw [List.map_cons, List.map_cons, List.cons.injEq] at h
        rw [List.findIdx?_cons, List.findIdx?_cons, h.1, ih l' h.2]
        rfl
  exact h _ _ (crate_names_eq he).1

theorem plain_struct (vs : List Val) (x : String) : plainStruct e.2.1 vs x = structOf e.2.2 vs x := by
  unfold plainStruct structOf
  rw [(crate_names_eq he).1]
  have h : ∀ (l' : List Field) (vs : List Val),
      ((l'.map (fun f => some f.name)).zip vs).lookup (some x) = ((l'.map (·.name)).zip vs).lookup x := by
    intro l'
    induction l' with
    | nil => intro vs; rfl
    | cons b l' ih =>
      intro vs
      cases vs with
      | nil => rfl
      | cons v vs =>
        rw [List.map_cons, List.map_cons, List.zip_cons_cons, List.zip_cons_cons, List.lookup_cons, List.lookup_cons,
          ih vs]
        rfl
  exact h _ _

theorem setter_arg {k : Nat} {rf : RawField} {f : Field} {v : Val} {arg : String × RustVal}
    (hrf : e.2.1[k]? = some rf) (hf : e.2.2.fields[k]? = some f) (h : passed f.ty v = some arg) :
    setterArg rf v = some arg := by
  have hm := crate_method_at he hrf hf
  unfold methodCheck at hm
  unfold setterArg
  unfold passed at h
  split at hm
  · rename_i hs hp
    rw [hp] at h
    rw [hs]
    cases v <;> first | exact h | cases h
  · rename_i hs hp
    rw [hp] at h
    rw [hs]
    cases v <;> first | exact h | cases h
  · rename_i hs hp
    rw [hp] at h
    rw [hs]
    cases v with
    | nums ns =>
      simp only at h
      split at h
      · exact h
      · cases h
    | num _ => cases h
    | list _ => cases h
  · rename_i hs hp
    rw [hp] at h
    rw [hs]
    cases v <;> first | exact h | cases h
  · cases hm

theorem crate_keep (m : Mode) : ∀ f ∈ e.2.2.fields, ∀ c, f.ty = .vecPkt c → ∀ buf v new, c.populate m buf v = .ok new →
    new.length = buf.length := by
  intro f hf c hc buf v new h
  obtain ⟨d, rfl, hd⟩ := crate_flatPkts e he f hf c hc
  have hno : ∀ f ∈ d.fields, ∀ c, f.ty ≠ .vecPkt c := by
    intro f hf c hc
    have := List.all_eq_true.mp hd f hf
    rw [hc] at this
    cases this
  have key : ∀ (vs : List Val) (k : Nat) (buf new : Buf), d.populateFrom m k vs buf = .ok new →
      new.length = buf.length := by
    intro vs
    induction vs with
    | nil => intro k buf new h; cases h; rfl
    | cons v vs ih =>
      intro k buf new h
      rw [Decl.populateFrom, bind_eq_ok] at h
      obtain ⟨b, hb, h⟩ := h
      rw [ih _ _ _ h, set_length_of (fun f hf c hc => absurd hc (hno f hf c)) hb]
  change d.populate m buf v = .ok new at h
  unfold Decl.populate at h
  split at h
  · split at h
    · exact key _ _ _ _ h
    · cases h
  · cases h

end

/-! ## C121 -/

/-- **C121**, `populate`: take the calls that the macro writes for a struct of the crate, and the setters they
call, as the macro writes them from the struct as written. Run as Rust, with the values of a plain struct of the
right types, they leave the packet that `Decl.populate` says, or fail as it does. -/
theorem C121_populate (e : String × List RawField × Decl) (he : e ∈ crateSources) (m : Mode) (buf : Buf)
    (hsl : SliceLen buf.length) (W : Nat → RustWorld)
    (hW : ∀ k rf, e.2.1[k]? = some rf → SourceWorld e.2.1 e.2.2 m k rf (W k))
    (hin : ∀ (k : Nat) (f : Field) c, e.2.2.fields[k]? = some f → f.ty = .vecPkt c → (W k).inner = c)
    (vs : List Val) (hlen : vs.length = e.2.1.length)
    (hv : ∀ (k : Nat) (f : Field) v, e.2.2.fields[k]? = some f → vs[k]? = some v → RustTyped f.ty v) :
    runSource e.2.1 (fun k => (fieldLength tokenise e.2.1 sourceWidth k).isSome) W (plainStruct e.2.1 vs)
      (sourcePopulate e.2.1) buf = e.2.2.populate m buf (.list vs) := by
  have hd := (crate_names_eq he).2
  have hl := fields_length he
  rw [populate_calls he]
  have key : ∀ (n k : Nat) (buf : Buf), SliceLen buf.length → n + k = e.2.2.fields.length →
      runSource e.2.1 (fun k => (fieldLength tokenise e.2.1 sourceWidth k).isSome) W (plainStruct e.2.1 vs)
        ((populateCalls e.2.2).drop k) buf = e.2.2.populateFrom m k (vs.drop k) buf := by
    intro n
    induction n with
    | zero =>
      intro k buf _ hk
      rw [List.drop_eq_nil_of_le (by rw [populateCalls, List.length_map]; omega), List.drop_eq_nil_of_le (by omega)]
      rfl
    | succ n ih =>
      intro k buf hs hk
      have hk1 : k < e.2.2.fields.length := by omega
      have hk2 : k < vs.length := by omega
      have hf := List.getElem?_eq_getElem hk1
      have hx := List.getElem?_eq_getElem hk2
      have hrf := List.getElem?_eq_getElem (show k < e.2.1.length by omega)
      rw [List.drop_eq_getElem_cons (by rw [populateCalls, List.length_map]; exact hk1),
        List.drop_eq_getElem_cons hk2, runSource, Decl.populateFrom]
      obtain ⟨body, arg, ha, hb, hr⟩ := C120_setters e he m buf hs k _ hrf _ hf vs[k] (hv k _ _ hf hx) (W k)
        (hW k _ hrf) (fun c hc => hin k _ c hf hc)
      have hcall : callSource e.2.1 (fun k => (fieldLength tokenise e.2.1 sourceWidth k).isSome) W
          (plainStruct e.2.1 vs) ((populateCalls e.2.2)[k]'(by rw [populateCalls, List.length_map]; exact hk1)) buf =
          e.2.2.set m buf k vs[k] := by
        simp only [populateCalls, List.getElem_map, callSource, method_named he, methodOf_eq e.2.2 hd "set_" k _ hf,
          plain_struct he, structOf_eq e.2.2 hd vs k _ _ hf hx, hrf, hb, setter_arg he hrf hf ha, hr]
        cases e.2.2.set m buf k vs[k] <;> rfl
      rw [hcall]
      cases hset : e.2.2.set m buf k vs[k] with
      | error e => rfl
      | ok new =>
        rw [ok_bind, ok_bind]
        refine ih (k + 1) new ?_ (by omega)
        rw [set_length_of (crate_keep he m) hset]
        exact hs
  have := key e.2.2.fields.length 0 buf hsl rfl
  rw [List.drop_zero, List.drop_zero] at this
  rw [this, Decl.populate, if_pos (by omega)]

/-- **C121**, getters: what a getter, run as Rust, gives is what the model says, and nothing else. -/
theorem C121_getters (e : String × List RawField × Decl) (he : e ∈ crateSources) (m : Mode) (buf : Buf)
    (hsl : SliceLen buf.length) (k : Nat) (rf : RawField) (hrf : e.2.1[k]? = some rf) (f : Field)
    (hf : e.2.2.fields[k]? = some f) (W : RustWorld) (hW : SourceWorld e.2.1 e.2.2 m k rf W) (hcap : W.cap = id)
    (hin : ∀ c, f.ty = .vecPkt c → W.inner = c) (r : Res Val) :
    SourceGets W rf buf r ↔ r = e.2.2.get m buf k := by
  have hm := crate_method_at he hrf hf
  unfold SourceGets
  by_cases hp : ∃ c, f.ty = .vecPkt c
  · obtain ⟨c, hc⟩ := hp
    have hs : ∃ t, sourceType rf = some (.vector (.misc t)) := by
      unfold methodCheck at hm
      rw [hc] at hm
      split at hm
      · rename_i h; cases h
      · rename_i h; cases h
      · rename_i h; cases h
      · rename_i hs _; exact ⟨_, hs⟩
      · cases hm
    obtain ⟨t, hs⟩ := hs
    rw [hs]
    simp only [C120_raw e he m buf hsl k rf f hf W hW]
    have hget : e.2.2.get m buf k = (do
        let packet ← e.2.2.getRaw m buf k
        .list <$> c.collect m packet.length packet) := by
      simp only [Decl.get, Decl.getRaw, hf, hc, getField]
    rw [hget]
    cases hr : e.2.2.getRaw m buf k with
    | error x =>
      constructor
      · rintro (⟨raw, vals, h, -⟩ | ⟨y, h, rfl⟩)
        · cases h
        · cases h; rfl
      · rintro rfl
        exact .inr ⟨x, rfl, rfl⟩
    | ok raw =>
      have hg := collect_gives W raw.length raw [] (Nat.le_refl _)
      rw [hin c hc, hW.mode] at hg
      have hg : LoopGives (collectRound W) ([], raw) (c.collect m raw.length raw) := by
        cases h : c.collect m raw.length raw with
        | error x => rw [h] at hg; exact hg
        | ok vs => rw [h] at hg; exact hg
      rw [ok_bind]
      have hmap : (Val.list <$> c.collect m raw.length raw : Res Val) = (c.collect m raw.length raw).map .list := by
        cases c.collect m raw.length raw <;> rfl
      rw [hmap]
      constructor
      · rintro (⟨raw', vals, h, h2, rfl⟩ | ⟨y, h, rfl⟩)
        · cases h
          rw [gives_unique h2 hg]
        · cases h
      · rintro rfl
        exact .inl ⟨raw, _, rfl, hg, rfl⟩
  · have hne : ∀ c, f.ty ≠ .vecPkt c := fun c hc => hp ⟨c, hc⟩
    obtain ⟨body, hb, hr⟩ := C120_getters e he m buf hsl k rf hrf f hf hne W hW hcap
    have hval : (runMethod W body buf none >>= fun x => fieldValue x.1) = e.2.2.get m buf k := by
      rw [hr]
      cases hg : e.2.2.get m buf k with
      | error x => rfl
      | ok v =>
        show fieldValue (returned f.ty v) = .ok v
        have hg' := hg
        simp only [Decl.get, hf] at hg'
        cases hft : f.ty with
        | prim p =>
          rw [hft] at hg'
          simp only [getField, bind_eq_ok] at hg'
          obtain ⟨co, -, h⟩ := hg'
          cases hx : getPrim p ((e.2.2.before m buf k).bit % 8) buf co with
          | error x => rw [hx] at h; cases h
          | ok n => rw [hx] at h; cases h; rfl
        | misc args =>
          rw [hft] at hg'
          simp only [getField] at hg'
          cases hx : getArgs m (e.2.2.before m buf k).lens buf (e.2.2.before m buf k).bit args with
          | error x => rw [hx] at hg'; cases hg'
          | ok n => rw [hx] at hg'; cases hg'; rfl
        | vecPrim p =>
          rw [hft] at hg'
          simp only [getField, bind_eq_ok] at hg'
          obtain ⟨co, -, h⟩ := hg'
          cases hx : getElems p co co.length 0 with
          | error x => rw [hx] at h; cases h
          | ok n => rw [hx] at h; cases h; rfl
        | vecPkt c => exact absurd hft (hne c)
    split
    · rename_i t hs
      unfold methodCheck at hm
      rw [hs] at hm
      split at hm
      · rename_i h _; cases h
      · rename_i h _; cases h
      · rename_i h _; cases h
      · rename_i hc; exact absurd hc (hne _)
      · cases hm
    · constructor
      · rintro ⟨body', hb', rfl⟩
        rw [hb] at hb'
        cases hb'
        exact hval
      · rintro rfl
        exact ⟨body, hb, hval.symm⟩

/-- **C121**, `from_packet`: the parts of the struct that the macro writes, with getters that give `r`, are the
fields in their order with the values `Decl.fromPacket` says; the first getter that fails ends it. -/
theorem C121_from_packet (e : String × List RawField × Decl) (he : e ∈ crateSources) (m : Mode) (buf : Buf)
    (hsl : SliceLen buf.length) (W : Nat → RustWorld)
    (hW : ∀ k rf, e.2.1[k]? = some rf → SourceWorld e.2.1 e.2.2 m k rf (W k)) (hcap : ∀ k, (W k).cap = id)
    (hin : ∀ (k : Nat) (f : Field) c, e.2.2.fields[k]? = some f → f.ty = .vecPkt c → (W k).inner = c)
    (r : Nat → Res Val) (hr : ∀ k rf, e.2.1[k]? = some rf → SourceGets (W k) rf buf (r k)) :
    ((sourceParts e.2.1).mapM (callPart e.2.1 r)).map (fun parts => Val.list (parts.map (·.2))) =
      e.2.2.fromPacket m buf ∧
    ∀ parts, (sourceParts e.2.1).mapM (callPart e.2.1 r) = .ok parts →
      parts.map (fun p => some p.1) = e.2.1.map (·.name) := by
  have hl := fields_length he
  have hpart : callPart e.2.1 r = callGetter e.2.2 m buf := by
    funext part
    unfold callPart callGetter
    rw [method_named he]
    cases hk : methodOf e.2.2 "get_" part.2 with
    | none => rfl
    | some k =>
      have hk1 : k < e.2.2.fields.length := (List.findIdx?_eq_some_iff_getElem.mp hk).1
      have hf := List.getElem?_eq_getElem hk1
      have hrf := List.getElem?_eq_getElem (show k < e.2.1.length by omega)
      simp only
      rw [(C121_getters e he m buf hsl k _ hrf _ hf (W k) (hW k _ hrf) (hcap k) (fun c hc => hin k _ c hf hc) _).mp
        (hr k _ hrf)]
  rw [from_parts he, hpart]
  obtain ⟨h1, h2⟩ := C116_from_packet e.2.2 (crate_names_eq he).2 m buf
  refine ⟨h1, fun parts hp => ?_⟩
  have := congrArg (List.map some) (h2 parts hp)
  rw [List.map_map, List.map_map] at this
  rw [(crate_names_eq he).1]
  exact this

/-- **C121**, sizes: `minimum_packet_size()` and the expression in `packet_size()`, as the macro writes them from
the struct as written, are those of the model; so is `packet_size(&s)` of a plain struct, if it is a `usize`. -/
theorem C121_sizes (e : String × List RawField × Decl) (he : e ∈ crateSources) (m : Mode) :
    sourceMinSize e.2.1 sourceWidth = e.2.2.minSize ∧
    (∀ buf, UsizeIs (packetMeaning m e.2.2 buf) (sourceSize tokenise e.2.1 sourceWidth) (e.2.2.packetSize m buf)) ∧
    ∀ vs : List Val, vs.length = e.2.1.length →
      (∀ (k : Nat) (f : Field) v, e.2.2.fields[k]? = some f → vs[k]? = some v → RustTyped f.ty v) →
      e.2.2.staticSize vs < 2 ^ 64 →
      addLengths m (plainStruct e.2.1 vs) (sourceStructTerms e.2.1 sourceWidth).2
        (sourceStructTerms e.2.1 sourceWidth).1 = .ok (e.2.2.staticSize vs) := by
  have hl := fields_length he
  have hbits : (e.2.1.map sourceWidth).sum = e.2.2.bits := by
    have h := (run_before he (sourceWidth_ok e he) m [] e.2.2.fields.length (Nat.le_refl _)).1
    rw [List.take_length, ← hl, List.take_length] at h
    exact h
  refine ⟨?_, fun buf => ?_, fun vs hvl hv hsz => ?_⟩
  · unfold sourceMinSize Decl.minSize
    simp only [hbits]
  · have := source_co he (m := m) buf (Nat.le_refl e.2.2.fields.length)
    rw [sourceSize, hl]
    rw [← final_eq_before] at this
    exact this
  · have hterms : sourceStructTerms e.2.1 sourceWidth = structSizeTerms e.2.2 := by
      unfold sourceStructTerms structSizeTerms
      rw [hbits]
      congr 1
      have h : ∀ (l : List RawField) (l' : List Field), l.length = l'.length →
          (∀ (k : Nat) rf f, l[k]? = some rf → l'[k]? = some f → rf.name = some f.name ∧ methodCheck rf f = true) →
          (l.filterMap fun rf => match sourceType rf with | some (.vector _) => rf.name | _ => none) =
            (l'.filter fun f => f.ty.isVec).map (·.name) := by
        intro l
        induction l with
        | nil => intro l' h _; cases l' with
          | nil => rfl
          | cons _ _ => cases h
        | cons a l ih => intro l' h hc; cases l' with
          | nil => cases h
          | cons b l' =>
            obtain ⟨h1, h2⟩ := hc 0 a b rfl rfl
            have ih := ih l' (by simpa using h) fun k rf f h3 h4 => hc (k + 1) rf f h3 h4
            rw [List.filterMap_cons, List.filter_cons, ih]
            unfold methodCheck at h2
            split at h2
            · rename_i hs hp; rw [hs, hp]; rfl
            · rename_i hs hp; rw [hs, hp]; simp [Ty.isVec, h1]
            · rename_i hs hp; rw [hs, hp]; rfl
            · rename_i hs hp; rw [hs, hp]; simp [Ty.isVec, h1]
            · cases h2
      exact h _ _ hl fun k rf f h1 h2 => ⟨name_at he h1 h2, crate_method_at he h1 h2⟩
    have hst : plainStruct e.2.1 vs = structOf e.2.2 vs := funext (plain_struct he vs)
    have hadd : ∀ (s : String → Option Val) (xs : List String) (n : Nat), addLengths m s xs n = sumUp m s xs n := by
      intro s xs
      induction xs with
      | nil => intro n; rfl
      | cons x xs ih =>
        intro n
        simp only [addLengths, sumUp, lenOf, ih]
        cases s x with
        | none => rfl
        | some v => cases v <;> rfl
    rw [hterms, hst, hadd]
    refine C116_static_size e.2.2 (crate_names_eq he).2 m vs (by omega) (fun k f v hf hx => ?_) hsz
    have h := hv k f v hf hx
    generalize f.ty = t at *
    cases t <;> cases v <;> first | rfl | exact absurd h id | simp [passed, RustTyped] at h ⊢
    exact h.1

/-! ## Examples -/

/-- The worlds of C120 serve. -/
def exampleWorld (d : Decl) (m : Mode) (k : Nat) : RustWorld :=
  match d.fields[k]? with
  | some f => fieldWorld d m id k f
  | none => fieldWorld d m id k (fprim "" 8)

theorem exampleWorld_ok {e : String × List RawField × Decl} (he : e ∈ crateSources) (m : Mode) :
    (∀ k rf, e.2.1[k]? = some rf → SourceWorld e.2.1 e.2.2 m k rf (exampleWorld e.2.2 m k)) ∧
    (∀ k, (exampleWorld e.2.2 m k).cap = id) ∧
    ∀ (k : Nat) (f : Field) c, e.2.2.fields[k]? = some f → f.ty = .vecPkt c → (exampleWorld e.2.2 m k).inner = c := by
  refine ⟨fun k rf hrf => ?_, fun k => ?_, fun k f c hf hc => ?_⟩
  · have hk : k < e.2.2.fields.length := by
      rw [← fields_length he]; exact (List.getElem?_eq_some_iff.mp hrf).1
    have hf := List.getElem?_eq_getElem hk
    simp only [exampleWorld, hf]
    exact C120_worlds e he m id k rf hrf _ hf
  · unfold exampleWorld
    split <;> rfl
  · simp only [exampleWorld, hf, fieldWorld, hc]

def udpEntry : String × List RawField × Decl := ("udp::Udp", Source.srcUdp, udp)

theorem udpEntry_mem : udpEntry ∈ crateSources := by simp [udpEntry, crateSources]

theorem udpTyped (k : Nat) (f : Field) (v : Val) (hf : udp.fields[k]? = some f)
    (hv : [Val.num 1, .num 2, .num 10, .num 0, .nums [7, 7]][k]? = some v) : RustTyped f.ty v := by
  match k with
  | 0 | 1 | 2 | 3 => cases hf; cases hv; simp [RustTyped, fprim, storageWidth]
  | 4 => cases hf; cases hv; exact ⟨by decide, by decide⟩
  | k + 5 => cases hf

example := C121_populate udpEntry udpEntry_mem .debug (List.replicate 10 0) (by decide) (exampleWorld udp .debug)
  (exampleWorld_ok udpEntry_mem .debug).1 (exampleWorld_ok udpEntry_mem .debug).2.2
  [.num 1, .num 2, .num 10, .num 0, .nums [7, 7]] rfl udpTyped

/-- The result of that call. -/
example : udp.populate .debug (List.replicate 10 0) (.list [.num 1, .num 2, .num 10, .num 0, .nums [7, 7]]) =
    .ok [0, 1, 0, 2, 0, 10, 0, 0, 7, 7] := by decide +kernel

def ipv4Entry : String × List RawField × Decl := ("ipv4::Ipv4", Source.srcIpv4, ipv4)

theorem ipv4Entry_mem : ipv4Entry ∈ crateSources := by simp [ipv4Entry, crateSources]

/-- The options of an IPv4 packet. -/
example : SourceGets (exampleWorld ipv4 .debug 13) Source.srcIpv4[13] (0x46 :: List.replicate 23 1)
    (ipv4.get .debug (0x46 :: List.replicate 23 1) 13) :=
  (C121_getters ipv4Entry ipv4Entry_mem .debug (0x46 :: List.replicate 23 1) (by decide) 13 _ rfl _ rfl _
    ((exampleWorld_ok ipv4Entry_mem .debug).1 13 _ rfl) rfl (fun c hc =>
      (exampleWorld_ok ipv4Entry_mem .debug).2.2 13 _ c rfl hc) _).mpr rfl

example := C121_from_packet ipv4Entry ipv4Entry_mem .debug (0x46 :: List.replicate 23 1) (by decide)
  (exampleWorld ipv4 .debug) (exampleWorld_ok ipv4Entry_mem .debug).1 (exampleWorld_ok ipv4Entry_mem .debug).2.1
  (exampleWorld_ok ipv4Entry_mem .debug).2.2 (ipv4.get .debug (0x46 :: List.replicate 23 1))
  (fun k rf hrf => by
    have hk : k < ipv4.fields.length := (List.getElem?_eq_some_iff.mp hrf).1
    have hf := List.getElem?_eq_getElem hk
    exact (C121_getters ipv4Entry ipv4Entry_mem .debug (0x46 :: List.replicate 23 1) (by decide) k rf hrf _ hf _
      ((exampleWorld_ok ipv4Entry_mem .debug).1 k rf hrf) ((exampleWorld_ok ipv4Entry_mem .debug).2.1 k)
      (fun c hc => (exampleWorld_ok ipv4Entry_mem .debug).2.2 k _ c hf hc) _).mpr rfl)

example := (C121_sizes udpEntry udpEntry_mem .debug).2.2 [.num 1, .num 2, .num 10, .num 0, .nums [7, 7]] rfl udpTyped
  (by decide)

end Verif
