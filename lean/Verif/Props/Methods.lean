import Verif.Props.WholeText
import Verif.Props.Template
import Verif.Spec.SourceWorld

/-!
# Whole methods from the source of a struct (C120)

`SourceWorld` is in `Spec/SourceWorld`, the choice of the bodies (`sourceGetBody`, `sourceSetBody`) in
`Model/Methods`, what Rust makes of a body in `Spec/MiniRust`.
-/

set_option autoImplicit false

namespace Verif
open Spec LengthText Props

/-! ## What is checked of the structs -/

/-- The type as written is that of the declaration, and the macro accepts it. -/
def methodCheck (rf : RawField) (f : Field) : Bool :=
  match sourceType rf, f.ty with
  | some (.primitive ty n en), .prim p => ty == rf.ty && n == p.size && en == p.endian
  | some (.vector (.primitive ty n _)), .vecPrim p =>
    n == p.size && (ty == ['u', '8']) == decide (p.size = 8) && (operations 0 n .big).isSome &&
    typeNames.any fun x => x.1.toList == ty && storageWidth n == x.2
  | some (.misc _), .misc args => (constructTexts rf.attrs).length == args.length
  | some (.vector (.misc _)), .vecPkt _ => true
  | _, _ => false

theorem crate_methods : (crateSources.all fun e => decide (e.2.2.bits < 2 ^ 32) &&
    (List.range e.2.1.length).all fun k =>
    match e.2.1[k]?, e.2.2.fields[k]? with
    | some rf, some f => methodCheck rf f
    | _, _ => true) = true := by decide +kernel

theorem crate_bits {e : String × List RawField × Decl} (he : e ∈ crateSources) : e.2.2.bits < 2 ^ 32 := by
  have h := List.all_eq_true.mp crate_methods e he
  simp only [Bool.and_eq_true, decide_eq_true_eq] at h
  exact h.1

theorem crate_method_at {e : String × List RawField × Decl} (he : e ∈ crateSources) {k : Nat} {rf : RawField}
    {f : Field} (hrf : e.2.1[k]? = some rf) (hf : e.2.2.fields[k]? = some f) : methodCheck rf f = true := by
  have h := List.all_eq_true.mp crate_methods e he
  simp only [Bool.and_eq_true] at h
  have h := List.all_eq_true.mp h.2 k (List.mem_range.mpr (List.getElem?_eq_some_iff.mp hrf).1)
  simp only [hrf, hf] at h
  exact h

/-! ## The interpolated parts are determined -/

theorem usizeIs_unique {I : Meaning RunVal} {ts : List TT} {a b : Res Nat} (ha : UsizeIs I ts a) (hb : UsizeIs I ts b) :
    a = b := by
  obtain ⟨x, -, h1, h2⟩ := ha
  obtain ⟨y, h3, -, h4⟩ := hb
  rw [h1 y h3, h2] at h4
  injection h4 with h5
  cases a <;> cases b <;> simp_all [Except.map]

theorem getterGives_unique {m : Mode} {I : Meaning RunVal} {buf : Buf} {ts : List TT} {name : String} {ty : List Char}
    {bits : Nat} {a b : Res Nat} (ha : GetterGives m I buf ts name ty bits a) (hb : GetterGives m I buf ts name ty bits b) :
    a = b := by
  obtain ⟨n, en, sp, ops, pos, h1, h2, h3, rfl⟩ := ha
  obtain ⟨n', en', sp', ops', pos', h1', h2', h3', rfl⟩ := hb
  rw [h1] at h1'
  cases h1'
  rw [h2] at h2'
  cases h2'
  rw [usizeIs_unique h3 h3']

theorem setterGives_unique {m : Mode} {I : Meaning RunVal} {buf : Buf} {ts : List TT} {name : String} {ty : List Char}
    {bits v : Nat} {a b : Res Buf} (ha : SetterGives m I buf ts name ty bits v a)
    (hb : SetterGives m I buf ts name ty bits v b) : a = b := by
  obtain ⟨n, en, sp, ops, pos, h1, h2, h3, rfl⟩ := ha
  obtain ⟨n', en', sp', ops', pos', h1', h2', h3', rfl⟩ := hb
  rw [h1] at h1'
  cases h1'
  rw [h2] at h2'
  cases h2'
  rw [usizeIs_unique h3 h3']

section
variable {e : String × List RawField × Decl} (he : e ∈ crateSources) {m : Mode} {k : Nat} {rf : RawField} {f : Field}
  (hrf : e.2.1[k]? = some rf) (hf : e.2.2.fields[k]? = some f)

include he in
theorem source_co (buf : Buf) (hk : k ≤ e.2.2.fields.length) :
    UsizeIs (packetMeaning m e.2.2 buf) (fieldOffset tokenise e.2.1 sourceWidth k)
      (curOff m (e.2.2.before m buf k).bit (e.2.2.before m buf k).lens) :=
  C114_positions e he sourceWidth (sourceWidth_ok e he) m buf k hk

include he hf in
theorem source_length (buf : Buf) :
    match fieldLength tokenise e.2.1 sourceWidth k with
    | some ts => f.len.isSome = true ∧ UsizeIs (packetMeaning m e.2.2 buf) ts (fieldLen m buf (e.2.2.before m buf k) f)
    | none => f.len.isSome = false ∧ fieldLen m buf (e.2.2.before m buf k) f = .ok buf.length := by
  rcases C114_lengths e he sourceWidth (sourceWidth_ok e he) m buf k f hf with ⟨h1, h2⟩ |
    ⟨len, ts, us, ex, ex₂, h1, h2, -, h3, h4, -, -, h5, -⟩
  · rw [h2]
    simp [fieldLen, h1]
  · rw [h2]
    simp only [fieldLen, h1, Option.isSome_some, true_and]
    exact ⟨ex, h3, h4, h5⟩

variable {W : RustWorld} (hW : SourceWorld e.2.1 e.2.2 m k rf W)
include he hf hW

theorem world_co (buf : Buf) (hsl : SliceLen buf.length) :
    W.co buf = curOff m (e.2.2.before m buf k).bit (e.2.2.before m buf k).lens :=
  usizeIs_unique (hW.co buf hsl) (source_co he buf (Nat.le_of_lt (List.getElem?_eq_some_iff.mp hf).1))

theorem world_length (buf : Buf) (hsl : SliceLen buf.length) :
    W.packetLength buf = fieldLen m buf (e.2.2.before m buf k) f := by
  have h1 := hW.packetLength buf hsl
  have h2 := source_length he hf (m := m) buf
  split at h1
  · rename_i ts hts
    rw [hts] at h2
    exact usizeIs_unique h1 h2.2
  · rename_i hts
    rw [hts] at h2
    rw [h1, h2.2]

theorem world_co_lt (buf : Buf) (hsl : SliceLen buf.length) {co : Nat} (h : W.co buf = .ok co) : co < 2 ^ 64 := by
  rw [world_co he hf hW buf hsl, before_bit] at h
  have h1 := crate_bits he
  have h2 := bitsSum_take_le e.2.2.fields k
  have h3 : bitsSum e.2.2.fields = e.2.2.bits := rfl
  exact curOff_card (by unfold usizeCard; omega) h

include hrf

/-- The blocks of an integer. -/
theorem world_blocks {p : Prim} (hp : f.ty = .prim p) :
    (∀ b co, SliceLen b.length → co < 2 ^ 64 →
      W.readOps b co = getPrim p (bitsSum (e.2.2.fields.take k) % 8) b co) ∧
    (∀ b co v, SliceLen b.length → co < 2 ^ 64 → v < 2 ^ storageWidth p.size →
      W.writeOps b co v = setPrim p (bitsSum (e.2.2.fields.take k) % 8) b co v) := by
  have hc := (crate_type_at he hrf hf).2
  rw [hp] at hc
  have hm := crate_method_at he hrf hf
  have hb := hW.blocks
  unfold methodCheck at hm
  rw [hp] at hm
  split at hm
  · rename_i ty n en p' hs hp'
    cases hp'
    rw [hs] at hb
    simp only [Bool.and_eq_true, beq_iff_eq] at hm
    obtain ⟨⟨rfl, rfl⟩, rfl⟩ := hm
    obtain ⟨ops, h1, h2, h3⟩ := hb
    rw [(run_before he (sourceWidth_ok e he) m [] k (Nat.le_of_lt (List.getElem?_eq_some_iff.mp hf).1)).1] at h1
    obtain ⟨-, ⟨s, w, h4, h5, h6⟩, -⟩ := primCheck_facts hc
    rw [← h5] at h2 h3
    exact ⟨fun b co hb hco => by
        rw [h2 b co hb hco]; exact CodeText.run_getter_any h4 h6 h1 (by simp [bufferNames]) m hb hco,
      fun b co v hb hco hv => by
        rw [h3 b co v hb hco hv]; exact CodeText.run_setter_any h4 h6 h1 (by simp [bufferNames]) m hb (h6 ▸ hv) hco⟩
  · rename_i h; cases h
  · rename_i h; cases h
  · rename_i h; cases h
  · cases hm

/-- The blocks of the elements of a vector. -/
theorem world_elems {p : Prim} (hp : f.ty = .vecPrim p) :
    (∀ b co, SliceLen b.length → co < 2 ^ 64 → W.readOps b co = getPrimU m ⟨p.size, .big⟩ 0 b co) ∧
    (∀ b co v, SliceLen b.length → co < 2 ^ 64 → v < 2 ^ storageWidth p.size →
      W.writeOps b co v = setPrimU m ⟨p.size, .big⟩ 0 b co v) := by
  have hm := crate_method_at he hrf hf
  have hb := hW.blocks
  unfold methodCheck at hm
  rw [hp] at hm
  split at hm
  · rename_i h; cases h
  · rename_i ty n en p' hs hp'
    cases hp'
    rw [hs] at hb
    simp only [Bool.and_eq_true, beq_iff_eq, List.any_eq_true] at hm
    obtain ⟨⟨⟨rfl, -⟩, -⟩, ⟨⟨s, w⟩, h4, h5, h6⟩⟩ := hm
    obtain ⟨ops, h1, h2, h3⟩ := hb
    dsimp only at h5 h6
    rw [← h5] at h2 h3
    exact ⟨fun b co hb hco => by
        rw [h2 b co hb hco, getPrimU_eq m _ 0 hb co hco]
        exact CodeText.run_getter_any h4 h6 h1 (by simp [bufferNames]) m hb hco,
      fun b co v hb hco hv => by
        rw [h3 b co v hb hco hv, setPrimU_eq m _ 0 hb co v hco]
        exact CodeText.run_setter_any h4 h6 h1 (by simp [bufferNames]) m hb (h6 ▸ hv) hco⟩
  · rename_i h; cases h
  · rename_i h; cases h
  · cases hm

end

theorem args_get {e : String × List RawField × Decl} (he : e ∈ crateSources) (m : Mode) {buf : Buf}
    (hsl : SliceLen buf.length) {k : Nat} (hk : k ≤ e.2.2.fields.length) :
    ∀ (tys : List (List Char)) (ps : List Prim) (gs : List (Buf → Res Nat)) (ss : List (Buf → Nat → Res Buf))
      (done : Nat), argsCheck (bitsSum (e.2.2.fields.take k) + done) tys ps = true →
      ArgsAre m (packetMeaning m e.2.2) (argOffset tokenise e.2.1 sourceWidth k) (bitsSum (e.2.2.fields.take k)) done
        tys gs ss →
      (gs.mapM fun (get : Buf → Res Nat) => get buf) =
        getArgs m (e.2.2.before m buf k).lens buf (bitsSum (e.2.2.fields.take k) + done) ps
  | [], [], [], [], _, _, _ => rfl
  | [], [], _ :: _, _, _, _, h => by cases h
  | [], [], [], _ :: _, _, _, h => by cases h
  | [], _ :: _, _, _, _, h, _ => by cases h
  | _ :: _, [], _, _, _, h, _ => by cases h
  | _ :: _, _ :: _, [], _, _, _, h => by cases h
  | _ :: _, _ :: _, _ :: _, [], _, _, h => by cases h
  | ty :: tys, p :: ps, g :: gs, s :: ss, done, hc, h => by
    simp only [argsCheck, Bool.and_eq_true] at hc
    obtain ⟨h1, -, h3⟩ := h
    rw [primCheck_tyBits hc.1] at h3
    have ih := args_get he m hsl hk tys ps gs ss (done + p.size) (by rw [← Nat.add_assoc]; exact hc.2) h3
    rw [List.mapM_cons, ih, getterGives_unique (h1 buf hsl)
      (getter_gives hc.1 hsl (argOffset_is he m buf k done hk (primCheck_facts hc.1).2.2.2) (by simp [bufferNames])),
      getArgs, ← Nat.add_assoc]
    cases curOff m (bitsSum (e.2.2.fields.take k) + done) (e.2.2.before m buf k).lens <;> rfl

theorem args_set {e : String × List RawField × Decl} (he : e ∈ crateSources) (m : Mode)
    {k : Nat} (hk : k ≤ e.2.2.fields.length) :
    ∀ (tys : List (List Char)) (ps : List Prim) (gs : List (Buf → Res Nat)) (ss : List (Buf → Nat → Res Buf))
      (vs : List Nat) (done : Nat) (buf : Buf), SliceLen buf.length →
      argsCheck (bitsSum (e.2.2.fields.take k) + done) tys ps = true →
      ArgsAre m (packetMeaning m e.2.2) (argOffset tokenise e.2.1 sourceWidth k) (bitsSum (e.2.2.fields.take k)) done
        tys gs ss → vs.length = ps.length →
      (∀ (i : Nat) (p : Prim) (v : Nat), ps[i]? = some p → vs[i]? = some v → v < 2 ^ storageWidth p.size) →
      callSets ss vs buf =
        setArgs m (fun b => (e.2.2.before m b k).lens) (bitsSum (e.2.2.fields.take k) + done) ps vs buf
  | [], [], [], [], [], _, _, _, _, _, _, _ => rfl
  | [], [], _, _, _ :: _, _, _, _, _, _, h, _ => by cases h
  | [], [], _ :: _, _, [], _, _, _, _, h, _, _ => by cases h
  | [], [], [], _ :: _, [], _, _, _, _, h, _, _ => by cases h
  | [], _ :: _, _, _, _, _, _, _, h, _, _, _ => by cases h
  | _ :: _, [], _, _, _, _, _, _, h, _, _, _ => by cases h
  | _ :: _, _ :: _, _, _, [], _, _, _, _, _, h, _ => by cases h
  | _ :: _, _ :: _, [], _, _ :: _, _, _, _, _, h, _, _ => by cases h
  | _ :: _, _ :: _, _ :: _, [], _ :: _, _, _, _, _, h, _, _ => by cases h
  | ty :: tys, p :: ps, g :: gs, s :: ss, v :: vs, done, buf, hsl, hc, h, hl, hv => by
    simp only [argsCheck, Bool.and_eq_true] at hc
    obtain ⟨-, h2, h3⟩ := h
    rw [primCheck_tyBits hc.1] at h2 h3
    rw [callSets, setterGives_unique (h2 buf v hsl (hv 0 p v rfl rfl))
      (setter_gives hc.1 hsl (argOffset_is he m buf k done hk (primCheck_facts hc.1).2.2.2) (by simp [bufferNames])
        (hv 0 p v rfl rfl)), setArgs]
    cases curOff m (bitsSum (e.2.2.fields.take k) + done) (e.2.2.before m buf k).lens with
    | error x => rfl
    | ok co =>
      simp only [ok_bind]
      cases hs : setPrim p ((bitsSum (e.2.2.fields.take k) + done) % 8) buf co v with
      | error x => rfl
      | ok new =>
        simp only [ok_bind]
        rw [Nat.add_assoc]
        exact args_set he m hk tys ps gs ss vs (done + p.size) new (by rw [setPrim_length hs]; exact hsl)
          (by rw [← Nat.add_assoc]; exact hc.2) h3 (by simpa using hl) fun i p' v' h1 h2 => hv (i + 1) p' v' h1 h2

theorem argsAre_length {m : Mode} {I : Buf → Meaning RunVal} {at_ : Nat → List TT} {start done : Nat}
    {tys : List (List Char)} {gs : List (Buf → Res Nat)} {ss : List (Buf → Nat → Res Buf)}
    (h : ArgsAre m I at_ start done tys gs ss) : ss.length = tys.length := by
  induction tys generalizing done gs ss with
  | nil => cases gs <;> cases ss <;> first | rfl | cases h
  | cons ty tys ih =>
    cases gs with
    | nil => cases h
    | cons g gs =>
      cases ss with
      | nil => cases h
      | cons s ss =>
        obtain ⟨-, -, h⟩ := h
        rw [List.length_cons, List.length_cons, ih h]

/-! ## C120 -/

/-- **C120**: take the body of the getter of a field of a struct of the crate, chosen by the type as written, and
everything interpolated into it, as the macro writes it from the struct as written. Run as Rust, with a library
that reserves the capacity it is asked for, it returns what the getter in the model returns or fails as it does,
for every slice and both kinds of builds; for a vector of packets see `C120_raw`. -/
theorem C120_getters (e : String × List RawField × Decl) (he : e ∈ crateSources) (m : Mode) (buf : Buf)
    (hsl : SliceLen buf.length) (k : Nat) (rf : RawField) (hrf : e.2.1[k]? = some rf) (f : Field)
    (hf : e.2.2.fields[k]? = some f) (hty : ∀ c, f.ty ≠ .vecPkt c) (W : RustWorld)
    (hW : SourceWorld e.2.1 e.2.2 m k rf W) (hcap : W.cap = id) :
    ∃ body, sourceGetBody rf = some body ∧
      runMethod W body buf none = (e.2.2.get m buf k).map fun v => (returned f.ty v, buf) := by
  have hk := Nat.le_of_lt (List.getElem?_eq_some_iff.mp hf).1
  have hm := crate_method_at he hrf hf
  have hc := (crate_type_at he hrf hf).2
  have hco := world_co he hf hW buf hsl
  have hlen := world_length he hf hW buf hsl
  unfold methodCheck at hm
  cases hft : f.ty with
  | prim p =>
    rw [hft] at hm
    split at hm
    case h_1 ty n en p' hs hp' =>
      refine ⟨intGetBody, by rw [sourceGetBody, hs], ?_⟩
      rw [run_intGet, Decl.get, hf]
      simp only [hft, getField]
      rw [hco]
      cases hcc : curOff m (e.2.2.before m buf k).bit (e.2.2.before m buf k).lens with
      | error x => rfl
      | ok co =>
        simp only [ok_bind]
        rw [(world_blocks he hrf hf hW hft).1 buf co hsl (world_co_lt he hf hW buf hsl (by rw [hco, hcc])), before_bit]
        cases getPrim p (bitsSum (e.2.2.fields.take k) % 8) buf co <;> rfl
    all_goals first | (rename_i h; cases h; done) | cases hm
  | misc args =>
    rw [hft] at hm hc
    split at hm
    case h_3 ty args' hs hp' =>
      refine ⟨miscGetBody, by rw [sourceGetBody, hs], ?_⟩
      have hb := hW.blocks
      rw [hs] at hb
      simp only [(run_before he (sourceWidth_ok e he) m [] k hk).1] at hb
      rw [run_miscGet, args_get he m hsl hk _ args _ _ 0 hc hb, Decl.get, hf]
      simp only [hft, getField, before_bit, Nat.add_zero]
      cases getArgs m (e.2.2.before m buf k).lens buf (bitsSum (e.2.2.fields.take k)) args <;> rfl
    all_goals first | (rename_i h; cases h; done) | cases hm
  | vecPrim p =>
    rw [hft] at hm
    split at hm
    case h_2 ty n en p' hs hp' =>
      cases hp'
      simp only [Bool.and_eq_true, beq_iff_eq] at hm
      obtain ⟨⟨⟨rfl, -⟩, -⟩, -⟩ := hm
      refine ⟨vecGetBody (p.size / 8), by rw [sourceGetBody, hs], ?_⟩
      rw [run_vecGet W p buf (fun b co hb hlt => by
        rw [hW.mode]
        exact (world_elems he hrf hf hW hft).1 b co (by unfold SliceLen at *; omega) hlt)]
      rw [Decl.get, hf]
      simp only [hft, getField]
      rw [hco, hlen, hcap, hW.mode]
      simp only [id]
      cases hv : varSlice m buf (curOff m (e.2.2.before m buf k).bit (e.2.2.before m buf k).lens)
        (fieldLen m buf (e.2.2.before m buf k) f) with
      | error x => rfl
      | ok raw =>
        simp only [ok_bind]
        rw [getElemsU_eq m p (by have := varSlice_length hv; unfold SliceLen at *; omega) _ 0 (by decide)]
        cases hg : getElems p raw raw.length 0 with
        | error x => rfl
        | ok ns =>
          have hlen : ∀ (n co : Nat) (ns : List Nat), getElems p raw n co = .ok ns → ns.length = n := by
            intro n
            induction n with
            | zero => intro co ns h; cases h; rfl
            | succ n ih =>
              intro co ns h
              rw [getElems, bind_eq_ok] at h
              obtain ⟨v, -, h⟩ := h
              rw [bind_eq_ok] at h
              obtain ⟨ns', h1, h⟩ := h
              cases h
              rw [List.length_cons, ih _ ns' h1]
          rw [← hlen _ _ _ hg]
          rfl
    all_goals first | (rename_i h; cases h; done) | cases hm
  | vecPkt c => exact absurd hft (hty c)

/-- **C120**: likewise the setter, for every value of the Rust type of its argument; for a vector of packets,
`W.inner` is the packet type inside. -/
theorem C120_setters (e : String × List RawField × Decl) (he : e ∈ crateSources) (m : Mode) (buf : Buf)
    (hsl : SliceLen buf.length) (k : Nat) (rf : RawField) (hrf : e.2.1[k]? = some rf) (f : Field)
    (hf : e.2.2.fields[k]? = some f) (v : Val) (hv : RustTyped f.ty v) (W : RustWorld)
    (hW : SourceWorld e.2.1 e.2.2 m k rf W) (hin : ∀ c, f.ty = .vecPkt c → W.inner = c) :
    ∃ body arg, passed f.ty v = some arg ∧
      sourceSetBody rf (fieldLength tokenise e.2.1 sourceWidth k).isSome (constructTexts rf.attrs).length = some body ∧
      runMethod W body buf (some arg) = (e.2.2.set m buf k v).map fun b => (.unit, b) := by
  have hk := Nat.le_of_lt (List.getElem?_eq_some_iff.mp hf).1
  have hm := crate_method_at he hrf hf
  have hc := (crate_type_at he hrf hf).2
  have hco := world_co he hf hW buf hsl
  have hlen := world_length he hf hW buf hsl
  have hil : (fieldLength tokenise e.2.1 sourceWidth k).isSome = f.len.isSome := by
    have := source_length he hf (m := m) buf
    split at this
    · rename_i ts hts; rw [hts, this.1]; rfl
    · rename_i hts; rw [hts, this.1]; rfl
  rw [hil]
  have hbits : e.2.2.bits < usizeCard := Nat.lt_trans (crate_bits he) (by decide)
  unfold methodCheck at hm
  cases hft : f.ty with
  | prim p =>
    rw [hft] at hm hv
    split at hm
    case h_1 ty n en p' hs hp' =>
      cases v with
      | num x =>
        refine ⟨intSetBody, _, rfl, by rw [sourceSetBody, hs], ?_⟩
        rw [run_intSet, Decl.set, hf]
        simp only [hft]
        rw [hco]
        cases hcc : curOff m (e.2.2.before m buf k).bit (e.2.2.before m buf k).lens with
        | error x => rfl
        | ok co =>
          simp only [ok_bind]
          rw [(world_blocks he hrf hf hW hft).2 buf co x hsl (world_co_lt he hf hW buf hsl (by rw [hco, hcc])) hv, before_bit]
          rfl
      | nums ns => cases hv
      | list vs => cases hv
    all_goals first | (rename_i h; cases h; done) | cases hm
  | misc args =>
    rw [hft] at hm hc hv
    split at hm
    case h_3 ty args' hs hp' =>
      cases hp'
      cases v with
      | nums ns =>
        obtain ⟨hl, hv⟩ := hv
        have hb := hW.blocks
        rw [hs] at hb
        simp only [(run_before he (sourceWidth_ok e he) m [] k hk).1] at hb
        have hn : W.setArgs.length = (constructTexts rf.attrs).length := argsAre_length hb
        have hm : (constructTexts rf.attrs).length = args.length := by simpa using hm
        refine ⟨miscSetBody (constructTexts rf.attrs).length, ("val", .given (.nums ns)), by simp only [passed, if_pos hl],
          by rw [sourceSetBody, hs], ?_⟩
        rw [← hn, run_miscSet W buf ns (by omega), args_set he m hk _ args _ _ ns 0 buf hsl hc hb hl hv, Decl.set, hf]
        simp only [hft, if_pos hl, before_bit, Nat.add_zero]
        rfl
      | num x => cases hv
      | list vs => cases hv
    all_goals first | (rename_i h; cases h; done) | cases hm
  | vecPrim p =>
    rw [hft] at hm hv
    split at hm
    case h_2 ty n en p' hs hp' =>
      cases hp'
      cases v with
      | nums ns =>
        obtain ⟨hl, hv⟩ := hv
        simp only [Bool.and_eq_true, beq_iff_eq] at hm
        obtain ⟨⟨⟨rfl, h8⟩, -⟩, -⟩ := hm
        refine ⟨vecSetBody f.len.isSome (decide (p.size = 8)) (p.size / 8), _, rfl, by rw [← h8, sourceSetBody, hs], ?_⟩
        rw [run_vecSet W p _ buf hsl ns (fun co h => world_co_lt he hf hW buf hsl h) (fun _ b co v hb hlt hmem => by
          rw [hW.mode]
          exact (world_elems he hrf hf hW hft).2 b co v (by unfold SliceLen at *; omega) hlt (hv v hmem))]
        rw [← setU_eq e.2.2 m buf hsl hbits k (.nums ns) (by intro ns' h; cases h; exact hl), Decl.setU, hf]
        simp only [hft]
        rw [hco, hlen, hW.mode]
        cases curOff m (e.2.2.before m buf k).bit (e.2.2.before m buf k).lens with
        | error x => rfl
        | ok co =>
          simp only [ok_bind, fieldLen]
          cases f.len with
          | none => rfl
          | some len => rfl
      | num x => cases hv
      | list vs => cases hv
    all_goals first | (rename_i h; cases h; done) | cases hm
  | vecPkt c =>
    rw [hft] at hm hv
    split at hm
    case h_4 ty c' hs hp' =>
      cases v with
      | list vs =>
        refine ⟨packetsSetBody, _, rfl, by rw [sourceSetBody, hs], ?_⟩
        rw [run_packetsSet, Decl.set, hf]
        simp only [hft]
        rw [hco, hlen, hW.mode, hin c hft]
        rfl
      | num x => cases hv
      | nums vs => cases hv
    all_goals first | (rename_i h; cases h; done) | cases hm

/-- **C120**: for every field, `get_<field>_raw`, `get_<field>_raw_mut` and, for a vector of packets, the slice
that its iterator walks over, are the bytes that `Decl.getRaw` says. -/
theorem C120_raw (e : String × List RawField × Decl) (he : e ∈ crateSources) (m : Mode) (buf : Buf)
    (hsl : SliceLen buf.length) (k : Nat) (rf : RawField) (f : Field)
    (hf : e.2.2.fields[k]? = some f) (W : RustWorld) (hW : SourceWorld e.2.1 e.2.2 m k rf W) :
    runMethod W rawBody buf none = (e.2.2.getRaw m buf k).map fun s => (.bytes s, buf) := by
  rw [run_raw, world_co he hf hW buf hsl, world_length he hf hW buf hsl, hW.mode]
  simp only [Decl.getRaw, hf]

/-- **C120**: the same for `payload` and `payload_mut`, of the field marked `#[payload]`. -/
theorem C120_payload (e : String × List RawField × Decl) (he : e ∈ crateSources) (m : Mode) (buf : Buf)
    (hsl : SliceLen buf.length) (k : Nat) (hk : e.2.2.payloadIdx = some k) (rf : RawField) (W : RustWorld)
    (hW : SourceWorld e.2.1 e.2.2 m k rf W) :
    runMethod W (payloadBody (payloadBounds true (fieldLength tokenise e.2.1 sourceWidth k).isSome).1
        (payloadBounds true (fieldLength tokenise e.2.1 sourceWidth k).isSome).2) buf none =
      (e.2.2.payload m buf).map fun s => (.bytes s, buf) := by
  have hkl : k < e.2.2.fields.length := by
    unfold Decl.payloadIdx at hk
    exact (List.findIdx?_eq_some_iff_getElem.mp hk).1
  have hf : e.2.2.fields[k]? = some e.2.2.fields[k] := List.getElem?_eq_getElem hkl
  have hco := world_co he hf hW buf hsl
  have hlen := world_length he hf hW buf hsl
  have hl := source_length he hf (m := m) buf
  unfold Decl.payload Decl.payloadBounds
  simp only [hk, hf]
  split at hl
  · rename_i ts hts
    obtain ⟨len, hlen'⟩ := Option.isSome_iff_exists.mp hl.1
    rw [hts]
    rw [run_payload _ buf _ _ (curOff m (e.2.2.before m buf k).bit (e.2.2.before m buf k).lens) (do
        let a ← curOff m (e.2.2.before m buf k).bit (e.2.2.before m buf k).lens
        let b ← fieldLen m buf (e.2.2.before m buf k) e.2.2.fields[k]
        uadd m a b)
      (by intro env h; simp only [payloadBounds, RustExp.eval, h, if_true]; exact hco)
      (by
        intro env h
        simp only [payloadBounds, RustExp.eval, h, if_true, Option.isSome_some]
        rw [hco, hlen, hW.mode])]
    simp only [fieldLen, hlen']
    cases curOff m (e.2.2.before m buf k).bit (e.2.2.before m buf k).lens with
    | error x => rfl
    | ok a =>
      simp only [ok_bind]
      cases lenExpr m buf (e.2.2.before m buf k) len with
      | error x => rfl
      | ok l =>
        simp only [ok_bind]
        cases uadd m a l with
        | error x => rfl
        | ok b =>
          simp only [ok_bind]
          exact bytesOf _ _ _
  · rename_i hts
    have hlen' : e.2.2.fields[k].len = none := by simpa using hl.1
    rw [hts]
    rw [run_payload _ buf _ _ (curOff m (e.2.2.before m buf k).bit (e.2.2.before m buf k).lens) (.ok buf.length)
      (by intro env h; simp only [payloadBounds, RustExp.eval, h, if_true]; exact hco)
      (by
        intro env h
        simp only [payloadBounds, RustExp.eval, h, if_true, Option.isSome_none, Bool.false_eq_true, if_false])]
    simp only [hlen']
    cases curOff m (e.2.2.before m buf k).bit (e.2.2.before m buf k).lens with
    | error x => rfl
    | ok a =>
      simp only [ok_bind]
      exact bytesOf _ _ _

theorem args_are {e : String × List RawField × Decl} (he : e ∈ crateSources) (m : Mode) (cap : Capacity) {k : Nat}
    (hk : k ≤ e.2.2.fields.length) (hbits : e.2.2.bits < 2 ^ 32) :
    ∀ (tys : List (List Char)) (ps : List Prim) (done : Nat),
      argsCheck (bitsSum (e.2.2.fields.take k) + done) tys ps = true →
      ArgsAre m (packetMeaning m e.2.2) (argOffset tokenise e.2.1 sourceWidth k) (bitsSum (e.2.2.fields.take k)) done tys
        (argGetters e.2.2 m cap k (bitsSum (e.2.2.fields.take k) + done) ps)
        (argSetters e.2.2 m cap k (bitsSum (e.2.2.fields.take k) + done) ps)
  | [], [], _, _ => trivial
  | [], _ :: _, _, h => by cases h
  | _ :: _, [], _, h => by cases h
  | ty :: tys, p :: ps, done, h => by
    simp only [argsCheck, Bool.and_eq_true] at h
    have hb := (primCheck_facts h.1).2.2.1
    have ih := args_are he m cap hk hbits tys ps (done + p.size) (by rw [← Nat.add_assoc]; exact h.2)
    refine ⟨fun b hsl => ?_, fun b v hsl hv => ?_, by rw [primCheck_tyBits h.1]; simpa only [Nat.add_assoc] using ih⟩
    · have h2 := getter_gives h.1 hsl (argOffset_is he m b k done hk (primCheck_facts h.1).2.2.2)
        (name := "_self.packet") (by simp [bufferNames])
      have : asInt (runMethod (intWorld e.2.2 m cap k (bitsSum (e.2.2.fields.take k) + done) p) intGetBody b none) =
          curOff m (bitsSum (e.2.2.fields.take k) + done) (e.2.2.before m b k).lens >>=
            getPrim p ((bitsSum (e.2.2.fields.take k) + done) % 8) b := by
        rw [run_intGet]
        simp only [intWorld]
        cases hc : curOff m (bitsSum (e.2.2.fields.take k) + done) (e.2.2.before m b k).lens with
        | error x => rfl
        | ok co =>
          simp only [ok_bind]
          rw [getPrimU_eq m p _ hsl co (curOff_card (by unfold usizeCard; omega) hc)]
          cases getPrim p ((bitsSum (e.2.2.fields.take k) + done) % 8) b co <;> rfl
      dsimp only
      rw [this]
      exact h2
    · have h2 := setter_gives h.1 hsl (argOffset_is he m b k done hk (primCheck_facts h.1).2.2.2)
        (name := "_self.packet") (by simp [bufferNames]) (v := v) (by rw [← primCheck_tyBits h.1]; exact hv)
      have : asBuf (runMethod (intWorld e.2.2 m cap k (bitsSum (e.2.2.fields.take k) + done) p) intSetBody b
          (some ("val", .int v))) =
          curOff m (bitsSum (e.2.2.fields.take k) + done) (e.2.2.before m b k).lens >>= fun co =>
            setPrim p ((bitsSum (e.2.2.fields.take k) + done) % 8) b co v := by
        rw [run_intSet]
        simp only [intWorld]
        cases hc : curOff m (bitsSum (e.2.2.fields.take k) + done) (e.2.2.before m b k).lens with
        | error x => rfl
        | ok co =>
          simp only [ok_bind]
          rw [setPrimU_eq m p _ hsl co v (curOff_card (by unfold usizeCard; omega) hc)]
          cases setPrim p ((bitsSum (e.2.2.fields.take k) + done) % 8) b co v <;> rfl
      dsimp only
      rw [this]
      exact h2

/-- **C120**: there is such a world for every field of every struct of the crate, the one of C116; so the macro
accepts the field, its expressions have exactly one reading, and its texts run. -/
theorem C120_worlds (e : String × List RawField × Decl) (he : e ∈ crateSources) (m : Mode) (cap : Capacity)
    (k : Nat) (rf : RawField) (hrf : e.2.1[k]? = some rf) (f : Field) (hf : e.2.2.fields[k]? = some f) :
    SourceWorld e.2.1 e.2.2 m k rf (fieldWorld e.2.2 m cap k f) := by
  have hk := Nat.le_of_lt (List.getElem?_eq_some_iff.mp hf).1
  have hm := crate_method_at he hrf hf
  have hc := (crate_type_at he hrf hf).2
  have hbits := crate_bits he
  refine ⟨rfl, fun b _ => ?_, fun b _ => ?_, ?_⟩
  · have := source_co he (m := m) b hk
    rw [before_firstBit] at this
    exact this
  · have := source_length he hf (m := m) b
    split at this
    · rename_i ts hts; rw [hts]; exact this.2
    · rename_i hts; rw [hts]; exact this.2
  · rw [(run_before he (sourceWidth_ok e he) m [] k hk).1]
    unfold methodCheck at hm
    split at hm
    · rename_i ty n en p hs hp
      rw [hp] at hc
      simp only [Bool.and_eq_true, beq_iff_eq] at hm
      obtain ⟨⟨rfl, rfl⟩, rfl⟩ := hm
      obtain ⟨⟨spec, ops, -, h2⟩, ⟨s, w, h3, h4, h5⟩, -, -⟩ := primCheck_facts hc
      rw [hs]
      refine ⟨ops, h2, fun b co hsl hco => ?_, fun b co v hsl hco hv => ?_⟩
      · simp only [fieldWorld, hp]
        rw [getPrimU_eq m p _ hsl co hco, ← h4]
        exact (CodeText.run_getter_any h3 h5 h2 (by simp [bufferNames]) m hsl hco).symm
      · simp only [fieldWorld, hp]
        rw [setPrimU_eq m p _ hsl co v hco, ← h4]
        exact (CodeText.run_setter_any h3 h5 h2 (by simp [bufferNames]) m hsl (h5 ▸ hv) hco).symm
    · rename_i ty n en p hs hp
      simp only [Bool.and_eq_true, beq_iff_eq, List.any_eq_true] at hm
      obtain ⟨⟨⟨rfl, -⟩, h2⟩, ⟨⟨s, w⟩, h3, h4, h5⟩⟩ := hm
      dsimp only at h4 h5
      obtain ⟨ops, h2⟩ := Option.isSome_iff_exists.mp h2
      rw [hs]
      refine ⟨ops, h2, fun b co hsl hco => ?_, fun b co v hsl hco hv => ?_⟩
      · simp only [fieldWorld, hp]
        rw [getPrimU_eq m _ _ hsl co hco, ← h4]
        exact (CodeText.run_getter_any h3 h5 h2 (by simp [bufferNames]) m hsl hco).symm
      · simp only [fieldWorld, hp]
        rw [setPrimU_eq m _ _ hsl co v hco, ← h4]
        exact (CodeText.run_setter_any h3 h5 h2 (by simp [bufferNames]) m hsl (h5 ▸ hv) hco).symm
    · rename_i ty args hs hp
      rw [hp] at hc
      rw [hs]
      simp only [fieldWorld, hp]
      exact args_are he m cap hk hbits _ args 0 hc
    · rename_i hs hp
      rw [hs]
      trivial
    · cases hm

/-! ## Examples -/

example := C120_getters ("ipv4::Ipv4", Source.srcIpv4, ipv4) (by simp [crateSources]) .debug (List.replicate 24 0x46)
  (by decide) 14 _ rfl _ rfl (by intro c h; cases h) _
  (C120_worlds ("ipv4::Ipv4", Source.srcIpv4, ipv4) (by simp [crateSources]) .debug id 14 _ rfl _ rfl) rfl

/-- The options of an IPv4 packet, and its source address. -/
example := C120_setters ("ipv4::Ipv4", Source.srcIpv4, ipv4) (by simp [crateSources]) .debug (List.replicate 24 0x46)
  (by decide) 13 _ rfl _ rfl (.list []) trivial _
  (C120_worlds ("ipv4::Ipv4", Source.srcIpv4, ipv4) (by simp [crateSources]) .debug id 13 _ rfl _ rfl)
  (by intro c h; cases h; rfl)

example := C120_setters ("ipv4::Ipv4", Source.srcIpv4, ipv4) (by simp [crateSources]) .release (List.replicate 24 0x46)
  (by decide) 11 _ rfl _ rfl (.nums [10, 0, 0, 7]) ⟨rfl, by
    intro i p v h1 h2
    match i with
    | 0 | 1 | 2 | 3 => cases h1; cases h2; decide
    | i + 4 => cases h1⟩ _
  (C120_worlds ("ipv4::Ipv4", Source.srcIpv4, ipv4) (by simp [crateSources]) .release id 11 _ rfl _ rfl)
  (by intro c h; cases h)

/-- The payload of an Ethernet frame. -/
example := C120_setters ("ethernet::Ethernet", Source.srcEthernet, ethernet) (by simp [crateSources]) .debug
  (List.replicate 18 0) (by decide) 3 _ rfl _ rfl (.nums [1, 2, 3]) ⟨by decide, by decide⟩ _
  (C120_worlds ("ethernet::Ethernet", Source.srcEthernet, ethernet) (by simp [crateSources]) .debug id 3 _ rfl _ rfl)
  (by intro c h; cases h)

example := C120_raw ("ipv4::Ipv4", Source.srcIpv4, ipv4) (by simp [crateSources]) .debug (List.replicate 24 0x46)
  (by decide) 13 _ _ rfl _
  (C120_worlds ("ipv4::Ipv4", Source.srcIpv4, ipv4) (by simp [crateSources]) .debug id 13 _ rfl _ rfl)

example := C120_payload ("ipv4::Ipv4", Source.srcIpv4, ipv4) (by simp [crateSources]) .debug (List.replicate 24 0x46)
  (by decide) 14 (by decide +kernel) _ _
  (C120_worlds ("ipv4::Ipv4", Source.srcIpv4, ipv4) (by simp [crateSources]) .debug id 14 _ rfl _ rfl)

end Verif
