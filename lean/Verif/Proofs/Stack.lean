import Verif.Proofs.Crate
import Verif.Proofs.Options
import Verif.Spec.Stack

/-! Layers inside layers. -/

namespace Verif
open Spec

structure Carrier (d : Decl) (k : Nat) (f : Field) (p : Prim) : Prop where
  reg : regular d = true
  bytes : d.bits % 8 = 0
  len : d.fields.length = k + 1
  idx : d.payloadIdx = some k
  get : d.fields[k]? = some f
  ty : f.ty = .vecPrim p
  size : p.size = 8

theorem carrier_iff {d : Decl} (h : carrier d = true) : ∃ k f p, Carrier d k f p := by
  simp only [carrier, Bool.and_eq_true, beq_iff_eq, decide_eq_true_eq] at h
  obtain ⟨⟨⟨⟨h1, h2⟩, h3⟩, h4⟩, h5⟩ := h
  split at h5
  · rename_i name p payload len hf
    refine ⟨d.fields.length - 1, _, p, h1, ?_, by omega, h4, hf, rfl, by simpa using h5⟩
    rw [fixedBits_eq] at h2; exact h2
  · simp at h5

theorem Carrier.min {d : Decl} {k : Nat} {f : Field} {p : Prim} (c : Carrier d k f p) :
    d.minSize = d.bits / 8 := by rw [Decl.minSize, if_pos c.bytes]

theorem lawful_none {m : Mode} {E : Nat → Wire} {d : Decl} (h : ∀ f ∈ d.fields, ∀ c, f.ty ≠ .vecPkt c) :
    LawfulElems m E d :=
  fun _ f c hf hc => absurd hc (h f (List.mem_of_getElem? hf) c)

theorem lawful_one {m : Mode} {d d' : Decl} (hd : Inner d')
    (h : ∀ f ∈ d.fields, ∀ c, f.ty = .vecPkt c → c = d'.codec) :
    LawfulElems m (fun _ => declWire m noWire d') d := by
  intro _ f c hf hc
  rw [h f (List.mem_of_getElem? hf) c hc]
  exact hd.lawful m noWire

section Fits

variable {m : Mode} {l : Layer} {inner : Buf} (h : l.Fits m inner)
include h

theorem wire_len : ∃ n, (encFields l.E 0 l.d.fields (l.fields inner)).length = l.d.bits + 8 * n ∧
    (l.wire inner).length = l.d.bits / 8 + n ∧ l.d.bits % 8 = 0 := by
  obtain ⟨k, f, p, c⟩ := carrier_iff h.carrier
  obtain ⟨n, hn⟩ := encFields_length c.reg h.typed
  have := c.bytes
  rw [show bitsSum l.d.fields = l.d.bits from rfl] at hn
  refine ⟨n, hn, ?_, c.bytes⟩
  rw [Layer.wire, packBits_length, hn]; omega

theorem wire_bits : bitsOf (l.wire inner) = encFields l.E 0 l.d.fields (l.fields inner) := by
  obtain ⟨n, hn, -, hb⟩ := wire_len h
  exact bitsOf_packBits (by omega)

theorem header_len : l.header.length + 1 = l.d.fields.length := by
  have := typedFields_length h.typed
  simpa [Layer.fields] using this

theorem wire_populate (hsl : SliceLen (l.wire inner).length) :
    l.d.populate m (List.replicate (l.wire inner).length 0) (.list (l.fields inner)) = .ok (l.wire inner) := by
  obtain ⟨k, f, p, c⟩ := carrier_iff h.carrier
  obtain ⟨n, hn, hl, hb⟩ := wire_len h
  obtain ⟨new, h1, h2, h3⟩ := populate_enc c.reg h.lawful h.typed h.lens
    (List.replicate (l.wire inner).length 0) (by simpa using hsl) (by simp; omega)
  rw [h1]
  congr 1
  apply bitsOf_inj
  rw [h3, wire_bits h, List.drop_eq_nil_of_le, List.append_nil]
  rw [bitsOf_length, List.length_replicate]; omega

theorem wire_new (tail : Buf) : l.d.newPacket (l.wire inner ++ tail) = some (.borrowed (l.wire inner ++ tail)) := by
  obtain ⟨k, f, p, c⟩ := carrier_iff h.carrier
  obtain ⟨n, hn, hl, hb⟩ := wire_len h
  rw [Decl.newPacket, if_pos]
  rw [c.min, List.length_append]; omega

variable {tail : Buf} (hsl : SliceLen (l.wire inner ++ tail).length)
  (ht : closed l.d = true ∨ tail = [])
include hsl ht

theorem wire_header : (List.range (l.d.fields.length - 1)).mapM (l.d.get m (l.wire inner ++ tail)) =
    .ok l.read := by
  obtain ⟨k, f, p, c⟩ := carrier_iff h.carrier
  have hlen := header_len h
  have key : (List.range (l.d.fields.length - 1)).map (l.d.get m (l.wire inner ++ tail)) =
      l.read.map .ok := by
    have hr : l.read.length = l.d.fields.length - 1 := by
      rw [Layer.read, normFields_split _ _ _ _ l.header.length, List.length_append,
        normFields_length (by simp; omega), List.drop_eq_nil_of_le (Nat.le_refl _)]
      cases h' : List.drop l.header.length l.d.fields <;> simp [normFields] <;> omega
    apply List.ext_getElem
    · simp [hr]
    · intro i h1 h2
      simp only [List.length_map, List.length_range] at h1
      have hf : l.d.fields[i]? = some (l.d.fields[i]'(by omega)) := List.getElem?_eq_getElem (by omega)
      have hv : l.header[i]? = some (l.header[i]'(by omega)) := List.getElem?_eq_getElem (by omega)
      have hv' : (l.fields inner)[i]? = some (l.header[i]'(by omega)) := by
        rw [Layer.fields, List.getElem?_append_left (by omega), hv]
      simp only [List.getElem_map, List.getElem_range]
      rw [get_enc hsl c.reg h.lawful h.typed (lensAgree_on (bitsOf tail) h.lens)
        (by rw [bitsOf_append, wire_bits h])
        (ht.imp_right fun h => by rw [h]; rfl) hf hv']
      congr 1
      have := normFields_getElem? (E := l.E) (i := 0) hf hv
      rw [Nat.zero_add] at this
      exact (List.getElem?_eq_some_iff.mp this).2.symm
  have hm : ∀ ks : List Nat, ks.mapM (l.d.get m (l.wire inner ++ tail)) =
      (ks.map (l.d.get m (l.wire inner ++ tail))).mapM id := by
    intro ks; rw [List.mapM_map]; rfl
  rw [hm, key, mapM_id_ok]

theorem wire_payload : l.d.payload m (l.wire inner ++ tail) = .ok inner := by
  obtain ⟨k, f, p, c⟩ := carrier_iff h.carrier
  have hlen := header_len h
  have hk : l.header.length = k := by have := c.len; omega
  have hbits : bitsOf (l.wire inner ++ tail) = encFields l.E 0 l.d.fields (l.fields inner) ++ bitsOf tail := by
    rw [bitsOf_append, wire_bits h]
  have hlast : encFields l.E k (l.d.fields.drop k) ((l.fields inner).drop k) = bitsOf inner := by
    rw [drop_of_getElem? c.get, List.drop_eq_nil_of_le (by rw [c.len]; omega), Layer.fields,
      List.drop_append_of_le_length (by omega), List.drop_eq_nil_of_le (by omega), List.nil_append]
    simp only [encFields, c.ty, bytesVal, encField, c.size, bytes_flatMap, List.append_nil]
  have hsplit : bitsOf (l.wire inner ++ tail) = encFields l.E 0 (l.d.fields.take k) ((l.fields inner).take k) ++
      (bitsOf inner ++ bitsOf tail) := by
    rw [hbits, encFields_split l.E 0 l.d.fields (l.fields inner) k, Nat.zero_add, hlast, List.append_assoc]
  have hon := lensAgree_on (bitsOf tail) h.lens
  have htake := lensAgreeOn_take hon h.typed k
  rw [Nat.zero_add, hlast] at htake
  obtain ⟨hb, hsz⟩ := before_enc hsl c.reg h.lawful (by rw [c.len]; omega) h.typed htake hsplit
  generalize encSizes l.E 0 (l.d.fields.take k) ((l.fields inner).take k) = sizes at hb hsz
  have hl := congrArg List.length hsplit
  simp only [bitsOf_length, List.length_append] at hl
  have hsl' := hsl
  unfold SliceLen at hsl'
  rw [List.length_append] at hsl'
  have hreg := regularFields_drop c.reg k
  rw [drop_of_getElem? c.get] at hreg
  simp only [regularFields, Bool.and_eq_true] at hreg
  obtain ⟨⟨⟨-, -⟩, hshape⟩, -⟩ := hreg
  rw [c.ty] at hshape
  simp only [Ty.isVec, if_true, Bool.and_eq_true, beq_iff_eq] at hshape
  have h8 : bitsSum (l.d.fields.take k) % 8 = 0 := by simpa using hshape.1
  have hdrop : bitsOf ((l.wire inner ++ tail).drop (bitsSum (l.d.fields.take k) / 8 + sizes.sum)) =
      bitsOf inner ++ bitsOf tail := by
    rw [bitsOf_drop, hsplit, show 8 * (bitsSum (List.take k l.d.fields) / 8 + sizes.sum) =
      (encFields l.E 0 (l.d.fields.take k) ((l.fields inner).take k)).length by omega, List.drop_left]
  have hdrop' : (l.wire inner ++ tail).drop (bitsSum (l.d.fields.take k) / 8 + sizes.sum) = inner ++ tail := by
    apply bitsOf_inj
    rw [hdrop, bitsOf_append]
  have hlens : (l.d.before m (l.wire inner ++ tail) k).lens = sizes.map .ok := by rw [hb]
  cases he : f.len with
  | some e =>
    have hfl : fieldLen m (l.wire inner ++ tail) (l.d.before m (l.wire inner ++ tail) k) f =
        .ok inner.length := by
      have hk2 := lensAgree_drop h.lens h.typed k
      rw [drop_of_getElem? c.get, Layer.fields,
        List.drop_append_of_le_length (by omega), List.drop_eq_nil_of_le (show l.header.length ≤ k by omega), List.nil_append] at hk2
      have hk3 := hk2.1 e he
      rw [fieldLen, he]
      dsimp only
      rw [hb, lenExpr, env_eq_get]
      rw [Nat.zero_add] at hk3
      rw [Layer.fields]
      rw [hk3]
      congr 1
      rw [c.ty, bytesVal]
      simp only [encField, c.size, bytes_flatMap, bitsOf_length]
      omega
    rw [payload_eq c.idx c.get hlens hfl (by omega), hdrop', List.take_left]
  | none =>
    rcases ht with ht | ht
    · have := closed_fields ht f (List.mem_of_getElem? c.get) (by rw [c.ty]; rfl)
      rw [he] at this; simp at this
    · subst ht
      rw [payload_eq c.idx c.get hlens (len := (l.wire inner ++ []).length)
        (by rw [fieldLen, he]) (by simp at *; omega), hdrop', List.append_nil, List.append_nil,
        List.take_of_length_le]
      have := congrArg List.length hdrop'
      simp at this ⊢; omega

end Fits

theorem encFields_concat (E : Nat → Wire) (i : Nat) {fs : List Field} {vs : List Val} {f : Field}
    (v : Val) (hl : vs.length + 1 = fs.length) (hf : fs[vs.length]? = some f) :
    encFields E i fs (vs ++ [v]) = encFields E i (fs.take vs.length) vs ++ encField (E (i + vs.length)) f.ty v := by
  rw [encFields_split E i fs (vs ++ [v]) vs.length, List.take_left, List.drop_left,
    drop_of_getElem? hf, List.drop_eq_nil_of_le (by omega)]
  simp [encFields]

theorem typedFields_concat {E : Nat → Wire} {i : Nat} {fs : List Field} {vs : List Val} {f : Field}
    {v v' : Val} (hf : fs[vs.length]? = some f) (h : typedFields E i fs (vs ++ [v]))
    (h' : typed (E (i + vs.length)) f.ty v') : typedFields E i fs (vs ++ [v']) := by
  induction vs generalizing i fs with
  | nil =>
    cases fs with
    | nil => simp at hf
    | cons g fs =>
      simp only [List.nil_append, typedFields] at h ⊢
      simp only [List.length_nil, List.getElem?_cons_zero, Option.some.injEq] at hf
      subst hf
      exact ⟨by simpa using h', h.2⟩
  | cons w vs ih =>
    cases fs with
    | nil => simp at hf
    | cons g fs =>
      simp only [List.cons_append, typedFields] at h ⊢
      simp only [List.length_cons, List.getElem?_cons_succ] at hf
      refine ⟨h.1, ih hf h.2 ?_⟩
      rwa [show i + 1 + vs.length = i + (w :: vs).length by simp; omega]

theorem lensAgree_concat {m : Mode} {E : Nat → Wire} {i : Nat} {seen : List Val} {fs : List Field}
    {vs : List Val} {f : Field} {v v' : Val} (hf : fs[vs.length]? = some f) (hl : vs.length + 1 = fs.length)
    (hlen : f.len = none) (h : lensAgree m E i seen fs (vs ++ [v])) :
    lensAgree m E i seen fs (vs ++ [v']) := by
  induction vs generalizing i seen fs with
  | nil =>
    cases fs with
    | nil => simp at hf
    | cons g fs =>
      simp only [List.nil_append, lensAgree] at h ⊢
      simp only [List.length_nil, List.getElem?_cons_zero, Option.some.injEq] at hf
      subst hf
      refine ⟨fun e he => (by rw [hlen] at he; cases he), ?_⟩
      have : fs = [] := by simpa using hl
      subst this
      simp
  | cons w vs ih =>
    cases fs with
    | nil => simp at hf
    | cons g fs =>
      simp only [List.cons_append, lensAgree] at h ⊢
      simp only [List.length_cons, List.getElem?_cons_succ] at hf
      exact ⟨h.1, ih hf (by simpa using hl) h.2⟩

/-- A layer without a length takes what follows as part of its payload. -/
theorem wire_open {m : Mode} {l : Layer} {inner : Buf} (h : l.Fits m inner) (hc : closed l.d = false)
    (tail : Buf) : l.wire inner ++ tail = l.wire (inner ++ tail) ∧ l.Fits m (inner ++ tail) := by
  obtain ⟨k, f, p, c⟩ := carrier_iff h.carrier
  have hlen := header_len h
  have hk : l.header.length = k := by have := c.len; omega
  have hf : l.d.fields[l.header.length]? = some f := by rw [hk]; exact c.get
  have hnone : f.len = none := by
    cases he : f.len with
    | none => rfl
    | some e =>
      exfalso
      have : closed l.d = true := by
        rw [closed, List.all_eq_true]
        intro g hg
        by_cases hv : g.ty.isVec = true
        · obtain ⟨i, hi⟩ := List.getElem?_of_mem hg
          have hil := (List.getElem?_eq_some_iff.mp hi).1
          by_cases hik : i = k
          · subst hik
            rw [c.get] at hi
            cases hi
            simp [he]
          · have := closedFields_take c.reg (show k < l.d.fields.length by rw [c.len]; omega) g
              (List.mem_of_getElem? (i := i) (by rw [List.getElem?_take_of_lt (by rw [c.len] at hil; omega), hi])) hv
            simp [this]
        · simp [hv]
      rw [this] at hc; cases hc
  have hfit : l.Fits m (inner ++ tail) :=
    ⟨h.carrier, h.lawful, typedFields_concat hf h.typed (by rw [c.ty, bytesVal]; simp [typed]),
      lensAgree_concat hf hlen hnone h.lens⟩
  refine ⟨?_, hfit⟩
  apply bitsOf_inj
  rw [bitsOf_append, wire_bits h, wire_bits hfit, Layer.fields, Layer.fields,
    encFields_concat _ _ _ hlen hf, encFields_concat _ _ _ hlen hf, List.append_assoc, c.ty, bytesVal, bytesVal]
  simp only [encField, c.size, bytes_flatMap, bitsOf_append]

theorem wire_length_open {m : Mode} {l : Layer} {inner : Buf} (h : l.Fits m inner) :
    inner.length ≤ (l.wire inner).length := by
  obtain ⟨k, f, p, c⟩ := carrier_iff h.carrier
  have hlen := header_len h
  have hk : l.header.length = k := by have := c.len; omega
  have hf : l.d.fields[l.header.length]? = some f := by rw [hk]; exact c.get
  have := congrArg List.length (wire_bits h)
  rw [Layer.fields, encFields_concat _ _ _ hlen hf, c.ty, bytesVal] at this
  simp only [encField, c.size, bytes_flatMap, List.length_append, bitsOf_length] at this
  omega

theorem writeStack_wire {m : Mode} (ls : List Layer) (data : Buf) (h : StackFits m ls data)
    (hsl : SliceLen (stackWire ls data).length) : writeStack m ls data = .ok (stackWire ls data) := by
  induction ls with
  | nil => rfl
  | cons l ls ih =>
    have := wire_length_open h.1
    have hsl' : SliceLen (stackWire ls data).length := by
      unfold SliceLen at *
      simp only [stackWire] at hsl
      omega
    rw [writeStack, ih h.2 hsl', ok_bind]
    exact wire_populate h.1 hsl

theorem readStack_wire {m : Mode} (ls : List Layer) (data pad : Buf) (h : StackFits m ls data)
    (hsl : SliceLen (stackWire ls data ++ pad).length) :
    readStack m (ls.map (·.d)) (stackWire ls data ++ pad) =
      .ok (ls.map (·.read), if ls.any (fun l => closed l.d) then data else data ++ pad) := by
  have step : ∀ (l : Layer) (inner pad : Buf) ds r, l.Fits m inner → SliceLen (l.wire inner ++ pad).length →
      (closed l.d = true ∨ pad = []) → readStack m ds inner = .ok r →
      readStack m (l.d :: ds) (l.wire inner ++ pad) = .ok (l.read :: r.1, r.2) := by
    intro l inner pad ds r hf hsl hc hr
    rw [readStack, wire_new hf]
    dsimp only
    rw [wire_header hf hsl hc, ok_bind, wire_payload hf hsl hc, ok_bind, hr, ok_bind]
  induction ls generalizing pad with
  | nil => simp [readStack, stackWire]
  | cons l ls ih =>
    have hle := wire_length_open h.1
    unfold SliceLen at hsl
    rw [stackWire, List.length_append] at hsl
    rw [List.map_cons, List.map_cons, stackWire]
    cases hc : closed l.d with
    | true =>
      have := ih [] h.2 (by unfold SliceLen; simp; omega)
      simp only [List.append_nil, ite_self] at this
      rw [step l _ pad _ _ h.1 (by unfold SliceLen; simp; omega) (.inl hc) this]
      simp [hc]
    | false =>
      obtain ⟨h1, h2⟩ := wire_open h.1 hc pad
      have hlen := congrArg List.length h1
      rw [List.length_append] at hlen
      have := ih pad h.2 (by unfold SliceLen; simp; omega)
      rw [h1]
      have h3 := step l _ [] _ _ h2 (by unfold SliceLen; rw [List.append_nil]; omega) (.inr rfl) this
      rw [List.append_nil] at h3
      rw [h3]
      simp [hc]

end Verif
