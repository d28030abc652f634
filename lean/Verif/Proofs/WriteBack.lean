import Verif.Proofs.Trailing
import Verif.Proofs.Options

/-! Writing back into a packet what was read from it. -/

namespace Verif
open Spec

/-! ## One field -/

theorem setPrim_getPrim {p : Prim} (hp : p.endian = .big) {s : Nat} {buf : Buf} {co v : Nat}
    (h : getPrim p s buf co = .ok v) : setPrim p s buf co v = .ok buf := by
  obtain ⟨n, e⟩ := p
  dsimp only at hp
  subst hp
  obtain ⟨hf, hb, rfl⟩ := getPrim_inv h
  have hnb := numBytes_bounds hf
  obtain ⟨new, h1, h2, h3⟩ := setPrim_big hf buf co (ofBits (bitSlice (bitsOf buf) (8 * co + s) n))
    (by omega)
  have hl : (bitSlice (bitsOf buf) (8 * co + s) n).length = n := by
    rw [bitSlice, List.length_take, List.length_drop, bitsOf_length]; omega
  have ht := toBits_ofBits (bitSlice (bitsOf buf) (8 * co + s) n)
  rw [hl] at ht
  rw [h1]
  congr 1
  apply bitsOf_inj
  have hd := List.take_append_drop n ((bitsOf buf).drop (8 * co + s))
  rw [List.drop_drop] at hd
  rw [h3, ht, bitSlice, List.append_assoc, hd, List.take_append_drop]

theorem setArgs_getArgs {m : Mode} {L : Buf → List (Res Nat)} {buf : Buf} (args : List Prim)
    (hbig : args.all (·.endian == .big) = true) (bit : Nat) {vs : List Nat}
    (h : getArgs m (L buf) buf bit args = .ok vs) :
    vs.length = args.length ∧ setArgs m L bit args vs buf = .ok buf := by
  induction args generalizing bit vs with
  | nil => rw [getArgs] at h; cases h; exact ⟨rfl, by rw [setArgs.eq_def]⟩
  | cons p ps ih =>
    simp only [List.all_cons, Bool.and_eq_true, beq_iff_eq] at hbig
    rw [getArgs, bind_eq_ok] at h
    obtain ⟨co, hco, h⟩ := h
    rw [bind_eq_ok] at h
    obtain ⟨v, hv, h⟩ := h
    rw [bind_eq_ok] at h
    obtain ⟨vs', hvs, h⟩ := h
    cases h
    obtain ⟨h1, h2⟩ := ih hbig.2 _ hvs
    refine ⟨by simp [h1], ?_⟩
    rw [setArgs, hco, ok_bind, setPrim_getPrim hbig.1 hv, ok_bind, h2]

theorem copyInto_same {buf x tail : Buf} {a b : Nat} (h : slice buf a b = .ok x) :
    copyInto (buf ++ tail) a x = .ok (buf ++ tail) := by
  rw [slice] at h
  split at h
  · rename_i hle
    cases h
    have hl : ((buf.take b).drop a).length = b - a := by
      rw [List.length_drop, List.length_take]; omega
    rw [copyInto, hl, if_pos (by rw [List.length_append]; omega)]
    congr 1
    rw [← List.take_append_of_le_length (l₂ := tail) hle.2, List.append_assoc,
      show a + (b - a) = b by omega]
    have : ((buf ++ tail).take b).drop a ++ (buf ++ tail).drop b = (buf ++ tail).drop a := by
      rw [List.drop_take]
      have := List.take_append_drop (b - a) ((buf ++ tail).drop a)
      rwa [List.drop_drop, show a + (b - a) = b by omega] at this
    rw [this, List.take_append_drop]
  · simp at h

/-- What a successful `get_<field>_raw()` says about the offsets. -/
theorem varSlice_inv {m : Mode} {buf x : Buf} {co len : Res Nat} (h : varSlice m buf co len = .ok x) :
    ∃ a l b, co = .ok a ∧ len = .ok l ∧ uadd m a l = .ok b ∧ b ≤ a + l ∧
      slice buf a (min b buf.length) = .ok x ∧ a ≤ buf.length ∧ x.length ≤ l ∧
      x = (buf.drop a).take (min b buf.length - a) := by
  rw [varSlice, bind_eq_ok] at h
  obtain ⟨a, ha, h⟩ := h
  rw [bind_eq_ok] at h
  obtain ⟨l, hl, h⟩ := h
  rw [bind_eq_ok] at h
  obtain ⟨b, hb, h⟩ := h
  have hble : b ≤ a + l := by
    unfold uadd at hb
    split at hb
    · cases hb; exact Nat.le_refl _
    · cases m with
      | debug => simp at hb
      | release => cases hb; exact Nat.mod_le _ _
  refine ⟨a, l, b, ha, hl, hb, hble, h, ?_⟩
  rw [slice] at h
  split at h
  · rename_i hle
    cases h
    refine ⟨by omega, ?_, by rw [List.drop_take]⟩
    rw [List.length_drop, List.length_take]; omega
  · simp at h

/-- `set_<field>(get_<field>())` changes nothing, for integers and for vectors of integers. -/
theorem set_get {d : Decl} {m : Mode} {buf : Buf} {k : Nat} {f : Field} (hf : d.fields[k]? = some f)
    (hp : plainTy f.ty = true) (hin : ∀ c, f.ty ≠ .vecPkt c) {v : Val} (h : d.get m buf k = .ok v) :
    d.set m buf k v = .ok buf := by
  cases hty : f.ty with
  | prim p =>
    simp only [Decl.get, hf, hty, getField] at h
    rw [hty] at hp
    simp only [plainTy, beq_iff_eq] at hp
    rw [bind_eq_ok] at h
    obtain ⟨co, hco, h⟩ := h
    obtain ⟨n, hn, rfl⟩ := map_eq_ok h
    simp only [Decl.set, hf, hty]
    rw [hco, ok_bind, setPrim_getPrim hp hn]
  | misc args =>
    simp only [Decl.get, hf, hty, getField] at h
    rw [hty] at hp
    simp only [plainTy] at hp
    obtain ⟨vs, hvs, rfl⟩ := map_eq_ok h
    obtain ⟨h1, h2⟩ := setArgs_getArgs (L := fun b => (d.before m b k).lens) args hp _ hvs
    simp only [Decl.set, hf, hty]
    rw [if_pos h1, h2]
  | vecPrim p =>
    rw [hty] at hp
    simp only [plainTy, beq_iff_eq] at hp
    obtain ⟨n, e⟩ := p
    dsimp only at hp
    subst hp
    rw [bytes_get hf hty] at h
    cases hr : d.getRaw m buf k with
    | error e => rw [hr] at h; cases h
    | ok raw =>
      rw [hr] at h
      cases h
      simp only [Decl.getRaw, hf] at hr
      obtain ⟨a, l, b, h1, h2, h3, -, h4, -, h5, -⟩ := varSlice_inv hr
      have hc := copyInto_same (tail := []) h4
      rw [List.append_nil] at hc
      simp only [Decl.set, hf, hty, h1, ok_bind, map_ofNat_toNat, ↓reduceIte, List.length_map]
      cases he : f.len with
      | none => simpa using hc
      | some e =>
        rw [fieldLen, he] at h2
        dsimp only at h2
        simp only [h2, ok_bind, if_pos h5]
        simpa using hc
  | vecPkt c => exact absurd hty (hin c)

/-! ## Whole packets -/

theorem mapM_id_get {l : List (Res Val)} {vs : List Val} (h : l.mapM id = .ok vs) :
    l = vs.map .ok := by
  induction l generalizing vs with
  | nil => cases h; rfl
  | cons a l ih =>
    rw [List.mapM_cons, bind_eq_ok] at h
    obtain ⟨v, hv, h⟩ := h
    rw [bind_eq_ok] at h
    obtain ⟨vs', hvs, h⟩ := h
    cases h
    rw [ih hvs, List.map_cons]
    exact congrArg (· :: _) hv

theorem fromPacket_inv {d : Decl} {m : Mode} {buf : Buf} {v : Val} (h : d.fromPacket m buf = .ok v) :
    ∃ vs : List Val, v = .list vs ∧ vs.length = d.fields.length ∧
      ∀ k (hk : k < vs.length), d.get m buf k = .ok vs[k] := by
  rw [fromPacket_mapM] at h
  obtain ⟨vs, hvs, rfl⟩ := map_eq_ok h
  have := mapM_id_get hvs
  have hl : vs.length = d.fields.length := by
    have := congrArg List.length this
    simpa using this.symm
  refine ⟨vs, rfl, hl, fun k hk => ?_⟩
  have := congrArg (·[k]?) this
  simp only [List.getElem?_map, List.getElem?_range (show k < d.fields.length by omega),
    List.getElem?_eq_getElem hk, Option.map_some, Option.some.injEq] at this
  exact this

/-- `populate` with setters that change nothing, up to the first one that fails. -/
theorem populateFrom_steps {d : Decl} {m : Mode} {buf : Buf} (vs : List Val) (k j : Nat)
    (h : ∀ i (_ : i < vs.length), i < j → d.set m buf (k + i) vs[i] = .ok buf) :
    (vs.length ≤ j → d.populateFrom m k vs buf = .ok buf) ∧
    ∀ (hj : j < vs.length) (e : Fail), d.set m buf (k + j) vs[j] = .error e →
      d.populateFrom m k vs buf = .error e := by
  induction vs generalizing k j with
  | nil => exact ⟨fun _ => rfl, fun hj => by simp at hj⟩
  | cons v vs ih =>
    cases j with
    | zero =>
      refine ⟨fun hj => by simp at hj, fun _ e he => ?_⟩
      rw [Decl.populateFrom]
      simp only [Nat.add_zero, List.getElem_cons_zero] at he
      rw [he]; rfl
    | succ j =>
      have h0 := h 0 (by simp) (by omega)
      simp only [Nat.add_zero, List.getElem_cons_zero] at h0
      obtain ⟨i1, i2⟩ := ih (k + 1) j fun i hi hij => by
        have := h (i + 1) (by simp; omega) (by omega)
        simpa [show k + (i + 1) = k + 1 + i by omega] using this
      refine ⟨fun hj => ?_, fun hj e he => ?_⟩
      · rw [Decl.populateFrom, h0, ok_bind, i1 (by simpa using hj)]
      · rw [Decl.populateFrom, h0, ok_bind]
        apply i2 (by simpa using hj)
        simpa [show k + (j + 1) = k + 1 + j by omega] using he

theorem populate_unchanged {d : Decl} {m : Mode} {buf : Buf} {vs : List Val}
    (hl : vs.length = d.fields.length)
    (h : ∀ k (_ : k < vs.length), d.set m buf k vs[k] = .ok buf) :
    d.populate m buf (.list vs) = .ok buf := by
  rw [Decl.populate, if_pos hl]
  exact (populateFrom_steps vs 0 vs.length fun i hi _ => by rw [Nat.zero_add]; exact h i hi).1
    (Nat.le_refl _)

/-- A declaration of integers and byte vectors only. -/
def flatDecl (d : Decl) : Prop := ∀ f ∈ d.fields, plainTy f.ty = true ∧ ∀ c, f.ty ≠ .vecPkt c

theorem populate_fromPacket {d : Decl} (hd : flatDecl d) {m : Mode} {buf : Buf} {v : Val}
    (h : d.fromPacket m buf = .ok v) : d.populate m buf v = .ok buf := by
  obtain ⟨vs, rfl, hl, hg⟩ := fromPacket_inv h
  refine populate_unchanged hl fun k hk => ?_
  have hf : d.fields[k]? = some d.fields[k] := List.getElem?_eq_getElem (by omega)
  obtain ⟨h1, h2⟩ := hd _ (List.mem_of_getElem? hf)
  exact set_get hf h1 h2 (hg k hk)

/-! ## Packets in a list -/

/-- What was read from a packet at the end of a shorter buffer can be written to the longer one, even
when the last field was cut. -/
theorem populate_fromPacket_tail {d : Decl} (hd : flatDecl d) (hreg : regular d = true)
    (hclosed : closed d = true) (hloc : localLens d.fields) {m : Mode} (hnw : NoWrap m d) {k : Nat}
    {f : Field} (hlast : k + 1 = d.fields.length) (hf : d.fields[k]? = some f)
    (hvec : f.ty.isVec = true) {p tail : Buf} (hsl : SliceLen (p ++ tail).length) {v : Val}
    (h : d.fromPacket m p = .ok v) :
    d.populate m (p ++ tail) v = .ok (p ++ tail) ∧ d.packetSize m (p ++ tail) = d.packetSize m p := by
  obtain ⟨vs, rfl, hl, hg⟩ := fromPacket_inv h
  have hslp : SliceLen p.length := by
    unfold SliceLen at *
    rw [List.length_append] at hsl; omega
  have hk : k < d.fields.length := by omega
  have hb : bitsSum (d.fields.take k) % 8 = 0 := by
    have := regularFields_drop hreg k
    obtain ⟨hk', rfl⟩ := List.getElem?_eq_some_iff.mp hf
    rw [List.drop_eq_getElem_cons hk', regularFields, if_pos hvec] at this
    simp only [Nat.zero_add, Bool.and_eq_true, beq_iff_eq] at this
    exact this.1.2.1
  obtain ⟨hplain, hin⟩ := hd f (List.mem_of_getElem? hf)
  obtain ⟨e, he⟩ := Option.isSome_iff_exists.mp
    (closed_fields hclosed f (List.mem_of_getElem? hf) hvec)
  obtain ⟨en, hty⟩ : ∃ en, f.ty = .vecPrim ⟨8, en⟩ := by
    cases hty : f.ty with
    | prim p => rw [hty] at hvec; cases hvec
    | misc p => rw [hty] at hvec; cases hvec
    | vecPkt c => exact absurd hty (hin c)
    | vecPrim p =>
      rw [hty] at hplain
      simp only [plainTy, beq_iff_eq] at hplain
      obtain ⟨n, e⟩ := p
      dsimp only at hplain
      subst hplain
      exact ⟨e, rfl⟩
  have hgk := hg k (by omega)
  rw [bytes_get hf hty] at hgk
  cases hr : d.getRaw m p k with
  | error e => rw [hr] at hgk; cases hgk
  | ok raw =>
    rw [hr] at hgk
    have hvk : vs[k]'(by omega) = .nums (raw.map (·.toNat)) := by
      have := Except.ok.inj hgk
      exact this.symm
    simp only [Decl.getRaw, hf] at hr
    obtain ⟨a, l, b, h1, h2, h3, -, h4, h6, h5, -⟩ := varSlice_inv hr
    obtain ⟨sizes, hs⟩ := foldlM_uadd_ok h1
    rw [hs, before_bit] at h1
    have ha := curOff_inv (hnw.lens.imp_right fun hh => by
      have := hh p k sizes hs
      have : bitsSum (d.fields.take k) ≤ d.bits := bitsSum_take_le _ _
      omega) h1
    have hsame : d.before m p k = d.before m (p ++ tail) k :=
      before_same hreg hloc hslp (closedFields_take hreg hk) hs
        ((sameBits_of_take (n := p.length) (Nat.le_refl _) (by simp) (by simp)).mono (by omega))
    have hlen : lenExpr m (p ++ tail) (d.before m (p ++ tail) k) e = lenExpr m p (d.before m p k) e := by
      rw [← hsame, lenExpr, lenExpr]
      exact hloc f (List.mem_of_getElem? hf) e he _ _ _ _
    rw [fieldLen, he] at h2
    dsimp only at h2
    constructor
    · refine populate_unchanged hl fun i hi => ?_
      have hfi : d.fields[i]? = some d.fields[i] := List.getElem?_eq_getElem (by omega)
      by_cases hik : i < k
      · obtain ⟨g1, g2⟩ := hd _ (List.mem_of_getElem? hfi)
        refine set_get hfi g1 g2 ?_
        rw [← before_get (k := k) hik (by omega), ← hsame, before_get hik (by omega), hg i hi]
      · have : i = k := by omega
        subst this
        rw [hvk]
        simp only [Decl.set, hf, hty, he]
        rw [hlen, ← hsame, hs, before_bit, h1]
        simp only [ok_bind, h2, map_ofNat_toNat, ↓reduceIte, List.length_map, if_pos h5]
        simpa using copyInto_same h4
    · rw [Decl.packetSize, Decl.packetSize, final_eq_before, final_eq_before, ← hlast,
        before_succ hf, before_succ hf, St.step, St.step, ← hsame]
      simp only [he]
      rw [hsame] at hlen
      rw [hsame, hlen]

/-- What `set_<field>` needs from the packet type of a `Vec<packet>` field to write back what
`get_<field>` returned. -/
structure Rewrites (m : Mode) (c : Codec) : Prop where
  back : ∀ p tail v, SliceLen (p ++ tail).length → c.fromPacket m p = .ok v →
    c.populate m (p ++ tail) v = .ok (p ++ tail) ∧ c.packetSize m (p ++ tail) = c.packetSize m p
  small : ∀ p s, c.packetSize m p = .ok s → s < 2 ^ 63

/-- Writing back a list of packets that was read from `area`: nothing changes, and the call returns
unless a packet ends more than `slack` bytes after the area. -/
theorem setPackets_collect {m : Mode} {c : Codec} (hc : Rewrites m c) (slack : Nat) (fuel : Nat)
    (pre area tail : Buf) (hsl : SliceLen (pre ++ area ++ tail).length) (hfuel : area.length ≤ fuel)
    {vs : List Val} (h : c.collect m fuel area = .ok vs) :
    ∃ ps, c.items m fuel area = .ok ps ∧
      ((∀ p ∈ ps, ∀ s, c.packetSize m p = .ok s → s ≤ p.length + slack) →
        setPackets m c (pre.length + area.length + slack) pre.length vs (pre ++ area ++ tail) =
          .ok (pre ++ area ++ tail)) ∧
      ((∃ p ∈ ps, ∃ s, c.packetSize m p = .ok s ∧ p.length + slack < s) →
        setPackets m c (pre.length + area.length + slack) pre.length vs (pre ++ area ++ tail) =
          panic) := by
  induction fuel generalizing pre area vs with
  | zero =>
    cases h
    exact ⟨[], rfl, fun _ => rfl, fun ⟨p, hp, _⟩ => by cases hp⟩
  | succ fuel ih =>
    simp only [Codec.collect] at h
    simp only [Codec.items]
    rw [next_eq] at h ⊢
    split at h
    · rename_i hmin
      rw [if_pos hmin]
      cases hs : c.packetSize m area with
      | error e => rw [hs] at h; cases h
      | ok s =>
        rw [hs] at h
        simp only [ok_map, ok_bind] at h ⊢
        cases hv : c.fromPacket m area with
        | error e => rw [hv] at h; cases h
        | ok v =>
          rw [hv] at h
          simp only [ok_bind] at h
          split at h
          · rename_i hlt
            rw [bind_eq_ok] at h
            obtain ⟨vs', hvs, h⟩ := h
            cases h
            rw [if_pos hlt]
            have hspos : 0 < s := by rw [List.length_drop] at hlt; omega
            have hsm := hc.small _ _ hs
            have hslc := hsl
            unfold SliceLen at hslc
            simp only [List.length_append] at hslc
            obtain ⟨b1, b2⟩ := hc.back area tail v (by
              unfold SliceLen; rw [List.length_append]; omega) hv
            rw [hs] at b2
            have hstep : setPackets m c (pre.length + area.length + slack) pre.length (v :: vs')
                (pre ++ area ++ tail) =
                if pre.length + s ≤ pre.length + area.length + slack then
                  setPackets m c (pre.length + area.length + slack) (pre.length + s) vs'
                    (pre ++ area ++ tail)
                else panic := by
              rw [setPackets, sliceFrom, if_pos (by simp only [List.length_append]; omega), ok_bind,
                List.append_assoc, List.drop_left, if_pos (by rw [List.length_append]; omega), b1,
                ok_bind]
              dsimp only
              rw [List.take_left, b2, ok_bind, uadd_ok (by unfold usizeCard; omega), ok_bind]
            rw [hstep]
            by_cases hle : s ≤ area.length
            · obtain ⟨ps, i1, i2, i3⟩ := ih (pre ++ area.take s) (area.drop s)
                (by rw [List.append_assoc pre, List.take_append_drop]; exact hsl)
                (by rw [List.length_drop]; omega) hvs
              rw [i1]
              rw [List.append_assoc pre, List.take_append_drop,
                show (pre ++ area.take s).length = pre.length + s by
                  rw [List.length_append, List.length_take]; omega,
                show pre.length + s + (area.drop s).length + slack = pre.length + area.length + slack by
                  rw [List.length_drop]; omega] at i2 i3
              rw [if_pos (by omega)]
              refine ⟨area :: ps, rfl, fun hp => i2 fun p hpm => hp p (by simp [hpm]), ?_⟩
              rintro ⟨p, hpm, t, ht, hgt⟩
              rcases List.mem_cons.mp hpm with rfl | hpm
              · rw [hs] at ht; cases ht; omega
              · exact i3 ⟨p, hpm, t, ht, hgt⟩
            · have hnil : area.drop s = [] := List.drop_eq_nil_of_le (by omega)
              rw [hnil] at hvs ⊢
              have hn : ∀ n, c.collect m n [] = .ok [] ∧ c.items m n [] = .ok [] := by
                intro n
                cases n with
                | zero => exact ⟨rfl, rfl⟩
                | succ n =>
                  simp only [Codec.collect, Codec.items, next_eq]
                  exact ⟨rfl, rfl⟩
              rw [(hn fuel).1] at hvs
              cases hvs
              rw [(hn fuel).2]
              refine ⟨[area], rfl, fun hp => ?_, ?_⟩
              · rw [if_pos (by have := hp area (by simp) s hs; omega)]; rfl
              · rintro ⟨p, hpm, t, ht, hgt⟩
                rw [List.mem_singleton] at hpm
                subst hpm
                rw [hs] at ht
                cases ht
                rw [if_neg (by omega)]
          · cases h
    · rename_i hmin
      rw [if_neg hmin]
      cases h
      exact ⟨[], rfl, fun _ => rfl, fun ⟨p, hp, _⟩ => by cases hp⟩

/-- `set_<field>(get_<field>())` for a vector of packets. `slack` is how far the end the setter checks
lies behind the end of the bytes the getter reads. -/
theorem set_get_packets {d : Decl} {m : Mode} {buf : Buf} {k : Nat} {f : Field}
    (hf : d.fields[k]? = some f) {c : Codec} (hty : f.ty = .vecPkt c) (hc : Rewrites m c)
    (hsl : SliceLen buf.length) {v : Val} (h : d.get m buf k = .ok v) {raw : Buf}
    (hraw : d.getRaw m buf k = .ok raw) {co len slack : Nat}
    (hco : curOff m (d.before m buf k).bit (d.before m buf k).lens = .ok co)
    (hlen : fieldLen m buf (d.before m buf k) f = .ok len) (hsum : co + len < 2 ^ 64)
    (hslack : co + len = co + raw.length + slack) :
    ∃ ps, c.items m raw.length raw = .ok ps ∧
      ((∀ p ∈ ps, ∀ s, c.packetSize m p = .ok s → s ≤ p.length + slack) →
        d.set m buf k v = .ok buf) ∧
      ((∃ p ∈ ps, ∃ s, c.packetSize m p = .ok s ∧ p.length + slack < s) →
        d.set m buf k v = panic) := by
  rw [pkt_get hf hty, hraw, ok_bind] at h
  obtain ⟨vs, hvs, rfl⟩ := map_eq_ok h
  have hr := hraw
  simp only [Decl.getRaw, hf] at hr
  obtain ⟨a, l, b, h1, h2, h3, -, h4, h6, h5, h7⟩ := varSlice_inv hr
  rw [hco] at h1
  cases h1
  have hset : d.set m buf k (.list vs) = setPackets m c (co + len) co vs buf := by
    simp only [Decl.set, hf, hty, hco, hlen, ok_bind]
    rw [uadd_ok (by unfold usizeCard; omega), ok_bind]
  have hsplit : buf = buf.take co ++ raw ++ buf.drop (co + raw.length) := by
    have hl : raw = (buf.drop co).take raw.length := by
      rw [h7, List.length_take, List.length_drop, List.take_eq_take_iff, List.length_drop]; omega
    have := List.take_append_drop raw.length (buf.drop co)
    rw [← hl, List.drop_drop] at this
    rw [List.append_assoc, this, List.take_append_drop]
  have hcol : (buf.take co).length = co := by rw [List.length_take]; omega
  have := setPackets_collect hc slack raw.length (buf.take co) raw (buf.drop (co + raw.length))
    (by rw [← hsplit]; exact hsl) (Nat.le_refl _) hvs
  rw [← hsplit, hcol, ← hslack] at this
  rw [hset]
  exact this

/-! ## The packet types of the crate -/

theorem regular_plain {bit : Nat} {fs : List Field} (h : regularFields bit fs = true) :
    ∀ f ∈ fs, plainTy f.ty = true := by
  induction fs generalizing bit with
  | nil => intro f hf; cases hf
  | cons g fs ih =>
    simp only [regularFields, Bool.and_eq_true] at h
    intro f hf
    rcases List.mem_cons.mp hf with rfl | hf
    · exact h.1.1.1
    · exact ih h.2 f hf

theorem Inner.rewrites {d : Decl} (h : Inner d) (m : Mode) : Rewrites m d.codec where
  back := by
    intro p tail v hsl hv
    have hlast := h.last
    rw [List.getLast?_eq_getElem?] at hlast
    cases hf : d.fields[d.fields.length - 1]? with
    | none => rw [hf] at hlast; cases hlast
    | some f =>
      rw [hf] at hlast
      simp only [Option.map_some, Option.some.injEq] at hlast
      have hk := (List.getElem?_eq_some_iff.mp hf).1
      exact populate_fromPacket_tail
        (fun g hg => ⟨regular_plain h.reg g hg, h.flat g hg⟩) h.reg h.closed h.loc (h.noWrap m)
        (by omega) hf hlast hsl hv
  small := by
    intro p s hs
    obtain ⟨sizes, h1, rfl⟩ := packetSize_sum (h.noWrap m) hs
    rw [final_eq_before] at h1
    exact lens_small m h.small h.bound h.count p _ sizes h1

/-- `Vec<packet>`. -/
def Ty.isPkts : Ty → Bool
  | .vecPkt _ => true
  | _ => false

/-- A list of packets ends where a later vector starts, or is the last field and has no `#[length]`. -/
def listShape (d : Decl) : Bool :=
  (List.range d.fields.length).all fun k =>
    match d.fields[k]?, d.fields[k + 1]? with
    | some f, some g => !f.ty.isPkts || (f.len.isSome && g.ty.isVec)
    | some f, none => !f.ty.isPkts || f.len.isNone
    | _, _ => true

theorem listShape_cases {d : Decl} (h : listShape d = true) {k : Nat} {f : Field}
    (hf : d.fields[k]? = some f) {c : Codec} (hty : f.ty = .vecPkt c) :
    (∃ e g, f.len = some e ∧ d.fields[k + 1]? = some g ∧ g.ty.isVec = true) ∨
      (f.len = none ∧ k + 1 = d.fields.length) := by
  have hk := (List.getElem?_eq_some_iff.mp hf).1
  have := List.all_eq_true.mp h k (by simpa using hk)
  rw [hf] at this
  have hp : f.ty.isPkts = true := by rw [hty]; rfl
  cases hg : d.fields[k + 1]? with
  | none =>
    rw [hg] at this
    simp only [hp, Bool.not_true, Bool.false_or] at this
    refine .inr ⟨by simpa using this, ?_⟩
    have := List.getElem?_eq_none_iff.mp hg
    omega
  | some g =>
    rw [hg] at this
    simp only [hp, Bool.not_true, Bool.false_or, Bool.and_eq_true] at this
    obtain ⟨e, he⟩ := Option.isSome_iff_exists.mp this.1
    exact .inl ⟨e, g, he, rfl, this.2⟩

/-- A getter of a vector field that returned. -/
theorem getRaw_of_get {d : Decl} {m : Mode} {buf : Buf} {k : Nat} {f : Field}
    (hf : d.fields[k]? = some f) (hvec : f.ty.isVec = true) {v : Val} (h : d.get m buf k = .ok v) :
    ∃ raw, d.getRaw m buf k = .ok raw := by
  simp only [Decl.get, hf] at h
  simp only [Decl.getRaw, hf]
  cases hty : f.ty with
  | prim p => rw [hty] at hvec; cases hvec
  | misc p => rw [hty] at hvec; cases hvec
  | vecPrim p =>
    rw [hty, getField, bind_eq_ok] at h
    obtain ⟨raw, hr, -⟩ := h
    exact ⟨raw, hr⟩
  | vecPkt c =>
    rw [hty, getField, bind_eq_ok] at h
    obtain ⟨raw, hr, -⟩ := h
    exact ⟨raw, hr⟩

/-- The end that the setter of a list checks, against the end of the bytes that the getter reads. -/
theorem list_slack {d : Decl} (hd : GoodDecl d) (hshape : listShape d = true) {m : Mode} {buf : Buf}
    (hsl : SliceLen buf.length) (hall : ∀ k, k < d.fields.length → ∃ v, d.get m buf k = .ok v)
    {k : Nat} {f : Field} (hf : d.fields[k]? = some f) {c : Codec} (hty : f.ty = .vecPkt c) :
    ∃ raw co len, d.getRaw m buf k = .ok raw ∧
      curOff m (d.before m buf k).bit (d.before m buf k).lens = .ok co ∧
      fieldLen m buf (d.before m buf k) f = .ok len ∧ co + len < 2 ^ 64 ∧
      co + len = co + raw.length + (if f.len.isSome then 0 else buf.length - raw.length) := by
  have hk := (List.getElem?_eq_some_iff.mp hf).1
  obtain ⟨v, hv⟩ := hall k hk
  obtain ⟨raw, hr⟩ := getRaw_of_get hf (by rw [hty]; rfl) hv
  have hr' := hr
  simp only [Decl.getRaw, hf] at hr'
  obtain ⟨a, l, b, h1, h2, h3, h3', h4, h6, h5, h7⟩ := varSlice_inv hr'
  unfold SliceLen at hsl
  obtain ⟨sizes, hs⟩ := foldlM_uadd_ok h1
  rcases listShape_cases hshape hf hty with ⟨e, g, he, hg, hgv⟩ | ⟨hnone, -⟩
  · have hk1 := (List.getElem?_eq_some_iff.mp hg).1
    obtain ⟨w, hw⟩ := hall (k + 1) hk1
    obtain ⟨raw2, hr2⟩ := getRaw_of_get hg hgv hw
    simp only [Decl.getRaw, hg] at hr2
    obtain ⟨a2, -, -, g1, -, -, -, -, g6, -, -⟩ := varSlice_inv hr2
    rw [fieldLen, he] at h2
    dsimp only at h2
    have hls : (d.before m buf (k + 1)).lens = (sizes ++ [l]).map .ok := by
      rw [before_lens_succ hf he, hs, h2]; simp
    have hsm := hd.lens_small m buf (k + 1) _ hls
    have hbl : bitsSum (d.fields.take (k + 1)) ≤ d.bits := bitsSum_take_le _ _
    have hbl' : bitsSum (d.fields.take k) = bitsSum (d.fields.take (k + 1)) := by
      rw [bitsSum_take_succ hf, hty]; rfl
    rw [hls, before_bit, curOff_ok (by unfold usizeCard; omega)] at g1
    rw [hs, before_bit, curOff_ok (by
      rw [List.sum_append] at hsm; unfold usizeCard; omega)] at h1
    cases h1
    cases g1
    simp only [List.sum_append, List.sum_cons, List.sum_nil, Nat.add_zero] at g6 hsm
    refine ⟨raw, _, l, hr, by rw [hs, before_bit, curOff_ok (by unfold usizeCard; omega)], by
      rw [fieldLen, he]; exact h2, by omega, ?_⟩
    rw [uadd_ok (by unfold usizeCard; omega)] at h3
    cases h3
    rw [he, h7, List.length_take, List.length_drop]
    simp only [Option.isSome_some, ↓reduceIte]
    omega
  · rw [fieldLen, hnone] at h2
    cases h2
    rw [uadd_ok (by unfold usizeCard; omega)] at h3
    cases h3
    refine ⟨raw, a, buf.length, hr, h1, by rw [fieldLen, hnone], by omega, ?_⟩
    rw [hnone, h7, List.length_take, List.length_drop]
    simp only [Option.isSome_none, Bool.false_eq_true, ↓reduceIte]
    omega

/-- `populate` when every setter either changes nothing or panics. -/
theorem populate_or_panic {d : Decl} {m : Mode} {buf : Buf} {vs : List Val}
    (hl : vs.length = d.fields.length)
    (h : ∀ k (_ : k < vs.length), d.set m buf k vs[k] = .ok buf ∨ d.set m buf k vs[k] = panic)
    (hp : ∃ k, ∃ _ : k < vs.length, d.set m buf k vs[k] = panic) :
    d.populate m buf (.list vs) = panic := by
  rw [Decl.populate, if_pos hl]
  have key : ∀ (n k : Nat) (ws : List Val), ws.length = n →
      (∀ i (_ : i < ws.length), d.set m buf (k + i) ws[i] = .ok buf ∨ d.set m buf (k + i) ws[i] = panic) →
      (∃ i, ∃ _ : i < ws.length, d.set m buf (k + i) ws[i] = panic) →
      d.populateFrom m k ws buf = panic := by
    intro n
    induction n with
    | zero =>
      intro k ws hn _ ⟨i, hi, _⟩
      omega
    | succ n ih =>
      intro k ws hn h1 h2
      cases ws with
      | nil => simp at hn
      | cons w ws =>
        rw [Decl.populateFrom]
        rcases h1 0 (by simp) with h0 | h0
        · simp only [Nat.add_zero, List.getElem_cons_zero] at h0
          rw [h0, ok_bind]
          refine ih (k + 1) ws (by simpa using hn) (fun i hi => ?_) ?_
          · have := h1 (i + 1) (by simp; omega)
            simpa [show k + (i + 1) = k + 1 + i by omega] using this
          · obtain ⟨i, hi, h2⟩ := h2
            cases i with
            | zero =>
              simp only [Nat.add_zero, List.getElem_cons_zero] at h2
              rw [h0] at h2; cases h2
            | succ i =>
              refine ⟨i, by simpa using hi, ?_⟩
              simpa [show k + (i + 1) = k + 1 + i by omega] using h2
        · simp only [Nat.add_zero, List.getElem_cons_zero] at h0
          rw [h0]; rfl
  exact key vs.length 0 vs rfl (fun i hi => by rw [Nat.zero_add]; exact h i hi)
    (by obtain ⟨k, hk, h⟩ := hp; exact ⟨k, hk, by rw [Nat.zero_add]; exact h⟩)

/-- The packets of an iterator have at least the minimum size. -/
theorem items_min {c : Codec} {m : Mode} (fuel : Nat) (buf : Buf) {ps : List Buf}
    (h : c.items m fuel buf = .ok ps) : ∀ p ∈ ps, c.minSize ≤ p.length := by
  induction fuel generalizing buf ps with
  | zero => cases h; intro p hp; cases hp
  | succ fuel ih =>
    simp only [Codec.items, next_eq] at h
    split at h
    · rename_i hmin
      cases hs : c.packetSize m buf with
      | error e => rw [hs] at h; cases h
      | ok s =>
        rw [hs] at h
        simp only [ok_map, ok_bind] at h
        split at h
        · rw [bind_eq_ok] at h
          obtain ⟨qs, hq, h⟩ := h
          cases h
          intro p hp
          rcases List.mem_cons.mp hp with rfl | hp
          · exact hmin.2
          · exact ih _ hq p hp
        · cases h
    · cases h; intro p hp; cases hp

/-- The options of a list of whole options end inside the list. -/
theorem items_whole {m : Mode} {c : Codec} {solo : UInt8 → Bool} {toVal : Opt → Val}
    (hc : OptCodec m c solo toVal) (fuel : Nat) (os : List Opt) (hw : ∀ o ∈ os, o.whole solo)
    {ps : List Buf} (h : c.items m fuel (os.flatMap Opt.bytes) = .ok ps) :
    ∀ p ∈ ps, ∀ s, c.packetSize m p = .ok s → s ≤ p.length := by
  induction fuel generalizing os ps with
  | zero => cases h; intro p hp; cases hp
  | succ fuel ih =>
    cases os with
    | nil =>
      simp only [Codec.items, next_eq, List.flatMap_nil] at h
      rw [if_neg (by simp)] at h
      cases h; intro p hp; cases hp
    | cons o os =>
      have hsize : c.packetSize m ((o :: os).flatMap Opt.bytes) = .ok o.bytes.length := by
        have ho := hw o (by simp)
        obtain ⟨k, l, dat⟩ := o
        simp only [Opt.whole] at ho
        split at ho
        · rename_i hs
          obtain ⟨h1, h2⟩ := ho
          subst h1 h2
          simp only [List.flatMap_cons, Opt.bytes, Option.toList_none, List.append_nil, List.cons_append]
          exact hc.soloSize _ _ hs
        · rename_i hs
          obtain ⟨n, h1, h2⟩ := ho
          subst h1
          simp only [List.flatMap_cons, Opt.bytes, Option.toList_some, List.cons_append, List.nil_append,
            List.length_cons]
          rw [hc.longSize _ _ _ (by simpa using hs), h2]
          congr 1; omega
      simp only [Codec.items, next_eq] at h
      split at h
      · rw [hsize] at h
        simp only [ok_map, ok_bind] at h
        split at h
        · rw [bind_eq_ok] at h
          obtain ⟨qs, hq, h⟩ := h
          cases h
          intro p hp s hs
          rcases List.mem_cons.mp hp with rfl | hp
          · rw [hsize] at hs
            cases hs
            simp
          · refine ih os (fun o ho => hw o (by simp [ho])) ?_ p hp s hs
            rw [← hq, List.flatMap_cons, List.drop_left]
        · cases h
      · cases h; intro p hp; cases hp

end Verif
