import Verif.Props.Unwind

/-! How far a list setter that panics has written. -/

set_option autoImplicit false

namespace Verif
open Spec

/-- The length and the bytes from `b` on are the same. -/
def After (buf new : Buf) (b : Nat) : Prop :=
  new.length = buf.length ∧ new.drop b = buf.drop b

theorem After.refl (buf : Buf) (b : Nat) : After buf buf b := ⟨rfl, rfl⟩

theorem After.trans {x y z : Buf} {b : Nat} (h : After x y b) (h' : After y z b) : After x z b :=
  ⟨h'.1.trans h.1, h'.2.trans h.2⟩

theorem After.mono {x y : Buf} {a b : Nat} (h : After x y a) (hab : a ≤ b) : After x y b := by
  refine ⟨h.1, ?_⟩
  have := congrArg (List.drop (b - a)) h.2
  rwa [List.drop_drop, List.drop_drop, show a + (b - a) = b by omega] at this

theorem after_reading {α : Type} {buf x : Buf} {r : Res α} {next : α → Left} {b : Nat}
    (hx : After x buf b) (h : ∀ v, r = .ok v → After x (next v).1 b) : After x (reading buf r next).1 b := by
  cases r with
  | error e => exact hx
  | ok v => exact h v rfl

theorem after_andThen {x : Buf} {l : Left} {next : Buf → Left} {b : Nat}
    (hl : After x l.1 b) (h : After x (next l.1).1 b) : After x (andThen l next).1 b := by
  obtain ⟨y, r⟩ := l
  cases r with
  | error e => exact hl
  | ok v => exact h

theorem after_setIndex {x buf : Buf} {i b : Nat} {v : UInt8} (hx : After x buf b) (hi : i < b) :
    After x (atOnce buf (setIndex buf i v)).1 b := by
  unfold setIndex
  split
  · refine hx.trans ⟨by simp [atOnce], ?_⟩
    exact List.drop_set_of_lt hi
  · exact hx

theorem setOps_after {W co v : Nat} {b : Nat} {x : Buf} (ops : List SetOperation) (idx : Nat) (buf : Buf)
    (hx : After x buf b) (hb : co + idx + ops.length ≤ b) : After x (setOpsLeft W co v idx ops buf).1 b := by
  induction ops generalizing idx buf with
  | nil => exact hx
  | cons op ops ih =>
    rw [List.length_cons] at hb
    refine after_reading hx fun old _ => after_reading hx fun new _ => ?_
    have := after_setIndex (v := UInt8.ofNat new) hx (i := co + idx) (by omega)
    exact after_andThen this (ih _ _ this (by omega))

theorem setPrim_after {p : Prim} {s co v : Nat} {b : Nat} {x buf : Buf} {ops : List GetOperation}
    (hops : operations s p.size p.endian = some ops) (hx : After x buf b) (hb : co + ops.length ≤ b) :
    After x (setPrimLeft p s buf co v).1 b := by
  refine after_reading hx fun ops' h => setOps_after _ _ _ hx ?_
  rw [hops] at h
  cases h
  simpa [toMutator] using hb

theorem copyInto_after {b co : Nat} {x buf new : Buf} (hx : After x buf b) (hb : co + new.length ≤ b) :
    After x (atOnce buf (copyInto buf co new)).1 b := by
  unfold copyInto
  split
  · refine hx.trans ⟨?_, ?_⟩
    · simp only [atOnce, List.length_append, List.length_take, List.length_drop]; omega
    · simp only [atOnce]
      have hl : (buf.take co ++ new).length = co + new.length := by
        rw [List.length_append, List.length_take]; omega
      rw [List.drop_append, List.drop_of_length_le (by omega), hl, List.nil_append, List.drop_drop,
        show co + new.length + (b - (co + new.length)) = b by omega]
  · exact hx

/-- The loop of a list setter: an element is begun at `endOff` at the latest. -/
theorem setPackets_after {m : Mode} {c : Codec} {pop : PopulateLeft} {endOff n : Nat} {x : Buf} (vs : List Val)
    (hpop : ∀ v ∈ vs, ∀ buf, After buf (pop m buf v).1 n)
    (cur : Nat) (buf : Buf) (hx : After x buf (endOff + n)) (hcur : cur ≤ endOff) :
    After x (setPacketsLeft m c pop endOff cur vs buf).1 (endOff + n) := by
  induction vs generalizing cur buf with
  | nil => exact hx
  | cons v vs ih =>
    refine after_reading hx fun sub hsub => ?_
    obtain ⟨hle, rfl⟩ := sliceFrom_inv hsub
    split
    · obtain ⟨hl, hd⟩ := hpop v (by simp) (buf.drop cur)
      have h1 : After x (buf.take cur ++ (pop m (buf.drop cur) v).1) (endOff + n) := by
        refine hx.trans ⟨?_, ?_⟩
        · rw [List.length_append, hl, List.length_take, List.length_drop]; omega
        · have ht : (buf.take cur).length = cur := by rw [List.length_take]; omega
          obtain ⟨-, h⟩ := After.mono ⟨hl, hd⟩ (b := endOff + n - cur) (by omega)
          rw [List.drop_append, List.drop_of_length_le (by omega), ht, List.nil_append, h, List.drop_drop,
            show cur + (endOff + n - cur) = endOff + n by omega]
      refine after_andThen (l := (_, _)) h1 (after_reading h1 fun size _ => after_reading h1 fun cur' _ => ?_)
      split
      · exact ih (fun v hv => hpop v (by simp [hv])) _ _ h1 (by assumption)
      · exact h1
    · exact hx

theorem bytesSet_after {d : Decl} {pop : Nat → PopulateLeft} {m : Mode} {buf : Buf} {k : Nat} {f : Field}
    (hf : d.fields[k]? = some f) (hty : f.ty = .vecPrim (u 8)) {e : LenExpr} (he : f.len = some e) {v : Val}
    {b : Nat}
    (hb : ∀ co ns len, curOff m (d.before m buf k).bit (d.before m buf k).lens = .ok co → v = .nums ns →
      lenExpr m buf (d.before m buf k) e = .ok len → ns.length ≤ len → co + ns.length ≤ b) :
    After buf (d.setLeft pop m buf k v).1 b := by
  have hx := After.refl buf b
  unfold Decl.setLeft
  rw [hf]
  simp only [hty, he]
  cases v <;> try exact hx
  rename_i ns
  refine after_reading hx fun co hco => after_reading hx fun _ hlen => ?_
  rw [if_pos (show (u 8).size = 8 from rfl)]
  cases hl : lenExpr m buf (d.before m buf k) e with
  | error e => rw [hl] at hlen; cases hlen
  | ok len =>
    rw [hl] at hlen
    by_cases hle : ns.length ≤ len
    · exact copyInto_after hx (by rw [List.length_map]; exact hb co ns len hco rfl hl hle)
    · simp only [ok_bind, if_neg hle] at hlen
      cases hlen

theorem populateFrom_after {d : Decl} {pop : Nat → PopulateLeft} {m : Mode} {b : Nat} (vs : List Val) (k : Nat)
    (buf : Buf)
    (h : ∀ (i : Nat) v, vs[i]? = some v → ∀ buf, After buf (d.setLeft pop m buf (k + i) v).1 b) :
    After buf (d.populateFromLeft pop m k vs buf).1 b := by
  induction vs generalizing k buf with
  | nil => exact After.refl _ _
  | cons v vs ih =>
    have h0 := h 0 v rfl buf
    refine after_andThen h0 (h0.trans (ih (k + 1) _ fun i v hv buf => ?_))
    have := h (i + 1) v (by simpa using hv) buf
    rwa [show k + (i + 1) = k + 1 + i by omega] at this

theorem uadd_le {m : Mode} {a b c : Nat} (h : uadd m a b = .ok c) : c ≤ a + b := by
  unfold uadd at h
  split at h
  · cases h; exact Nat.le_refl _
  · cases m
    · cases h
    · cases h; exact Nat.mod_le _ _

theorem two_le_optionBytes (v : Val) : 2 ≤ optionBytes v := by
  unfold optionBytes
  split
  · omega
  · omega

/-- The length byte and the data of an option. -/
theorem optFields_after {d : Decl} {j : Nat} {f f' : Field} {e e' : LenExpr}
    (hfix : (d.fields.take j).all Field.fixed = true)
    (h8 : bitsSum (d.fields.take j) = 8) (h8' : bitsSum (d.fields.take (j + 1)) = 8)
    (hf : d.fields[j]? = some f) (hty : f.ty = .vecPrim (u 8)) (he : f.len = some e)
    (hf' : d.fields[j + 1]? = some f') (hty' : f'.ty = .vecPrim (u 8)) (he' : f'.len = some e')
    (hle : ∀ m buf len, lenExpr m buf (d.before m buf j) e = .ok len → len ≤ 1)
    (pop : Nat → PopulateLeft) (m : Mode) (buf : Buf) (v : Val) (b : Nat) :
    (2 ≤ b → After buf (d.setLeft pop m buf j v).1 b) ∧
    ((∀ ns, v = .nums ns → 2 + ns.length ≤ b) → After buf (d.setLeft pop m buf (j + 1) v).1 b) := by
  obtain ⟨hbit, hlens⟩ := before_fixed hfix m buf
  constructor
  · intro hb
    refine bytesSet_after hf hty he fun co ns len hco _ hl hn => ?_
    rw [hbit, hlens, h8] at hco
    cases hco
    have := hle m buf len hl
    omega
  · intro hb
    refine bytesSet_after hf' hty' he' fun co ns len hco hv hl hn => ?_
    rw [before_bit, h8', before_lens_succ hf he, hlens] at hco
    obtain ⟨a, ha, hco⟩ := bind_eq_ok.mp hco
    cases hco
    obtain ⟨l, h1, h2⟩ := bind_eq_ok.mp ha
    have := hle m buf l h1
    have := uadd_le h2
    have := hb ns hv
    omega

theorem intSet_after {d : Decl} {pop : Nat → PopulateLeft} {m : Mode} {buf : Buf} {k : Nat} {f : Field}
    (hf : d.fields[k]? = some f) {p : Prim} (hty : f.ty = .prim p ∨ f.ty = .misc [p])
    (hfix : (d.fields.take k).all Field.fixed = true) {ops : List GetOperation}
    (hops : operations (bitsSum (d.fields.take k) % 8) p.size p.endian = some ops) {b : Nat}
    (hb : bitsSum (d.fields.take k) / 8 + ops.length ≤ b) (v : Val) :
    After buf (d.setLeft pop m buf k v).1 b := by
  have hx := After.refl buf b
  obtain ⟨hbit, hlens⟩ := before_fixed hfix m buf
  have key : ∀ n, After buf (reading buf (curOff m (d.before m buf k).bit (d.before m buf k).lens) fun co =>
      setPrimLeft p ((d.before m buf k).bit % 8) buf co n).1 b := by
    intro n
    rw [hbit, hlens]
    exact setPrim_after hops hx hb
  unfold Decl.setLeft
  rw [hf]
  rcases hty with hty | hty
  · simp only [hty]
    cases v <;> try exact hx
    exact key _
  · simp only [hty]
    cases v <;> try exact hx
    rename_i ns
    match ns with
    | [] => exact hx
    | [n] =>
      refine after_reading hx fun co hco => ?_
      have := key n
      rw [hco] at this
      exact after_andThen this this
    | _ :: _ :: _ => exact hx

theorem tcpOption_after (m : Mode) (v : Val) (buf : Buf) :
    After buf (tcpOption.populateLeft noPackets m buf v).1 (Spec.optionBytes v) := by
  have h2 := two_le_optionBytes v
  cases v with
  | list vs =>
    simp only [Decl.populateLeft]
    split
    · rename_i hlen
      match vs, hlen with
      | [a, b, c], _ =>
        have hopt := fun v b buf => optFields_after (d := tcpOption) (j := 1) rfl rfl rfl rfl rfl rfl rfl rfl rfl
          (fun m buf len h => by
            unfold lenExpr at h
            obtain ⟨v, -, h⟩ := bind_eq_ok.mp h
            obtain ⟨n, -, h⟩ := bind_eq_ok.mp h
            cases h
            unfold tcpOptionLength
            split
            · omega
            · split <;> omega) noPackets m buf v b
        refine populateFrom_after _ _ _ fun i v hv buf => ?_
        match i, hv with
        | 0, hv =>
          exact intSet_after (d := tcpOption) (k := 0) rfl (.inr rfl) rfl (ops := _) rfl
            (Nat.le_trans (by decide) h2) _
        | 1, hv => exact (hopt _ _ buf).1 h2
        | 2, hv =>
          cases hv
          exact (hopt _ _ buf).2 (fun ns h => by subst h; exact Nat.le_refl _)
        | n + 3, hv => simp at hv
    · exact After.refl _ _
  | _ => exact After.refl _ _

theorem ipv4Option_after (m : Mode) (v : Val) (buf : Buf) :
    After buf (ipv4Option.populateLeft noPackets m buf v).1 (Spec.optionBytes v) := by
  have h2 := two_le_optionBytes v
  cases v with
  | list vs =>
    simp only [Decl.populateLeft]
    split
    · rename_i hlen
      match vs, hlen with
      | [a, b, c, d, e], _ =>
        have hopt := fun v b buf => optFields_after (d := ipv4Option) (j := 3) rfl rfl rfl rfl rfl rfl rfl rfl rfl
          (fun m buf len h => by
            unfold lenExpr at h
            obtain ⟨v, -, h⟩ := bind_eq_ok.mp h
            obtain ⟨n, -, h⟩ := bind_eq_ok.mp h
            cases h
            unfold ipv4OptionLength
            split
            · omega
            · split <;> omega) noPackets m buf v b
        refine populateFrom_after _ _ _ fun i v hv buf => ?_
        match i, hv with
        | 0, hv =>
          exact intSet_after (d := ipv4Option) (k := 0) rfl (.inl rfl) rfl (ops := _) rfl
            (Nat.le_trans (by decide) h2) _
        | 1, hv =>
          exact intSet_after (d := ipv4Option) (k := 1) rfl (.inl rfl) rfl (ops := _) rfl
            (Nat.le_trans (by decide) h2) _
        | 2, hv =>
          exact intSet_after (d := ipv4Option) (k := 2) rfl (.inr rfl) rfl (ops := _) rfl
            (Nat.le_trans (by decide) h2) _
        | 3, hv => exact (hopt _ _ buf).1 h2
        | 4, hv =>
          cases hv
          exact (hopt _ _ buf).2 (fun ns h => by subst h; exact Nat.le_refl _)
        | n + 5, hv => simp at hv
    · exact After.refl _ _
  | _ => exact After.refl _ _

theorem getInt_lt {d : Decl} {m : Mode} {buf : Buf} {k n v : Nat} {f : Field} (hf : d.fields[k]? = some f)
    (hty : f.ty = .prim ⟨n, .big⟩) (h : d.get m buf k = .ok (.num v)) : v < 2 ^ n := by
  unfold Decl.get at h
  rw [hf] at h
  simp only [hty, getField] at h
  obtain ⟨co, -, h⟩ := bind_eq_ok.mp h
  obtain ⟨v', h1, h⟩ := bind_eq_ok.mp h
  cases h
  exact getPrim_lt h1

/-- `set_options`: the options begin at byte 20, and the last one that is written begins in the field or
at its end. -/
theorem options_after {d : Decl} {pop : Nat → PopulateLeft} {k j : Nat} {f : Field} {c : Codec}
    {g : Nat → Nat} (hfix : (d.fields.take k).all Field.fixed = true) (h160 : bitsSum (d.fields.take k) = 160)
    (hf : d.fields[k]? = some f) (hty : f.ty = .vecPkt c) (he : f.len = some (lenNum j g)) (hj : j < k)
    {m : Mode} {buf : Buf} {off n : Nat} (hoff : d.get m buf j = .ok (.num off)) {vs : List Val}
    (hpop : ∀ v ∈ vs, ∀ buf, After buf (pop k m buf v).1 n) (hg : g off < 2 ^ 32) :
    After buf (d.setLeft pop m buf k (.list vs)).1 (20 + g off + n) := by
  have hx := After.refl buf (20 + g off + n)
  obtain ⟨hbit, hlens⟩ := before_fixed hfix m buf
  unfold Decl.setLeft
  rw [hf]
  simp only [hty]
  rw [hbit, hlens, h160, fieldLen, he]
  have hl : lenExpr m buf (d.before m buf k) (lenNum j g) = .ok (g off) := by
    have hk : k ≤ d.fields.length := Nat.le_of_lt (List.getElem?_eq_some_iff.mp hf).1
    rw [lenExpr, lenNum, before_get hj hk, hoff]
    rfl
  simp only [hl]
  have hend : uadd m 20 (g off) = .ok (20 + g off) := by
    unfold uadd usizeCard; rw [if_pos (by omega)]
  have hco : curOff m 160 [] = .ok 20 := rfl
  rw [hco]
  simp only [reading, hend]
  exact setPackets_after _ hpop _ _ hx (by omega)

end Verif
