import Verif.Proofs.Unwind

/-!
# C122, C123: what a call that panics leaves in the packet

The buffer of a mutable packet can be looked at after a panic: it is borrowed from the caller, or the
packet is used again after `catch_unwind`.
-/

set_option autoImplicit false

namespace Verif.Props
open Spec

/-- `populate` of a TCP option. -/
def tcpOptionLeft : Nat → PopulateLeft := fun _ => tcpOption.populateLeft noPackets

theorem flat_leaves {d : Decl} (h : ∀ f ∈ d.fields, ∀ c, f.ty ≠ .vecPkt c) : LeavesAll d noPackets :=
  fun _ _ c hf hc => absurd hc (h _ (List.mem_of_getElem? hf) c)

/-- **C122**: the calls as they are modelled here are the setters and `populate` of the other
properties: they return the same bytes or fail in the same way. -/
theorem C122_same (d : Decl) (pop : Nat → PopulateLeft) (hp : LeavesAll d pop) (m : Mode) (buf : Buf) :
    (∀ k v, outcome (d.setLeft pop m buf k v) = d.set m buf k v) ∧
    ∀ v, outcome (d.populateLeft pop m buf v) = d.populate m buf v :=
  ⟨set_outcome hp m buf, populate_outcome hp m buf⟩

/-- **C122**: packets of packets, to any depth: the hypothesis of these theorems holds of a declaration
whose vectors are of packets it holds of. -/
theorem C122_nested (d : Decl) (pop : Nat → PopulateLeft)
    (hd : ∀ k f c, d.fields[k]? = some f → f.ty = .vecPkt c →
      ∃ inner ipop, LeavesAll inner ipop ∧ c = inner.codec ∧ pop k = inner.populateLeft ipop) :
    LeavesAll d pop := by
  intro k f c hf hc
  obtain ⟨inner, ipop, h1, rfl, h3⟩ := hd k f c hf hc
  rw [h3]
  exact leaves_codec h1

/-- TCP, whose options are packets of their own. -/
theorem tcp_leaves : LeavesAll tcp tcpOptionLeft := by
  refine C122_nested tcp tcpOptionLeft fun k f c hf hc => ⟨tcpOption, noPackets, flat_leaves ?_, ?_, rfl⟩
  · intro f hf c
    simp only [tcpOption, List.mem_cons, List.not_mem_nil, or_false] at hf
    rcases hf with rfl | rfl | rfl <;> intro h <;> cases h
  · have hf := List.mem_of_getElem? hf
    simp only [tcp, List.mem_cons, List.not_mem_nil, or_false] at hf
    rcases hf with rfl | rfl | rfl | rfl | rfl | rfl | rfl | rfl | rfl | rfl | rfl | rfl <;> cases hc
    rfl

/-- A `set_options` that returns. -/
example : outcome (tcp.setLeft tcpOptionLeft .debug (List.replicate 12 0 ++ [0x60] ++ List.replicate 11 0) 10
    (.list [.list [.nums [2], .nums [4], .nums [5, 180]]])) =
    .ok (List.replicate 12 0 ++ [0x60] ++ List.replicate 7 0 ++ [2, 4, 5, 180]) := by decide +kernel

/-- What C122 claims of a packet: a setter that panics has changed nothing after the end of its field,
here the payload. -/
def KeepsPayload (d : Decl) (pop : Nat → PopulateLeft) : Prop :=
  ∀ m buf k v f, (d.newPacket buf).isSome = true → d.fields[k]? = some f → f.payload = false →
    Failed (d.setLeft pop m buf k v) → d.payload m (d.setLeft pop m buf k v).1 = d.payload m buf

/-- **C122 is false**: `set_options` of a TCP packet without room for options panics after it has
written the option over the payload. -/
theorem C122_false : ¬ KeepsPayload tcp tcpOptionLeft := by
  intro h
  have := h .debug (List.replicate 12 0 ++ [0x50] ++ List.replicate 7 0 ++ [7, 8]) 10
    (.list [.list [.nums [1], .nums [], .nums []]]) _ (by decide +kernel) rfl rfl
    ⟨.panic, by decide +kernel⟩
  revert this
  decide +kernel

/-- The bytes it leaves: the first byte of the payload is the kind of the option. -/
example : tcp.setLeft tcpOptionLeft .debug (List.replicate 12 0 ++ [0x50] ++ List.replicate 7 0 ++ [7, 8]) 10
    (.list [.list [.nums [1], .nums [], .nums []]]) =
    (List.replicate 12 0 ++ [0x50] ++ List.replicate 7 0 ++ [1, 8], .error .panic) := by decide +kernel

/-- An option whose data are longer than its length says: its kind and length are written, then the
setter of its data panics. -/
example : tcp.setLeft tcpOptionLeft .debug (List.replicate 12 0 ++ [0x60] ++ List.replicate 11 0) 10
    (.list [.list [.nums [2], .nums [4], .nums [5, 180, 6]]]) =
    (List.replicate 12 0 ++ [0x60] ++ List.replicate 7 0 ++ [2, 4, 0, 0], .error .panic) := by decide +kernel

/-- **C122**: whatever way a setter or `populate` ends, the buffer has the length it had. For every
declaration. -/
theorem C122_length (d : Decl) (pop : Nat → PopulateLeft) (hp : LeavesAll d pop) (m : Mode) (buf : Buf) :
    (∀ k v, (d.setLeft pop m buf k v).1.length = buf.length) ∧
    ∀ v, (d.populateLeft pop m buf v).1.length = buf.length :=
  ⟨set_left_length hp m buf, populate_left_length hp m buf⟩

/-- `populate` of a TCP packet that fails at the options, with the header written. -/
example : (tcp.populateLeft tcpOptionLeft .debug (List.replicate 22 7) (.list [.num 80, .num 81, .num 1, .num 2,
    .num 5, .num 0, .num 18, .num 0, .num 0, .num 0, .list [.list [.nums [1], .nums [], .nums []]],
    .nums [9, 9]])) =
    ([0, 80, 0, 81, 0, 0, 0, 1, 0, 0, 0, 2, 80, 18, 0, 0, 0, 0, 0, 0, 1, 7], .error .panic) := by
  decide +kernel

/-- **C122, the part that holds** of the crate's packets: a setter that panics has changed nothing before
the start of its field. (The bytes after the end of the field are not kept, see `C122_false`.) -/
theorem C122_before_partial (d : Decl) (hd : d ∈ crateDecls) (pop : Nat → PopulateLeft) (hp : LeavesAll d pop)
    (m : Mode) (buf : Buf) (hsl : SliceLen buf.length) (hnew : (d.newPacket buf).isSome = true) (w : Wire)
    (k : Nat) (f : Field) (hf : d.fields[k]? = some f) (v : Val) (hty : isFixed f = true → typed w f.ty v)
    (h : Failed (d.setLeft pop m buf k v)) :
    (d.setLeft pop m buf k v).1 = buf ∨
    ∃ sizes, Sizes d m buf k sizes ∧
      (d.setLeft pop m buf k v).1.take (startOf d k sizes) = buf.take (startOf d k sizes) := by
  have hr := crate_recordlike d hd
  cases hvec : f.ty.isVec with
  | false =>
    have hfix := (fixed_take_succ hf (fixed_before hr.good.reg hr.last hf hvec)).2
    exact absurd h (fixed_returns hd hp hsl hnew hf hvec (hty hfix))
  | true =>
    refine (vec_kept hd hp hsl hf hvec v).imp_right ?_
    rintro ⟨sizes, h1, h2⟩
    exact ⟨sizes, h1, h2.2⟩

/-- TCP again: the header in front of the options is as it was. -/
example : Failed (tcp.setLeft tcpOptionLeft .release (List.replicate 12 3 ++ [0x50] ++ List.replicate 8 7) 10
      (.list [.list [.nums [1], .nums [], .nums []]])) ∧
    startOf tcp 10 [] = 20 ∧
    (tcp.setLeft tcpOptionLeft .release (List.replicate 12 3 ++ [0x50] ++ List.replicate 8 7) 10
      (.list [.list [.nums [1], .nums [], .nums []]])).1 =
      List.replicate 12 3 ++ [0x50] ++ List.replicate 7 7 ++ [1] :=
  ⟨⟨.panic, by decide +kernel⟩, by decide +kernel, by decide +kernel⟩

/-- **C122, another part that holds**, of every declaration: a setter of a `Vec<u8>` that panics has
changed nothing at all. -/
theorem C122_bytes_partial (d : Decl) (pop : Nat → PopulateLeft) (m : Mode) (buf : Buf) (k : Nat) (f : Field)
    (hf : d.fields[k]? = some f) (e : Endianness) (hty : f.ty = .vecPrim ⟨8, e⟩) (v : Val)
    (h : Failed (d.setLeft pop m buf k v)) : (d.setLeft pop m buf k v).1 = buf := by
  revert h
  rw [Decl.setLeft, hf]
  simp only [hty]
  cases v <;> try exact fun _ => rfl
  rename_i vs
  simp only
  have key : ∀ r : Res Buf, Failed (atOnce buf r) → (atOnce buf r).1 = buf := by
    intro r hr
    cases r with
    | error e => rfl
    | ok b => obtain ⟨e, h⟩ := hr; cases h
  have step : ∀ {α : Type} (r : Res α) (next : α → Left), (∀ a, Failed (next a) → (next a).1 = buf) →
      Failed (reading buf r next) → (reading buf r next).1 = buf := by
    intro α r next hn hr
    cases r with
    | error e => rfl
    | ok a => exact hn a hr
  exact step _ _ fun co => step _ _ fun _ => key _

/-- A UDP payload that is longer than the rest of the buffer is refused before a byte is written. -/
example : udp.setLeft noPackets .debug [0, 1, 0, 2, 0, 9, 0, 0, 5] 4 (.nums [1, 2]) =
    ([0, 1, 0, 2, 0, 9, 0, 0, 5], .error .panic) := by decide +kernel

/-! ## C123 -/

/-- **C123**. After any sequence of calls of setters (of integers, addresses, lists) and writes to the
payload, each of which may panic and the panic be caught, the getter of every header field returns the
value last given to its setter, with integers reduced to their widths, or what it returned at the
beginning if its setter was not called. The length of the packet is the same. -/
theorem C123_header_survives (d : Decl) (hd : d ∈ crateDecls) (pop : Nat → PopulateLeft) (hp : LeavesAll d pop)
    (m : Mode) (w : Wire) (ws : List Write) (buf : Buf) (hsl : SliceLen buf.length)
    (hnew : (d.newPacket buf).isSome = true)
    (hty : ∀ c ∈ ws, ∀ k v f, c = .set k v → d.fields[k]? = some f → isFixed f = true → typed w f.ty v) :
    (runCaught d pop m ws buf).length = buf.length ∧
    ∀ k f, d.fields[k]? = some f → isFixed f = true →
      (∀ v, lastWrite k ws = some v → d.get m (runCaught d pop m ws buf) k = .ok (normField w f.ty v)) ∧
      (lastWrite k ws = none → d.get m (runCaught d pop m ws buf) k = d.get m buf k) := by
  rw [newPacket_isSome] at hnew
  induction ws generalizing buf with
  | nil => exact ⟨rfl, fun k f hf hfix => ⟨fun v hv => (by cases hv), fun _ => rfl⟩⟩
  | cons c ws ih =>
    rw [runCaught]
    obtain ⟨h1, h2⟩ := caught_step d hd pop hp m w c buf hsl hnew (hty c (by simp))
    obtain ⟨h3, h4⟩ := ih _ (by rw [h1]; exact hsl) (by rw [h1]; exact hnew)
      (fun c' hc' => hty c' (by simp [hc']))
    refine ⟨by omega, fun k f hf hfix => ?_⟩
    have hvec : f.ty.isVec = false := by
      simp only [isFixed, Bool.and_eq_true, Bool.not_eq_true'] at hfix; exact hfix.1
    obtain ⟨h5, h6⟩ := h4 k f hf hfix
    have h7 := h2 k f hf hvec
    rw [lastWrite_cons]
    cases hl : lastWrite k ws with
    | some v =>
      simp only [Option.some_or, Option.some.injEq, reduceCtorEq, false_implies, and_true]
      rintro v rfl
      exact h5 _ hl
    | none =>
      rw [h6 hl, h7]
      simp only [Option.none_or]
      cases c with
      | payload bytes => simp
      | set j v =>
        dsimp only
        by_cases hjk : j = k
        · rw [if_pos hjk, if_pos hjk]; simp
        · rw [if_neg hjk, if_neg hjk]; simp

/-- Two of the four calls panic: an option that does not fit is written over the payload, and a payload
of the wrong length is refused. The data offset and the flags are the last ones set. -/
example : runCaught tcp tcpOptionLeft .debug [.set 4 (.num 0x15),
      .set 10 (.list [.list [.nums [2], .nums [4], .nums [5, 180]]]), .payload [7, 8, 9, 10],
      .set 6 (.num 0x412)] (List.replicate 25 0) =
      List.replicate 12 0 ++ [0x50, 0x12] ++ List.replicate 6 0 ++ [2, 4, 5, 180, 0] ∧
    runWrites tcp .debug [.set 4 (.num 0x15),
      .set 10 (.list [.list [.nums [2], .nums [4], .nums [5, 180]]]), .payload [7, 8, 9, 10],
      .set 6 (.num 0x412)] (List.replicate 25 0) = .error .panic := by decide +kernel

/-- **C123**: `populate` stores the whole header even if it panics: afterwards every header getter returns
the value in the struct, reduced to the width of the field. -/
theorem C123_populate (d : Decl) (hd : d ∈ crateDecls) (pop : Nat → PopulateLeft) (hp : LeavesAll d pop)
    (m : Mode) (w : Wire) (vs : List Val) (hlen : vs.length = d.fields.length)
    (hty : ∀ (k : Nat) f v, d.fields[k]? = some f → vs[k]? = some v → isFixed f = true → typed w f.ty v)
    (buf : Buf) (hsl : SliceLen buf.length) (hnew : (d.newPacket buf).isSome = true)
    (k : Nat) (f : Field) (v : Val) (hf : d.fields[k]? = some f) (hfix : isFixed f = true)
    (hv : vs[k]? = some v) :
    d.get m (d.populateLeft pop m buf (.list vs)).1 k = .ok (normField w f.ty v) := by
  have hvec : f.ty.isVec = false := by
    simp only [isFixed, Bool.and_eq_true, Bool.not_eq_true'] at hfix; exact hfix.1
  simp only [Decl.populateLeft]
  rw [if_pos hlen]
  exact (caught_populate d hd pop hp m w vs 0 buf hsl (newPacket_isSome.mp hnew) (by omega)
    (fun i f v hf hv => hty i f v (by simpa using hf) hv) k f hf hvec).2 v (Nat.zero_le _) (by simpa using hv)

/-- The `populate` of a TCP packet above that fails at the options: the flags are in the header. -/
example : Failed (tcp.populateLeft tcpOptionLeft .debug (List.replicate 22 7) (.list [.num 80, .num 81, .num 1,
      .num 2, .num 5, .num 0, .num 18, .num 0, .num 0, .num 0, .list [.list [.nums [1], .nums [], .nums []]],
      .nums [9, 9]])) ∧
    tcp.get .debug (tcp.populateLeft tcpOptionLeft .debug (List.replicate 22 7) (.list [.num 80, .num 81,
      .num 1, .num 2, .num 5, .num 0, .num 18, .num 0, .num 0, .num 0,
      .list [.list [.nums [1], .nums [], .nums []]], .nums [9, 9]])).1 6 = .ok (.num 18) :=
  ⟨⟨.panic, by decide +kernel⟩, by decide +kernel⟩

end Verif.Props
