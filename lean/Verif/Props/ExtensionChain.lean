import Verif.Props.Headers
import Verif.Proofs.Ndp
import Verif.Model.Iterables
import Verif.Spec.ExtensionChain

/-! # C96: walking a chain of IPv6 extension headers -/

namespace Verif.Props
open Spec

/-- **C96**, full claim: `ExtensionIterable` on the payload of an IPv6 packet (a chain of extension
headers and then data) yields exactly the extension headers. -/
def C96_statement : Prop := ∀ (m : Mode) (ty : Nat) (hs : List Buf) (up : Nat) (data : Buf),
  ExtChain ty hs up → SliceLen (hs.flatten ++ data).length →
  extensionIterable m (hs.flatten ++ data) = .ok (starts hs data)

/-- A UDP datagram after a hop-by-hop header (padding option of 6 bytes). -/
theorem hop_udp : ExtChain 0 [[17, 0, 1, 4, 0, 0, 0, 0]] 17 :=
  .header (by decide) ⟨0, _, rfl, by decide⟩ (.upper (by decide))

/-- C96 is false: the iterator does not look at the type of what follows and takes the UDP header for an
extension header. -/
theorem C96_false : ¬ C96_statement := by
  intro h
  have := h .debug 0 _ 17 [0, 53, 0, 53, 0, 8, 0, 0] hop_udp (by decide)
  revert this
  decide +kernel

/-- It also fails for chains without data: after a fragment header whose reserved byte is not 0 (to be
ignored, RFC 8200) and after an authentication header it goes on at the wrong place. -/
theorem C96_more_failures :
    (ExtChain 44 [[60, 1, 0, 0, 0, 0, 0, 7], [59, 0, 1, 4, 0, 0, 0, 0]] 59 ∧
      extensionIterable .debug ([60, 1, 0, 0, 0, 0, 0, 7] ++ [59, 0, 1, 4, 0, 0, 0, 0]) =
        .ok [[60, 1, 0, 0, 0, 0, 0, 7] ++ [59, 0, 1, 4, 0, 0, 0, 0]]) ∧
    (ExtChain 51 [[60, 1, 0, 0, 0, 0, 0, 7, 0, 0, 0, 1], [59, 0, 1, 4, 0, 0, 0, 0]] 59 ∧
      extensionIterable .debug ([60, 1, 0, 0, 0, 0, 0, 7, 0, 0, 0, 1] ++ [59, 0, 1, 4, 0, 0, 0, 0]) =
        .ok [[60, 1, 0, 0, 0, 0, 0, 7, 0, 0, 0, 1] ++ [59, 0, 1, 4, 0, 0, 0, 0], [0, 0, 0, 0]]) := by
  refine ⟨⟨.header (by decide) ⟨1, _, rfl, by decide⟩ (.header (by decide) ⟨0, _, rfl, by decide⟩
    (.upper (by decide))), by decide +kernel⟩, ⟨.header (by decide) ⟨1, _, rfl, by decide⟩
    (.header (by decide) ⟨0, _, rfl, by decide⟩ (.upper (by decide))), by decide +kernel⟩⟩

theorem header_two {ty : Nat} {next : UInt8} {bs : Buf} (h : ExtHeader ty next bs) : 2 ≤ bs.length := by
  obtain ⟨l, rest, rfl, _⟩ := h
  simp

theorem plainSize_append {bs : Buf} (h : 2 ≤ bs.length) (rest : Buf) : plainSize (bs ++ rest) = plainSize bs := by
  match bs, h with
  | _ :: _ :: _, _ => rfl

theorem plainSize_bits {bs : Buf} (h : 2 ≤ bs.length) : 8 * (bitsAt bs 8 8 + 1) = plainSize bs := by
  match bs, h with
  | a :: b :: bs, _ => rw [bitsAt_second]; rfl

theorem chain_fuel (n k : Nat) (buf : Buf) (hn : buf.length ≤ n) (hk : buf.length ≤ k) :
    chain n buf = chain k buf := by
  induction n generalizing k buf with
  | zero =>
    cases k with
    | zero => rfl
    | succ k => rw [chain, chain, if_pos (by omega)]
  | succ n ih =>
    cases k with
    | zero => rw [chain, chain, if_pos (by omega)]
    | succ k =>
      rw [chain, chain]
      split
      · rfl
      · rw [ih k _ (by rw [List.length_drop]; omega) (by rw [List.length_drop]; omega)]

theorem chain_short {buf : Buf} (h : buf.length < 2) : chain buf.length buf = [] := by
  cases e : buf.length with
  | zero => rfl
  | succ n => rw [chain, if_pos h]

theorem chain_step {buf : Buf} (h : 2 ≤ buf.length) : chain buf.length buf =
    buf :: chain (buf.drop (plainSize buf)).length (buf.drop (plainSize buf)) := by
  have e : buf.length = (buf.length - 1) + 1 := by omega
  rw [chain_fuel buf.length (buf.length - 1 + 1) buf (by omega) (by omega), chain, if_neg (by omega),
    plainSize_bits h]
  have : 8 ≤ plainSize buf := by unfold plainSize; omega
  rw [chain_fuel _ (buf.drop (plainSize buf)).length _ (by rw [List.length_drop]; omega) (Nat.le_refl _)]

theorem starts_head {hs : List Buf} {data : Buf} (h : hs ≠ []) :
    ∃ l, starts hs data = (hs.flatten ++ data) :: l := by
  cases hs with
  | nil => exact absurd rfl h
  | cons a hs => exact ⟨_, by rw [starts, List.flatten_cons, List.append_assoc]⟩

theorem chain_head {buf x : Buf} {l : List Buf} (h : chain buf.length buf = x :: l) : x = buf := by
  by_cases hb : buf.length < 2
  · rw [chain_short hb] at h; simp at h
  · rw [chain_step (by omega)] at h
    exact (List.cons.inj h).1.symm

/-- **C96**, exactly: the iterator yields the headers of the chain and nothing else if and only if every
header but the last has the plain size (in units of 8 bytes, the first not counted), and after the plain
size of the last one fewer than two bytes are left. -/
theorem C96_exact (m : Mode) {ty : Nat} {hs : List Buf} {up : Nat} (data : Buf) (hc : ExtChain ty hs up) :
    extensionIterable m (hs.flatten ++ data) = .ok (starts hs data) ↔
      (hs = [] → data.length < 2) ∧ (∀ h ∈ hs.dropLast, h.length = plainSize h) ∧
      (∀ h, hs.getLast? = some h → h.length + data.length < plainSize h + 2) := by
  rw [extensionIterable, C35_chain]
  simp only [Except.ok.injEq]
  induction hc with
  | upper =>
    rw [show ([] : List Buf).flatten ++ data = data from rfl]
    by_cases hd : data.length < 2
    · rw [chain_short hd]; simp [starts, hd]
    · rw [chain_step (by omega)]; simp [starts]; omega
  | @header ty next bs hs up _ hh hc ih =>
    have h2 := header_two hh
    rw [List.flatten_cons, List.append_assoc, chain_step (by rw [List.length_append]; omega),
      plainSize_append h2, starts]
    simp only [List.cons.injEq, true_and, reduceCtorEq, false_implies]
    cases hc with
    | upper =>
      simp only [List.flatten_nil, List.nil_append, starts, List.dropLast_singleton, List.not_mem_nil,
        false_implies, implies_true, true_and, List.getLast?_singleton, Option.some.injEq, forall_eq']
      constructor
      · intro h
        by_cases hd : ((bs ++ data).drop (plainSize bs)).length < 2
        · rw [List.length_drop, List.length_append] at hd; omega
        · rw [chain_step (by omega)] at h; simp at h
      · intro h
        exact chain_short (by rw [List.length_drop, List.length_append]; omega)
    | @header _ next' bs' hs' _ _ hh' hc' =>
      have h2' := header_two hh'
      have key : chain ((bs ++ ((bs' :: hs').flatten ++ data)).drop (plainSize bs)).length
          ((bs ++ ((bs' :: hs').flatten ++ data)).drop (plainSize bs)) = starts (bs' :: hs') data ↔
          bs.length = plainSize bs ∧ chain ((bs' :: hs').flatten ++ data).length
            ((bs' :: hs').flatten ++ data) = starts (bs' :: hs') data := by
        constructor
        · intro h
          obtain ⟨l, hl⟩ := starts_head (hs := bs' :: hs') (data := data) (by simp)
          rw [hl] at h
          have := chain_head h
          have hlen := congrArg List.length this
          rw [List.length_drop, List.length_append (as := bs)] at hlen
          have : 0 < ((bs' :: hs').flatten ++ data).length := by
            rw [List.flatten_cons, List.append_assoc, List.length_append]; omega
          have e : bs.length = plainSize bs := by omega
          refine ⟨e, ?_⟩
          rw [← e, List.drop_left, ← hl] at h
          exact h
        · rintro ⟨e, h⟩
          rw [← e, List.drop_left, h]
      rw [key, ih]
      simp only [reduceCtorEq, false_implies, true_and, List.dropLast_cons_cons, List.mem_cons, forall_eq_or_imp,
        List.getLast?_cons_cons]
      exact ⟨fun ⟨a, b, c⟩ => ⟨⟨a, b⟩, c⟩, fun ⟨⟨a, b⟩, c⟩ => ⟨a, b, c⟩⟩

example : ExtChain 0 [[60, 0, 1, 4, 0, 0, 0, 0], [59, 0, 1, 4, 0, 0, 0, 0]] 59 :=
  .header (by decide) ⟨0, _, rfl, by decide⟩ (.header (by decide) ⟨0, _, rfl, by decide⟩ (.upper (by decide)))

/-- **C96** for chains without authentication headers and with the reserved bytes of the fragment headers
clear (every header has the plain size), whatever follows: the iterator yields every header of the chain
and then goes on in the data. What the full claim has beyond this is that it stops there. -/
theorem C96_headers_partial (m : Mode) {ty : Nat} {hs : List Buf} {up : Nat} (data : Buf)
    (hc : ExtChain ty hs up) (hp : ∀ h ∈ hs, h.length = plainSize h) :
    ∃ more, extensionIterable m (hs.flatten ++ data) =
        .ok (starts hs data ++ more) ∧
      extensionIterable m data = .ok more := by
  refine ⟨_, ?_, C35_chain m data.length data⟩
  rw [extensionIterable, C35_chain]
  congr 1
  induction hc with
  | upper => rfl
  | @header ty next bs hs up _ hh hc ih =>
    have h2 := header_two hh
    rw [List.flatten_cons, List.append_assoc, chain_step (by rw [List.length_append]; omega),
      plainSize_append h2, starts, List.cons_append, ← hp bs (by simp), List.drop_left,
      ih (fun h hm => hp h (by simp [hm]))]

example := C96_headers_partial .debug [0, 53, 0, 53, 0, 8, 0, 0] hop_udp (by decide)

/-- **C96**: what an item of such a chain shows: it starts with its header, its `next_header` is the type
with which the rest of the chain goes on (of the next header, or of the data after the last one), its size
is that of the header and its payload is the header without the first two bytes. So a caller who stops at
the first item whose `next_header` is not an extension type has seen exactly the headers. -/
theorem C96_items (m : Mode) {ty : Nat} {hs : List Buf} {up : Nat} (data : Buf)
    (hc : ExtChain ty hs up) (hp : ∀ h ∈ hs, h.length = plainSize h) {i : Nat} {p h : Buf}
    (hi : (starts hs data)[i]? = some p) (hh : hs[i]? = some h) :
    h <+: p ∧ extension.packetSize m p = .ok h.length ∧ extension.payload m p = .ok (h.drop 2) ∧
    ∃ next, extension.get m p 0 = .ok (.nums [next]) ∧ ExtChain next (hs.drop (i + 1)) up := by
  induction hc generalizing i with
  | upper => simp at hh
  | @header ty next bs hs up _ hx hc ih =>
    cases i with
    | succ i =>
      rw [starts, List.getElem?_cons_succ] at hi
      rw [List.getElem?_cons_succ] at hh
      exact ih (fun h hm => hp h (by simp [hm])) hi hh
    | zero =>
      have h2 := header_two hx
      have hpl := hp bs (by simp)
      rw [starts, List.getElem?_cons_zero, Option.some.injEq] at hi
      rw [List.getElem?_cons_zero, Option.some.injEq] at hh
      subst hi; subst hh
      have hlen : 2 ≤ (bs ++ (hs.flatten ++ data)).length := by rw [List.length_append]; omega
      refine ⟨List.prefix_append _ _, ?_, ?_, next.toNat, ?_, hc⟩
      · rw [(C35_sizes m _).1 hlen, plainSize_bits hlen, plainSize_append h2, hpl]
      · rw [C09_extension m _ hlen, plainSize_bits hlen, plainSize_append h2, ← hpl,
          List.drop_append_of_le_length h2, ← List.length_drop, List.take_left]
      · have hg := layoutOk_get (d := extension) (L := extensionLayout) (by decide +kernel) (k := 0) rfl m
          (bs ++ (hs.flatten ++ data)) hlen
        obtain ⟨l, rest, rfl, _⟩ := hx
        rw [hg]
        simp [Slot.read, intsAt, bitsAt_first]

example := C96_items .debug [0, 53, 0, 53, 0, 8, 0, 0] hop_udp (by decide) (i := 0) rfl rfl

/-- **C96**: `size_hint` holds: it promises no item and sets no limit. -/
theorem C96_size_hint (m : Mode) (buf : Buf) {items : List Buf} (_h : extensionIterable m buf = .ok items) :
    (iterableSizeHint buf).1 ≤ items.length ∧ ∀ u, (iterableSizeHint buf).2 = some u → items.length ≤ u :=
  ⟨Nat.zero_le _, fun _ h => by simp [iterableSizeHint] at h⟩

example : extensionIterable .debug [59, 0, 1, 4, 0, 0, 0, 0] = .ok [[59, 0, 1, 4, 0, 0, 0, 0]] := by decide +kernel

end Verif.Props
