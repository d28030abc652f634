import Verif.Proofs.Again

/-!
# C98: writing the same thing twice

Repeating a write that succeeded — a setter, or `populate`, with the same value — succeeds again and
changes no byte. So a retry after a success is harmless, also where a vector is shorter than the length in
the header says and part of its area keeps what the buffer had.
-/

namespace Verif.Props
open Verif Verif.Spec

theorem inner_again {d : Decl} (h : Inner d) (m : Mode) : AgainC m d.codec :=
  againC h.reg h.loc (h.noWrap m) (fun f hf c hc => absurd hc (h.flat f hf c))
    (fun f hf c hc => absurd hc (h.flat f hf c)) h.closed h.bytes

theorem good_again {d : Decl} (h : GoodDecl d) (m : Mode) :
    ∀ f ∈ d.fields, ∀ c, f.ty = .vecPkt c → AgainC m c := by
  intro f hf c hc
  obtain ⟨e, he, rfl⟩ := (h.fields f hf).inner c hc
  exact inner_again he m

/-- **C98**, `populate`: when it returns, the same `populate` on the result returns and changes no byte.
For every packet type of the crate (`quic.rs` aside), every value — also one whose vectors are shorter or
longer than the lengths in its own header say — and every buffer. -/
theorem C98_populate (m : Mode) (d : Decl) (hd : d ∈ crateDecls) (buf new : Buf) (v : Val)
    (hs : SliceLen buf.length) (h : d.populate m buf v = .ok new) : d.populate m new v = .ok new := by
  have hg := crateDecls_good d hd
  exact populate_again hg.reg hg.local (hg.noWrap m) (hg.confined m) (good_again hg m) hs h

/-- **C98**, setters: when `set_<field>(v)` returns, doing it again returns and changes no byte. -/
theorem C98_set (m : Mode) (d : Decl) (hd : d ∈ crateDecls) (buf new : Buf) (k : Nat) (v : Val)
    (hs : SliceLen buf.length) (hk : k < d.fields.length) (h : d.set m buf k v = .ok new) :
    d.set m new k v = .ok new := by
  have hg := crateDecls_good d hd
  have hf : d.fields[k]? = some d.fields[k] := List.getElem?_eq_getElem hk
  obtain ⟨sizes, sz, h1, -, h3, -⟩ := set_within hg.reg hg.local (hg.noWrap m) (hg.confined m) hs hf h
  exact set_again hg.reg hg.local (hg.noWrap m) (hg.confined m) (good_again hg m) hs hf h h1 h3
    (Agree.refl _ _) (fun _ _ => rfl)

/-- A TCP segment with room for eight bytes of options, populated with a data offset of 7 and one option
of four bytes: the other four bytes of the options area keep what the buffer had there. -/
def tcpFive : Val := .list [.num 80, .num 443, .num 1, .num 2, .num 7, .num 0, .num 16, .num 9, .num 0,
  .num 0, .list [.list [.nums [2], .nums [4], .nums [5, 0xB4]]], .nums [0xAA, 0xBB]]

/-- What `populate` leaves in a buffer of 0xEE bytes, and again. -/
def tcpFiveBytes : Buf := [0, 80, 1, 187, 0, 0, 0, 1, 0, 0, 0, 2, 0x70, 16, 0, 9, 0, 0, 0, 0] ++
  [2, 4, 5, 0xB4, 0xEE, 0xEE, 0xEE, 0xEE] ++ [0xAA, 0xBB, 0xEE]

example : tcp ∈ crateDecls ∧ SliceLen (List.replicate 31 (0xEE : UInt8)).length ∧
    tcp.populate .debug (List.replicate 31 0xEE) tcpFive = .ok tcpFiveBytes ∧
    tcp.populate .debug tcpFiveBytes tcpFive = .ok tcpFiveBytes :=
  ⟨by simp [crateDecls], by unfold SliceLen; decide +kernel, by decide +kernel, by decide +kernel⟩

/-- Setting only the options of that segment. -/
example : (10 : Nat) < tcp.fields.length ∧
    tcp.set .release tcpFiveBytes 10 (.list [.list [.nums [1], .nums [], .nums []],
      .list [.nums [1], .nums [], .nums []]]) =
    .ok (tcpFiveBytes.take 20 ++ [1, 1] ++ tcpFiveBytes.drop 22) ∧
    tcp.set .release (tcpFiveBytes.take 20 ++ [1, 1] ++ tcpFiveBytes.drop 22) 10
      (.list [.list [.nums [1], .nums [], .nums []], .list [.nums [1], .nums [], .nums []]]) =
    .ok (tcpFiveBytes.take 20 ++ [1, 1] ++ tcpFiveBytes.drop 22) := by decide +kernel

end Verif.Props
