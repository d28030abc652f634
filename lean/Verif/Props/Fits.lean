import Verif.Proofs.Short
import Verif.Props.Options
import Verif.Props.Ndp

/-! # C92: writing succeeds exactly when the bytes fit -/

namespace Verif.Props
open Spec

/-- **C92**. On a mutable packet (so the buffer holds the fixed fields), `populate` of a struct whose
lengths agree with its length fields returns if and only if the buffer is as long as the encoding of the
struct; otherwise it panics. -/
theorem C92_populate_fits (d : Decl) (m : Mode) (E : Nat → Wire) (hreg : regular d = true)
    (hlast : vecsLast d.fields = true) (hlaw : LawfulElems m E d) (hstrict : StrictElems m E d)
    (vs : List Val) (htyped : typedFields E 0 d.fields vs) (hlens : lensAgree m E 0 [] d.fields vs)
    (hsz : SliceLen ((encFields E 0 d.fields vs).length / 8))
    (buf : Buf) (hsl : SliceLen buf.length) (hnew : d.newPacket buf ≠ none) :
    ((∃ new, d.populate m buf (.list vs) = .ok new) ↔
      (encFields E 0 d.fields vs).length ≤ 8 * buf.length) ∧
    (8 * buf.length < (encFields E 0 d.fields vs).length → d.populate m buf (.list vs) = panic) := by
  have hmin : d.minSize ≤ buf.length := by
    unfold Decl.newPacket at hnew
    split at hnew
    · assumption
    · exact absurd rfl hnew
  have hshort := populate_short hreg hlast hlaw hstrict htyped hlens hsz buf hsl hmin
  refine ⟨⟨fun ⟨new, h⟩ => ?_, fun h => ?_⟩, hshort⟩
  · apply Nat.le_of_not_lt
    intro hlt
    rw [hshort hlt] at h
    cases h
  · obtain ⟨new, h1, -⟩ := populate_enc hreg hlaw htyped hlens buf hsl h
    exact ⟨new, h1⟩

/-- The hypotheses on the struct's inner packet types hold of structs built in the same way (at any
depth). -/
theorem C92_inner_packets_strict (d : Decl) (m : Mode) (E : Nat → Wire) (hreg : regular d = true)
    (hlast : vecsLast d.fields = true) (hbytes : fixedBits d.fields % 8 = 0)
    (hlaw : LawfulElems m E d) (hstrict : StrictElems m E d) : Strict m d.codec (declWire m E d) := by
  rw [fixedBits_eq] at hbytes
  exact strict_codec hreg hlast hbytes hlaw hstrict

/-- An inner packet type: a length byte and as many bytes. -/
example : Strict .debug (Decl.codec ⟨[fprim "n" 8, fbytes "v" (lenNum 0 id)]⟩)
    (declWire .debug noInner ⟨[fprim "n" 8, fbytes "v" (lenNum 0 id)]⟩) :=
  C92_inner_packets_strict _ .debug noInner (by decide) (by decide) (by decide) (by
    intro i f c hf hc
    match i, hf with
    | 0, hf | 1, hf => cases hf; cases hc
    | n + 2, hf => simp at hf) (by
    intro i f c hf hc
    match i, hf with
    | 0, hf | 1, hf => cases hf; cases hc
    | n + 2, hf => simp at hf)

/-- The vectors come last in every packet type outside `quic.rs`, and all of these types are regular. -/
theorem C92_crate : crateDecls.all (fun d => regular d && vecsLast d.fields) = true := by
  decide +kernel

/-- UDP: 8 fixed bytes and the payload, in a buffer of 11 bytes. -/
example : (∃ new, udp.populate .debug (List.replicate 11 0)
      (.list [.num 1, .num 2, .num 11, .num 0, .nums [7, 8, 9]]) = .ok new) ∧
    udp.populate .debug (List.replicate 10 0)
      (.list [.num 1, .num 2, .num 11, .num 0, .nums [7, 8, 9]]) = panic := by
  have key : ∀ n, 8 ≤ n → n < 100 → _ := fun n h1 h2 => C92_populate_fits udp .debug noInner
    (by decide) (by decide) (by
      intro i f c hf hc
      match i, hf with
      | 0, hf | 1, hf | 2, hf | 3, hf | 4, hf => cases hf; cases hc
      | n + 5, hf => simp [udp] at hf) (by
      intro i f c hf hc
      match i, hf with
      | 0, hf | 1, hf | 2, hf | 3, hf | 4, hf => cases hf; cases hc
      | n + 5, hf => simp [udp] at hf)
    [.num 1, .num 2, .num 11, .num 0, .nums [7, 8, 9]]
    (by simp [typedFields, typed, udp, fprim, fpayloadRest])
    (by simp [lensAgree, udp, fprim, fpayloadRest, normField, encField])
    (by decide) (List.replicate n 0) (by unfold SliceLen; simp; omega)
    (by rw [Decl.newPacket, if_pos (by rw [List.length_replicate]; exact h1)]; simp)
  exact ⟨(key 11 (by omega) (by omega)).1.mpr (by decide), (key 10 (by omega) (by omega)).2 (by decide)⟩

/-- **C92**, TCP `set_options`: the exact result. It returns if and only if there are no options, or
their bytes fit both the room that the data offset allows and the buffer. -/
theorem C92_tcp_set_options (m : Mode) (buf : Buf) (os : List Opt) (hwf : ∀ o ∈ os, o.wf tcpSolo)
    (hsl : SliceLen buf.length) (h20 : 20 ≤ buf.length)
    (hsz : SliceLen (20 + (os.flatMap Opt.bytes).length)) :
    tcp.set m buf 10 (.list (os.map Opt.tcpVal)) =
      if (20 + (os.flatMap Opt.bytes).length ≤ 4 * bitsAt buf 96 4 ∨ os = []) ∧
        20 + (os.flatMap Opt.bytes).length ≤ buf.length
      then .ok (buf.take 20 ++ os.flatMap Opt.bytes ++ buf.drop (20 + (os.flatMap Opt.bytes).length))
      else panic := by
  have hlt := bitsAt_lt buf 96 4
  have hbf := before_fixed (d := tcp) (k := 10) (by decide) m buf
  rw [set_options_eq (d := tcp) (m := m) (buf := buf) (k := 10) (vs := os.map Opt.tcpVal) (c := 20)
    (bytes := os.flatMap Opt.bytes) tcpOption_inner (by decide) rfl rfl (by rw [hbf.1, hbf.2]; rfl) h20
    (by rw [fieldLen]; exact tcp_optLen m buf h20) (by rw [tcpOptionsLength_eq]; omega)
    (by
      intro v hv
      obtain ⟨o, ho, rfl⟩ := List.mem_map.mp hv
      exact tcpVal_valid m o (hwf o ho))
    (by
      rw [List.flatMap_map]
      congr 1
      funext o
      exact tcpVal_enc m o) hsl hsz, tcpOptionsLength_eq]
  have hpos : os = [] ∨ 0 < (os.flatMap Opt.bytes).length := by
    cases os with
    | nil => exact .inl rfl
    | cons o os => exact .inr (by simp [Opt.bytes])
  have hiff : ((os.flatMap Opt.bytes).length ≤ 4 * bitsAt buf 96 4 - 20 ∧
        20 + (os.flatMap Opt.bytes).length ≤ buf.length) ↔
      ((20 + (os.flatMap Opt.bytes).length ≤ 4 * bitsAt buf 96 4 ∨ os = []) ∧
        20 + (os.flatMap Opt.bytes).length ≤ buf.length) := by
    rcases hpos with rfl | hpos
    · simp
    · constructor
      · rintro ⟨h1, h2⟩; exact ⟨.inl (by omega), h2⟩
      · rintro ⟨h1 | rfl, h2⟩
        · exact ⟨by omega, h2⟩
        · simp at hpos
  simp only [hiff]

/-- The hypotheses hold of a maximum segment size option and a segment with data offset 6. -/
example := C92_tcp_set_options .debug (List.replicate 12 0 ++ [0x60] ++ List.replicate 17 0) [⟨2, some 4, [5, 180]⟩]
  (by simp [Opt.wf, tcpSolo]) (by decide) (by decide) (by decide)

/-- **C92**, IPv4 `set_options`: the exact result. -/
theorem C92_ipv4_set_options (m : Mode) (buf : Buf) (os : List Opt) (hwf : ∀ o ∈ os, o.wf ipv4Solo)
    (hsl : SliceLen buf.length) (h20 : 20 ≤ buf.length)
    (hsz : SliceLen (20 + (os.flatMap Opt.bytes).length)) :
    ipv4.set m buf 13 (.list (os.map Opt.ipv4Val)) =
      if (20 + (os.flatMap Opt.bytes).length ≤ 4 * bitsAt buf 4 4 ∨ os = []) ∧
        20 + (os.flatMap Opt.bytes).length ≤ buf.length
      then .ok (buf.take 20 ++ os.flatMap Opt.bytes ++ buf.drop (20 + (os.flatMap Opt.bytes).length))
      else panic := by
  have hlt := bitsAt_lt buf 4 4
  have hbf := before_fixed (d := ipv4) (k := 13) (by decide) m buf
  rw [set_options_eq (d := ipv4) (m := m) (buf := buf) (k := 13) (vs := os.map Opt.ipv4Val) (c := 20)
    (bytes := os.flatMap Opt.bytes) ipv4Option_inner (by decide) rfl rfl (by rw [hbf.1, hbf.2]; rfl) h20
    (by rw [fieldLen]; exact ipv4_optLen m buf h20) (by omega)
    (by
      intro v hv
      obtain ⟨o, ho, rfl⟩ := List.mem_map.mp hv
      exact ipv4Val_valid m o (hwf o ho))
    (by
      rw [List.flatMap_map]
      congr 1
      funext o
      exact ipv4Val_enc m o) hsl hsz]
  have hpos : os = [] ∨ 0 < (os.flatMap Opt.bytes).length := by
    cases os with
    | nil => exact .inl rfl
    | cons o os => exact .inr (by simp [Opt.bytes])
  have hiff : ((os.flatMap Opt.bytes).length ≤ 4 * bitsAt buf 4 4 - 20 ∧
        20 + (os.flatMap Opt.bytes).length ≤ buf.length) ↔
      ((20 + (os.flatMap Opt.bytes).length ≤ 4 * bitsAt buf 4 4 ∨ os = []) ∧
        20 + (os.flatMap Opt.bytes).length ≤ buf.length) := by
    rcases hpos with rfl | hpos
    · simp
    · constructor
      · rintro ⟨h1, h2⟩; exact ⟨.inl (by omega), h2⟩
      · rintro ⟨h1 | rfl, h2⟩
        · exact ⟨by omega, h2⟩
        · simp at hpos
  simp only [hiff]

example := C92_ipv4_set_options .debug ([0x46] ++ List.replicate 23 0) [⟨148, some 4, [0, 0]⟩]
  (by simp [Opt.wf, ipv4Solo]) (by decide) (by decide) (by decide)

/-- **C92**, `set_options` of neighbour discovery messages: the exact result. Only the buffer limits the
options. -/
theorem C92_ndp_set_options {e : Decl × List Slot × Nat} (he : e ∈ ndpMessages) (m : Mode) (buf : Buf)
    (os : List NdpOpt) (hw : ∀ o ∈ os, o.whole m) (hsl : SliceLen buf.length) (hb : e.2.2 ≤ buf.length)
    (hsz : SliceLen (e.2.2 + (os.flatMap NdpOpt.bytes).length)) :
    e.1.set m buf (optionsIdx e.2.1) (.list (os.map NdpOpt.val)) =
      if e.2.2 + (os.flatMap NdpOpt.bytes).length ≤ buf.length
      then .ok (buf.take e.2.2 ++ os.flatMap NdpOpt.bytes ++
        buf.drop (e.2.2 + (os.flatMap NdpOpt.bytes).length))
      else panic := by
  have h := ndpMessages_shape he
  have hsl' := hsl
  unfold SliceLen at hsl'
  rw [optionsIdx, set_options_eq (vs := os.map NdpOpt.val) (bytes := os.flatMap NdpOpt.bytes)
    (area := buf.length) ndpOption_inner (by decide) h.options rfl (h.curOff m buf) hb rfl (by omega)
    (by
      intro v hv
      obtain ⟨o, ho, rfl⟩ := List.mem_map.mp hv
      exact ndpVal_valid m o (hw o ho))
    (by
      rw [List.flatMap_map]
      congr 1
      funext o
      exact ndpVal_enc m o) hsl hsz]
  have hiff : ((os.flatMap NdpOpt.bytes).length ≤ buf.length ∧
        e.2.2 + (os.flatMap NdpOpt.bytes).length ≤ buf.length) ↔
      e.2.2 + (os.flatMap NdpOpt.bytes).length ≤ buf.length := by omega
  simp only [hiff]

/-- A segment with data offset 6: one option word fits, two do not; without room in the buffer, neither
does one. -/
example :
    (tcp.set .debug (List.replicate 12 0 ++ [0x60] ++ List.replicate 17 0) 10
      (.list ([⟨2, some 4, [5, 180]⟩].map Opt.tcpVal))).isOk = true ∧
    tcp.set .debug (List.replicate 12 0 ++ [0x60] ++ List.replicate 17 0) 10
      (.list ([⟨2, some 4, [5, 180]⟩, ⟨1, none, []⟩].map Opt.tcpVal)) = panic ∧
    tcp.set .debug (List.replicate 12 0 ++ [0x60] ++ List.replicate 10 0) 10
      (.list ([⟨2, some 4, [5, 180]⟩].map Opt.tcpVal)) = panic := by decide +kernel

end Verif.Props
