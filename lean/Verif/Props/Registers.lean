import Verif.Proofs.Registers
import Verif.Props.Fits
import Verif.Proofs.QuicPopulate

/-! # C93: the header of a packet is a record -/

namespace Verif.Props
open Spec

/-- **C93**. After any sequence of calls of setters (of integers, addresses, lists) and writes to the
payload that returns, the getter of every header field returns the value last given to its setter, with
integers reduced to their widths, or what it returned before if its setter was not called. The length of
the packet is the same. -/
theorem C93_registers (d : Decl) (hd : d ∈ crateDecls) (m : Mode) (w : Wire) (ws : List Write) (buf new : Buf)
    (hsl : SliceLen buf.length) (hnew : (d.newPacket buf).isSome = true)
    (h : runWrites d m ws buf = .ok new) :
    new.length = buf.length ∧ ∀ k f, d.fields[k]? = some f → isFixed f = true →
      (∀ v, lastWrite k ws = some v → d.get m new k = .ok (normField w f.ty v)) ∧
      (lastWrite k ws = none → d.get m new k = d.get m buf k) := by
  rw [newPacket_isSome] at hnew
  induction ws generalizing buf with
  | nil =>
    cases h
    exact ⟨rfl, fun k f hf hfix => ⟨fun v hv => (by cases hv), fun _ => rfl⟩⟩
  | cons c ws ih =>
    rw [runWrites] at h
    obtain ⟨b, hb, h⟩ := bind_eq_ok.mp h
    obtain ⟨h1, h2⟩ := write_step d hd m w c buf b hsl hnew hb
    obtain ⟨h3, h4⟩ := ih b (by rw [h1]; exact hsl) (by rw [h1]; exact hnew) h
    refine ⟨by omega, fun k f hf hfix => ?_⟩
    have hvec : f.ty.isVec = false := by
      simp only [isFixed, Bool.and_eq_true, Bool.not_eq_true'] at hfix; exact hfix.1
    obtain ⟨h5, h6⟩ := h4 k f hf hfix
    have h7 := h2 k f hf hvec
    rw [lastWrite_cons]
    cases hl : lastWrite k ws with
    | some v =>
      simp only [Option.some_or, Option.some.injEq, reduceCtorEq, false_implies, and_true]
      rintro v rfl
      exact h5 _ hl
    | none =>
      rw [h6 hl, h7]
      simp only [Option.none_or]
      cases c with
      | payload bytes => simp
      | set j v =>
        dsimp only
        by_cases hjk : j = k
        · rw [if_pos hjk, if_pos hjk]; simp
        · rw [if_neg hjk, if_neg hjk]; simp

/-- Setting the TCP data offset twice, then an option, then the payload, then the flags: the getters
return the last values, truncated to 4 and 9 bits. -/
example : ∃ new, runWrites tcp .debug [.set 4 (.num 5), .set 4 (.num 0x16),
      .set 10 (.list [.list [.nums [2], .nums [4], .nums [5, 180]]]), .payload [7, 8],
      .set 6 (.num 0x412)] (List.replicate 26 0) = .ok new ∧
    tcp.get .debug new 4 = .ok (.num 6) ∧ tcp.get .debug new 6 = .ok (.num 0x12) ∧
    new = List.replicate 12 0 ++ [0x60, 0x12] ++ List.replicate 6 0 ++ [2, 4, 5, 180, 7, 8] :=
  ⟨_, rfl, by decide +kernel, by decide +kernel, by decide +kernel⟩

/-- **C93**: setters of header fields never panic, in any sequence. -/
theorem C93_setters_return (d : Decl) (hd : d ∈ crateDecls) (m : Mode) (w : Wire) (ws : List Write) (buf : Buf)
    (hsl : SliceLen buf.length) (hnew : (d.newPacket buf).isSome = true)
    (hws : ∀ c ∈ ws, ∃ k f v, c = .set k v ∧ d.fields[k]? = some f ∧ isFixed f = true ∧
      typed w f.ty v) :
    ∃ new, runWrites d m ws buf = .ok new := by
  induction ws generalizing buf with
  | nil => exact ⟨buf, rfl⟩
  | cons c ws ih =>
    obtain ⟨k, f, v, rfl, hf, hfix, hty⟩ := hws c (by simp)
    have hr := crate_recordlike d hd
    have hvec : f.ty.isVec = false := by
      simp only [isFixed, Bool.and_eq_true, Bool.not_eq_true'] at hfix; exact hfix.1
    obtain ⟨b, h1, h2, -⟩ := C03_declared_setter d hr.good.acc k f hf
      (fixed_before hr.good.reg hr.last hf hvec)
      (regular_plain hr.good.reg f (List.mem_of_getElem? hf)) m w v hty buf hsl hnew
    obtain ⟨new, h3⟩ := ih b (by rw [h2]; exact hsl)
      (by rw [newPacket_isSome] at hnew ⊢; rw [h2]; exact hnew) (fun c hc => hws c (by simp [hc]))
    exact ⟨new, by rw [runWrites, show Write.run d m buf (.set k v) = .ok b from h1, ok_bind, h3]⟩

/-- Two setters of a UDP header. -/
example : (udp.newPacket (List.replicate 8 0)).isSome = true ∧
    runWrites udp .debug [.set 1 (.num 53), .set 0 (.num 0x10007)] (List.replicate 8 0) =
      .ok [0, 7, 0, 53, 0, 0, 0, 0] := by decide +kernel

/-- **C93**: the values of the header fields determine the header: two packets of the same type and
length on which all getters of header fields agree have the same header bytes. -/
theorem C93_header_determined (d : Decl) (hd : d ∈ crateDecls) (m : Mode) (a b : Buf)
    (hsla : SliceLen a.length) (hslb : SliceLen b.length)
    (ha : (d.newPacket a).isSome = true) (hb : (d.newPacket b).isSome = true)
    (h : ∀ k f, d.fields[k]? = some f → isFixed f = true → d.get m a k = d.get m b k) :
    a.take d.minSize = b.take d.minSize := by
  have hr := crate_recordlike d hd
  have hba := new_bits ha
  have hbb := new_bits hb
  have hbits : d.bits = bitsSum d.fields := rfl
  have key : ∀ k ≤ d.fields.length, (bitsOf a).take (bitsSum (d.fields.take k)) =
      (bitsOf b).take (bitsSum (d.fields.take k)) := by
    intro k
    induction k with
    | zero => intro _; simp [bitsSum]
    | succ k ih =>
      intro hk
      have hf : d.fields[k]? = some d.fields[k] := List.getElem?_eq_getElem (by omega)
      generalize d.fields[k] = f at hf
      have hs := bitsSum_take_succ hf
      have hle := bitsSum_field_le hf
      have ih := ih (by omega)
      cases hvec : f.ty.isVec with
      | true => rw [hs, isVec_bits hvec, Nat.add_zero]; exact ih
      | false =>
        have hfix := fixed_before hr.good.reg hr.last hf hvec
        have hpl := regular_plain hr.good.reg f (List.mem_of_getElem? hf)
        have hff : isFixed f = true := (fixed_take_succ hf hfix).2
        obtain ⟨v, hv⟩ := C07_fixed_getters_total d hr.good.acc k (by omega) hfix m a hsla ha
        have hv' := h k f hf hff ▸ hv
        have hflat : ∀ c, f.ty ≠ .vecPkt c := by
          intro c hc; rw [hc] at hvec; cases hvec
        have e1 := C86_field_partial d m a k f hf hpl hflat v hv
        have e2 := C86_field_partial d m b k f hf hpl hflat v hv'
        have hty := set_typed hf hvec e1 (noInner 0)
        have hel := encField_fixed_length hty hvec
        obtain ⟨a', a1, -, a3⟩ := C03_declared_setter d hr.good.acc k f hf hfix hpl m (noInner 0) v hty a hsla ha
        obtain ⟨b', b1, -, b3⟩ := C03_declared_setter d hr.good.acc k f hf hfix hpl m (noInner 0) v hty b hslb hb
        rw [e1] at a1; cases a1
        rw [e2] at b1; cases b1
        rw [fixedBits_eq] at a3 b3
        have cut : ∀ (l pre enc post : List Bool) (P n : Nat), l = pre ++ enc ++ post → pre.length = P →
            enc.length = n → l.take (P + n) = pre ++ enc := by
          rintro l pre enc post P n rfl rfl rfl
          rw [← List.length_append, List.take_left]
        rw [hs]
        rw [cut _ _ _ _ _ _ a3 (by rw [List.length_take, bitsOf_length]; omega) hel,
          cut _ _ _ _ _ _ b3 (by rw [List.length_take, bitsOf_length]; omega) hel, ih]
  have := key d.fields.length (Nat.le_refl _)
  rw [List.take_length, ← hbits] at this
  have hm : 8 * d.minSize = d.bits := by
    have := hr.good.bytes
    rw [Decl.minSize, if_pos this]; omega
  apply bitsOf_inj
  rw [bitsOf_take, bitsOf_take, hm, this]

/-- All four getters agree on two UDP packets with different payloads. -/
example : (List.range 4).all (fun k => decide (udp.get .debug [0, 7, 0, 53, 0, 9, 1, 2, 3] k =
    udp.get .debug [0, 7, 0, 53, 0, 9, 1, 2, 4, 5] k)) = true := by decide +kernel

end Verif.Props
