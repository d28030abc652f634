import Verif.Proofs.Addresses

/-! # C72: address fields -/

namespace Verif.Props
open Spec

/-- **C72** for hardware addresses: the getter returns the address whose six bytes are at the
protocol's position, the setter writes exactly these bytes, and the getter then returns the address
that was set. -/
theorem C72_mac (e : AddrField) (he : e ∈ macFields) (m : Mode) (buf : Buf) (hsl : SliceLen buf.length)
    (hnew : (e.decl.newPacket buf).isSome = true) :
    (e.decl.fields[e.no]?).map (·.name) = some e.name ∧
    (∃ a, e.decl.getAs MacAddr.ofPrimitive m buf e.no = .ok a ∧ macBytes a = (buf.drop e.start).take 6) ∧
    ∀ a, ∃ new, e.decl.setAs MacAddr.toPrimitive m buf e.no a = .ok new ∧
      new = buf.take e.start ++ macBytes a ++ buf.drop (e.start + 6) ∧
      e.decl.getAs MacAddr.ofPrimitive m new e.no = .ok a := by
  have hok := List.all_eq_true.mp macFields_ok e he
  have hget : ∀ buf, (e.decl.newPacket buf).isSome = true → e.start + 6 ≤ buf.length ∧
      ∃ a, e.decl.getAs MacAddr.ofPrimitive m buf e.no = .ok a ∧
        macBytes a = (buf.drop e.start).take 6 := by
    intro buf hnew
    have hroom := addr_room hok buf hnew
    simp only [List.sum_cons, List.sum_nil] at hroom
    refine ⟨by omega, ?_⟩
    obtain ⟨bytes, rest, hl, hd⟩ := take_split (buf := buf) (o := e.start) (n := 6) (by omega)
    have hi := intsAt_bytes hd
    rw [hl] at hi
    match bytes, hl with
    | [a, b, c, d, x, y], _ =>
      refine ⟨⟨a, b, c, d, x, y⟩, ?_, by rw [hd]; rfl⟩
      unfold Decl.getAs
      rw [addr_get hok m buf hnew, show ([8, 8, 8, 8, 8, 8] : List Nat) = List.replicate 6 8 from rfl, hi]
      simp [MacAddr.ofPrimitive, MacAddr.new, ok_bind]
  refine ⟨?_, (hget buf hnew).2, ?_⟩
  · simp only [addrOk, Bool.and_eq_true] at hok; exact slotOk_name hok.2
  · refine addr_round (bytes := macBytes) (n := 6) (fun _ => rfl) ?_ hget buf hnew fun a => ?_
    · rintro ⟨⟩ ⟨⟩ h; simpa [macBytes] using h
    · refine addr_set hok m buf hsl hnew a.toPrimitive rfl (macBytes a) ?_
      simp [MacAddr.toPrimitive, macBytes, toBits_byte]

example : (ethernet.setAs MacAddr.toPrimitive .debug (List.replicate 14 0) 1 ⟨1, 2, 3, 4, 5, 6⟩).toOption =
    some [0, 0, 0, 0, 0, 0, 1, 2, 3, 4, 5, 6, 0, 0] := by decide +kernel

/-- **C72** for IPv4 addresses. -/
theorem C72_ipv4 (e : AddrField) (he : e ∈ v4Fields) (m : Mode) (buf : Buf) (hsl : SliceLen buf.length)
    (hnew : (e.decl.newPacket buf).isSome = true) :
    (e.decl.fields[e.no]?).map (·.name) = some e.name ∧
    (∃ a, e.decl.getAs Ipv4Addr.ofPrimitive m buf e.no = .ok a ∧
      a.octets.toList = (buf.drop e.start).take 4) ∧
    ∀ a, ∃ new, e.decl.setAs Ipv4Addr.toPrimitive m buf e.no a = .ok new ∧
      new = buf.take e.start ++ a.octets.toList ++ buf.drop (e.start + 4) ∧
      e.decl.getAs Ipv4Addr.ofPrimitive m new e.no = .ok a := by
  have hok := List.all_eq_true.mp v4Fields_ok e he
  have hget : ∀ buf, (e.decl.newPacket buf).isSome = true → e.start + 4 ≤ buf.length ∧
      ∃ a, e.decl.getAs Ipv4Addr.ofPrimitive m buf e.no = .ok a ∧
        a.octets.toList = (buf.drop e.start).take 4 := by
    intro buf hnew
    have hroom := addr_room hok buf hnew
    simp only [List.sum_cons, List.sum_nil] at hroom
    refine ⟨by omega, ?_⟩
    obtain ⟨bytes, rest, hl, hd⟩ := take_split (buf := buf) (o := e.start) (n := 4) (by omega)
    have hi := intsAt_bytes hd
    rw [hl] at hi
    match bytes, hl with
    | [a, b, c, d], _ =>
      refine ⟨⟨#v[a, b, c, d]⟩, ?_, by rw [hd]; rfl⟩
      unfold Decl.getAs
      rw [addr_get hok m buf hnew, show ([8, 8, 8, 8] : List Nat) = List.replicate 4 8 from rfl, hi]
      simp [Ipv4Addr.ofPrimitive, ok_bind]
  refine ⟨?_, (hget buf hnew).2, ?_⟩
  · simp only [addrOk, Bool.and_eq_true] at hok; exact slotOk_name hok.2
  · refine addr_round (fun a => by simp) ?_ hget buf hnew fun a => ?_
    · rintro ⟨a⟩ ⟨b⟩ h; congr 1; exact Vector.toList_inj.mp h
    · refine addr_set hok m buf hsl hnew a.toPrimitive rfl a.octets.toList ?_
      obtain ⟨⟨⟨l⟩, hl⟩⟩ := a
      match l, hl with
      | [a, b, c, d], _ => simp [Ipv4Addr.toPrimitive, toBits_byte]

example : (ipv4.setAs Ipv4Addr.toPrimitive .debug (List.replicate 20 0) 11 ⟨#v[192, 0, 2, 1]⟩).toOption =
    some (List.replicate 12 0 ++ [192, 0, 2, 1] ++ List.replicate 4 0) := by decide +kernel

/-- **C72** for IPv6 addresses. -/
theorem C72_ipv6 (e : AddrField) (he : e ∈ v6Fields) (m : Mode) (buf : Buf) (hsl : SliceLen buf.length)
    (hnew : (e.decl.newPacket buf).isSome = true) :
    (e.decl.fields[e.no]?).map (·.name) = some e.name ∧
    (∃ a, e.decl.getAs Ipv6Addr.ofPrimitive m buf e.no = .ok a ∧
      a.octets.toList = (buf.drop e.start).take 16) ∧
    ∀ a, ∃ new, e.decl.setAs Ipv6Addr.toPrimitive m buf e.no a = .ok new ∧
      new = buf.take e.start ++ a.octets.toList ++ buf.drop (e.start + 16) ∧
      e.decl.getAs Ipv6Addr.ofPrimitive m new e.no = .ok a := by
  have hok := List.all_eq_true.mp v6Fields_ok e he
  have hget : ∀ buf, (e.decl.newPacket buf).isSome = true → e.start + 16 ≤ buf.length ∧
      ∃ a, e.decl.getAs Ipv6Addr.ofPrimitive m buf e.no = .ok a ∧
        a.octets.toList = (buf.drop e.start).take 16 := by
    intro buf hnew
    have hroom := addr_room hok buf hnew
    simp only [List.sum_cons, List.sum_nil] at hroom
    refine ⟨by omega, ?_⟩
    obtain ⟨bytes, rest, hl, hd⟩ := take_split (buf := buf) (o := e.start) (n := 16) (by omega)
    match bytes, hl with
    | [a0, a1, a2, a3, a4, a5, a6, a7, a8, a9, a10, a11, a12, a13, a14, a15], _ =>
      refine ⟨⟨#v[a0, a1, a2, a3, a4, a5, a6, a7, a8, a9, a10, a11, a12, a13, a14, a15]⟩, ?_,
        by rw [hd]; rfl⟩
      unfold Decl.getAs
      obtain ⟨i1, d1⟩ := intsAt_word hd [16, 16, 16, 16, 16, 16, 16]
      obtain ⟨i2, d2⟩ := intsAt_word d1 [16, 16, 16, 16, 16, 16]
      obtain ⟨i3, d3⟩ := intsAt_word d2 [16, 16, 16, 16, 16]
      obtain ⟨i4, d4⟩ := intsAt_word d3 [16, 16, 16, 16]
      obtain ⟨i5, d5⟩ := intsAt_word d4 [16, 16, 16]
      obtain ⟨i6, d6⟩ := intsAt_word d5 [16, 16]
      obtain ⟨i7, d7⟩ := intsAt_word d6 [16]
      obtain ⟨i8, d8⟩ := intsAt_word d7 []
      rw [addr_get hok m buf hnew, i1, i2, i3, i4, i5, i6, i7, i8]
      simp only [intsAt, ok_bind, Ipv6Addr.ofPrimitive, word_high, word_low]
  refine ⟨?_, (hget buf hnew).2, ?_⟩
  · simp only [addrOk, Bool.and_eq_true] at hok; exact slotOk_name hok.2
  · refine addr_round (fun a => by simp) ?_ hget buf hnew fun a => ?_
    · rintro ⟨a⟩ ⟨b⟩ h; congr 1; exact Vector.toList_inj.mp h
    · refine addr_set hok m buf hsl hnew a.toPrimitive rfl a.octets.toList ?_
      obtain ⟨⟨⟨l⟩, hl⟩⟩ := a
      match l, hl with
      | [a0, a1, a2, a3, a4, a5, a6, a7, a8, a9, a10, a11, a12, a13, a14, a15], _ =>
        simp [Ipv6Addr.toPrimitive, Ipv6Addr.segments, toBits_word]

example : (redirect.setAs Ipv6Addr.toPrimitive .debug (List.replicate 40 0) 5
      ⟨#v[0x20, 1, 0xd, 0xb8, 0, 0, 0, 0, 0, 0, 0, 0, 0, 0, 0, 1]⟩).toOption =
    some (List.replicate 24 0 ++ [0x20, 1, 0xd, 0xb8] ++ List.replicate 11 0 ++ [1]) := by
  decide +kernel

/-- **C72**: the tables list every field of the crate's packets that is constructed from more than one
value. -/
theorem C72_complete (d : Decl) (hd : d ∈ crateDecls) (k : Nat) (f : Field) (hf : d.fields[k]? = some f)
    (args : List Prim) (ht : f.ty = .misc args) (hl : args.length ≠ 1) :
    ∃ e ∈ macFields ++ v4Fields ++ v6Fields, e.decl = d ∧ e.no = k := by
  have hk : k ∈ multiFields d := by
    simp only [multiFields, List.mem_filter, List.mem_range, hf, ht, bne_iff_ne, ne_eq]
    exact ⟨(List.getElem?_eq_some_iff.mp hf).1, hl⟩
  clear hf ht hl
  simp only [crateDecls, List.mem_cons, List.not_mem_nil, or_false] at hd
  have lst : ∀ d : Decl, ∀ ks, multiFields d = ks → k ∈ multiFields d → k ∈ ks :=
    fun d ks h1 h2 => h1 ▸ h2
  rcases hd with rfl | rfl | rfl | rfl | rfl | rfl | rfl | rfl | rfl | rfl | rfl | rfl | rfl | rfl |
    rfl | rfl | rfl | rfl | rfl | rfl | rfl | rfl | rfl | rfl | rfl | rfl | rfl
  · have := lst _ [0, 1] (by decide +kernel) hk
    simp only [List.mem_cons, List.not_mem_nil, or_false] at this
    rcases this with rfl | rfl
    · exact ⟨⟨ethernet, 0, "destination", 0⟩, by simp [macFields], rfl, rfl⟩
    · exact ⟨⟨ethernet, 1, "source", 6⟩, by simp [macFields], rfl, rfl⟩
  · exact absurd (lst _ [] (by decide +kernel) hk) (by simp)
  · have := lst _ [5, 6, 7, 8] (by decide +kernel) hk
    simp only [List.mem_cons, List.not_mem_nil, or_false] at this
    rcases this with rfl | rfl | rfl | rfl
    · exact ⟨⟨arp, 5, "sender_hw_addr", 8⟩, by simp [macFields], rfl, rfl⟩
    · exact ⟨⟨arp, 6, "sender_proto_addr", 14⟩, by simp [v4Fields], rfl, rfl⟩
    · exact ⟨⟨arp, 7, "target_hw_addr", 18⟩, by simp [macFields], rfl, rfl⟩
    · exact ⟨⟨arp, 8, "target_proto_addr", 24⟩, by simp [v4Fields], rfl, rfl⟩
  · exact absurd (lst _ [] (by decide +kernel) hk) (by simp)
  · have := lst _ [11, 12] (by decide +kernel) hk
    simp only [List.mem_cons, List.not_mem_nil, or_false] at this
    rcases this with rfl | rfl
    · exact ⟨⟨ipv4, 11, "source", 12⟩, by simp [v4Fields], rfl, rfl⟩
    · exact ⟨⟨ipv4, 12, "destination", 16⟩, by simp [v4Fields], rfl, rfl⟩
  · have := lst _ [6, 7] (by decide +kernel) hk
    simp only [List.mem_cons, List.not_mem_nil, or_false] at this
    rcases this with rfl | rfl
    · exact ⟨⟨ipv6, 6, "source", 8⟩, by simp [v6Fields], rfl, rfl⟩
    · exact ⟨⟨ipv6, 7, "destination", 24⟩, by simp [v6Fields], rfl, rfl⟩
  · exact absurd (lst _ [] (by decide +kernel) hk) (by simp)
  · exact absurd (lst _ [] (by decide +kernel) hk) (by simp)
  · exact absurd (lst _ [] (by decide +kernel) hk) (by simp)
  · exact absurd (lst _ [] (by decide +kernel) hk) (by simp)
  · exact absurd (lst _ [] (by decide +kernel) hk) (by simp)
  · exact absurd (lst _ [] (by decide +kernel) hk) (by simp)
  · exact absurd (lst _ [] (by decide +kernel) hk) (by simp)
  · exact absurd (lst _ [] (by decide +kernel) hk) (by simp)
  · exact absurd (lst _ [] (by decide +kernel) hk) (by simp)
  · exact absurd (lst _ [] (by decide +kernel) hk) (by simp)
  · exact absurd (lst _ [] (by decide +kernel) hk) (by simp)
  · exact absurd (lst _ [] (by decide +kernel) hk) (by simp)
  · exact absurd (lst _ [] (by decide +kernel) hk) (by simp)
  · exact absurd (lst _ [] (by decide +kernel) hk) (by simp)
  · exact absurd (lst _ [] (by decide +kernel) hk) (by simp)
  · have := lst _ [4] (by decide +kernel) hk
    simp only [List.mem_cons, List.not_mem_nil, or_false] at this
    exact ⟨⟨neighborSolicit, 4, "target_addr", 8⟩, by simp [v6Fields], rfl, this.symm⟩
  · have := lst _ [5] (by decide +kernel) hk
    simp only [List.mem_cons, List.not_mem_nil, or_false] at this
    exact ⟨⟨neighborAdvert, 5, "target_addr", 8⟩, by simp [v6Fields], rfl, this.symm⟩
  · have := lst _ [4, 5] (by decide +kernel) hk
    simp only [List.mem_cons, List.not_mem_nil, or_false] at this
    rcases this with rfl | rfl
    · exact ⟨⟨redirect, 4, "target_addr", 8⟩, by simp [v6Fields], rfl, rfl⟩
    · exact ⟨⟨redirect, 5, "dest_addr", 24⟩, by simp [v6Fields], rfl, rfl⟩
  · exact absurd (lst _ [] (by decide +kernel) hk) (by simp)
  · exact absurd (lst _ [] (by decide +kernel) hk) (by simp)
  · exact absurd (lst _ [] (by decide +kernel) hk) (by simp)

/-- The hypotheses hold of the source address of ethernet frames. -/
example : ∃ e ∈ macFields ++ v4Fields ++ v6Fields, e.decl = ethernet ∧ e.no = 1 :=
  C72_complete ethernet (by simp [crateDecls]) 1 _ rfl _ rfl (by decide)

end Verif.Props
