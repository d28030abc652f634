import Verif.Proofs.Ipv6Text
import Verif.Props.Debug
import Verif.Props.Registers

/-! # C95: the text of `{:?}` on a packet is unambiguous -/

namespace Verif
open Spec Props

/-- The name of a struct without its module. -/
def baseName (path : String) : List Char := (path.toList.reverse.takeWhile (· ≠ ':')).reverse

/-- The struct with this name, as written. -/
def crateStruct (name : List Char) : Option (List RawField) :=
  (crateSources.find? (fun e => baseName e.1 == name)).map (·.2.1)

/-- Fields that do not contain structs. -/
def flatOk (raw : List RawField) (f : Field) : Bool :=
  match fieldTy crateStruct raw f with
  | some (.flat t) => flatFits t f.ty
  | _ => false

theorem fits_of_flat {raw : List RawField} {f : Field} (h : flatOk raw f = true) : FieldFits crateStruct raw f := by
  unfold flatOk at h
  split at h
  · rename_i t ht
    exact ⟨.flat t, ht, rfl, h⟩
  · cases h

/-- Fields that contain structs read by `d`. -/
def structOk (raw : List RawField) (f : Field) (d : Decl) : Bool :=
  match fieldTy crateStruct raw f with
  | some (.structs name fields) => DebugTy.named (.structs name fields) && namedFits fields d.fields
  | _ => false

theorem fits_of_struct {raw : List RawField} {f : Field} {c : Codec} (d : Decl) (hty : f.ty = .vecPkt c)
    (hc : c.fromPacket = d.fromPacket) (h : structOk raw f d = true) : FieldFits crateStruct raw f := by
  unfold structOk at h
  split at h
  · simp only [Bool.and_eq_true] at h
    exact ⟨_, by assumption, h.1, by rw [hty]; exact ⟨d, hc, h.2⟩⟩
  · cases h

/-- The field has no structs, or structs that fit their text. -/
def VecOk (raw : List RawField) (f : Field) : Prop :=
  ∀ c, f.ty = .vecPkt c → ∃ d : Decl, c.fromPacket = d.fromPacket ∧ structOk raw f d = true

/-- The type is not a vector of packets. -/
def notPkts : Ty → Bool
  | .vecPkt _ => false
  | _ => true

theorem vecOk_of {raw : List RawField} {f : Field} (h : notPkts f.ty = true) : VecOk raw f := by
  intro c hc
  rw [hc] at h
  cases h

theorem vecOk_codec {raw : List RawField} {f : Field} (d : Decl) (hty : f.ty = .vecPkt d.codec)
    (h : structOk raw f d = true) : VecOk raw f := by
  intro c hc
  rw [hty] at hc
  cases hc
  exact ⟨d, rfl, h⟩

theorem vecOk_fields {raw : List RawField} {fs : List Field} (h : fs.all (fun f => notPkts f.ty) = true) :
    ∀ f ∈ fs, VecOk raw f := fun f hf => vecOk_of (List.all_eq_true.mp h f hf)

theorem crate_flat : crateSources.all (fun e => e.2.2.fields.all fun f => !notPkts f.ty || flatOk e.2.1 f) = true := by
  decide +kernel

theorem vecOk_skip {raw : List RawField} {f : Field} {fs : List Field} (h : notPkts f.ty = true)
    (hs : ∀ g ∈ fs, VecOk raw g) : ∀ g ∈ f :: fs, VecOk raw g :=
  List.forall_mem_cons.mpr ⟨vecOk_of h, hs⟩

theorem vecOk_pkts {raw : List RawField} {f : Field} {fs : List Field} (d : Decl) (hty : f.ty = .vecPkt d.codec)
    (h : structOk raw f d = true) (hs : ∀ g ∈ fs, VecOk raw g) : ∀ g ∈ f :: fs, VecOk raw g :=
  List.forall_mem_cons.mpr ⟨vecOk_codec d hty h, hs⟩

theorem ipv4_vecOk : ∀ f ∈ ipv4.fields, VecOk Source.srcIpv4 f := by
  iterate 13 refine vecOk_skip rfl ?_
  exact vecOk_pkts ipv4Option rfl (by decide +kernel) (vecOk_fields rfl)

theorem tcp_vecOk : ∀ f ∈ tcp.fields, VecOk Source.srcTcp f := by
  iterate 10 refine vecOk_skip rfl ?_
  exact vecOk_pkts tcpOption rfl (by decide +kernel) (vecOk_fields rfl)

theorem routerSolicit_vecOk : ∀ f ∈ routerSolicit.fields, VecOk Source.srcIcmpv6RouterSolicit f := by
  iterate 5 refine vecOk_skip rfl ?_
  exact vecOk_pkts ndpOption rfl (by decide +kernel) (List.forall_mem_nil _)

theorem routerAdvert_vecOk : ∀ f ∈ routerAdvert.fields, VecOk Source.srcIcmpv6RouterAdvert f := by
  iterate 9 refine vecOk_skip rfl ?_
  exact vecOk_pkts ndpOption rfl (by decide +kernel) (List.forall_mem_nil _)

theorem neighborSolicit_vecOk : ∀ f ∈ neighborSolicit.fields, VecOk Source.srcIcmpv6NeighborSolicit f := by
  iterate 6 refine vecOk_skip rfl ?_
  exact vecOk_pkts ndpOption rfl (by decide +kernel) (List.forall_mem_nil _)

theorem neighborAdvert_vecOk : ∀ f ∈ neighborAdvert.fields, VecOk Source.srcIcmpv6NeighborAdvert f := by
  iterate 7 refine vecOk_skip rfl ?_
  exact vecOk_pkts ndpOption rfl (by decide +kernel) (List.forall_mem_nil _)

theorem redirect_vecOk : ∀ f ∈ redirect.fields, VecOk Source.srcIcmpv6Redirect f := by
  iterate 7 refine vecOk_skip rfl ?_
  exact vecOk_pkts ndpOption rfl (by decide +kernel) (List.forall_mem_nil _)

theorem gre_vecOk : ∀ f ∈ gre.fields, VecOk Source.srcGre f := by
  iterate 9 refine vecOk_skip rfl ?_
  exact vecOk_pkts u16BE rfl (by decide +kernel) (vecOk_pkts u16BE rfl (by decide +kernel) (vecOk_pkts u32BE rfl (by decide +kernel) (vecOk_pkts u32BE rfl (by decide +kernel) (vecOk_fields rfl))))

theorem crate_cons {P : String × List RawField × Decl → Prop} {a : String × List RawField × Decl}
    {l : List (String × List RawField × Decl)} (h : P a) (hs : ∀ e ∈ l, P e) : ∀ e ∈ a :: l, P e :=
  List.forall_mem_cons.mpr ⟨h, hs⟩

theorem crate_vec : ∀ e ∈ crateSources, ∀ f ∈ e.2.2.fields, VecOk e.2.1 f := by
  refine crate_cons (vecOk_fields rfl) ?_
  refine crate_cons (vecOk_fields rfl) ?_
  refine crate_cons (vecOk_fields rfl) ?_
  refine crate_cons ipv4_vecOk ?_
  refine crate_cons (vecOk_fields rfl) ?_
  refine crate_cons (vecOk_fields rfl) ?_
  refine crate_cons (vecOk_fields rfl) ?_
  refine crate_cons (vecOk_fields rfl) ?_
  refine crate_cons (vecOk_fields rfl) ?_
  refine crate_cons (vecOk_fields rfl) ?_
  refine crate_cons tcp_vecOk ?_
  refine crate_cons (vecOk_fields rfl) ?_
  refine crate_cons (vecOk_fields rfl) ?_
  refine crate_cons (vecOk_fields rfl) ?_
  refine crate_cons (vecOk_fields rfl) ?_
  refine crate_cons (vecOk_fields rfl) ?_
  refine crate_cons (vecOk_fields rfl) ?_
  refine crate_cons (vecOk_fields rfl) ?_
  refine crate_cons (vecOk_fields rfl) ?_
  refine crate_cons routerSolicit_vecOk ?_
  refine crate_cons routerAdvert_vecOk ?_
  refine crate_cons neighborSolicit_vecOk ?_
  refine crate_cons neighborAdvert_vecOk ?_
  refine crate_cons redirect_vecOk ?_
  refine crate_cons gre_vecOk ?_
  refine crate_cons (vecOk_fields rfl) ?_
  refine crate_cons (vecOk_fields rfl) ?_
  refine crate_cons (vecOk_fields rfl) ?_
  refine crate_cons (vecOk_fields rfl) ?_
  refine crate_cons (vecOk_fields rfl) ?_
  refine crate_cons (vecOk_fields rfl) ?_
  refine crate_cons (vecOk_fields rfl) ?_
  refine crate_cons (vecOk_fields rfl) ?_
  refine crate_cons (vecOk_fields rfl) ?_
  refine crate_cons (vecOk_fields rfl) ?_
  refine crate_cons (vecOk_fields rfl) ?_
  refine crate_cons (vecOk_fields rfl) ?_
  refine crate_cons (vecOk_fields rfl) ?_
  refine crate_cons (vecOk_fields rfl) ?_
  refine crate_cons (vecOk_fields rfl) ?_
  refine crate_cons (vecOk_fields rfl) ?_
  refine crate_cons (vecOk_fields rfl) ?_
  refine crate_cons (vecOk_fields rfl) ?_
  refine crate_cons (vecOk_fields rfl) ?_
  refine crate_cons (vecOk_fields rfl) ?_
  refine crate_cons (vecOk_fields rfl) ?_
  refine crate_cons (vecOk_fields rfl) ?_
  refine crate_cons (vecOk_fields rfl) ?_
  refine crate_cons (vecOk_fields rfl) ?_
  refine crate_cons (vecOk_fields rfl) ?_
  refine crate_cons (vecOk_fields rfl) ?_
  refine crate_cons (vecOk_fields rfl) ?_
  refine crate_cons (vecOk_fields rfl) ?_
  exact List.forall_mem_nil _

theorem crate_fits (e : String × List RawField × Decl) (he : e ∈ crateSources) :
    ∀ f ∈ e.2.2.fields, FieldFits crateStruct e.2.1 f := by
  intro f hf
  have h1 := List.all_eq_true.mp (List.all_eq_true.mp crate_flat e he) f hf
  cases hn : notPkts f.ty with
  | true => rw [hn] at h1; exact fits_of_flat (by simpa using h1)
  | false =>
    cases hty : f.ty with
    | vecPkt c =>
      obtain ⟨d, h2, h3⟩ := crate_vec e he f hf c hty
      exact fits_of_struct d hty h2 h3
    | prim p => rw [hty] at hn; cases hn
    | misc ps => rw [hty] at hn; cases hn
    | vecPrim p => rw [hty] at hn; cases hn

/-- C95: the text of the standard library for IPv6 addresses is as the specification wants it. -/
theorem C95_ipv6_text : SixText sixStd := sixStd_text

example : sixStd [0, 0, 0, 0, 0, 0, 0, 1] = "::1".toList := by decide +kernel
example : sixStd [0x2001, 0xdb8, 0, 0, 1, 0, 0, 1] = "2001:db8::1:0:0:1".toList := by decide +kernel
example : sixStd [0x2001, 0xdb8, 0, 1, 1, 1, 1, 1] = "2001:db8:0:1:1:1:1:1".toList := by decide +kernel
example : sixStd [0, 0, 0, 0, 0, 0xffff, 0xc000, 0x201] = "::ffff:192.0.2.1".toList := by decide +kernel
example : sixStd [0xfe80, 0, 0, 0, 0, 0, 0, 0] = "fe80::".toList := by decide +kernel
example : sixStd [0, 0, 0, 0, 0, 0, 0, 0] = "::".toList := by decide +kernel

/-- `{:?}` of an ethernet frame. -/
example : ethernet.debugText "Ethernet" false (debugValue sixStd crateStruct Source.srcEthernet) .debug
    [0xff, 0xff, 0xff, 0xff, 0xff, 0xff, 2, 0, 0, 0, 0, 0x1a, 8, 0, 9, 9] =
    .ok ("EthernetPacket { destination : ff:ff:ff:ff:ff:ff, source : 02:00:00:00:00:1a, " ++
      "ethertype : EtherType(2048),  }").toList := by decide +kernel

/-- `{:?}` of an IPv4 packet with two options. -/
example : ipv4.debugText "Ipv4" true (debugValue sixStd crateStruct Source.srcIpv4) .release
    [0x46, 0, 0, 24, 0, 1, 0x40, 0, 64, 17, 0, 0, 192, 168, 0, 1, 8, 8, 8, 8, 1, 0x83, 3, 7] =
    .ok ("MutableIpv4Packet { version : 4, header_length : 6, dscp : 0, ecn : 0, total_length : 24, " ++
      "identification : 1, flags : 2, fragment_offset : 0, ttl : 64, " ++
      "next_level_protocol : IpNextHeaderProtocol(17), checksum : 0, source : 192.168.0.1, " ++
      "destination : 8.8.8.8, options : [Ipv4Option { copied: 0, class: 0, number: Ipv4OptionNumber(1), " ++
      "length: [], data: [] }, Ipv4Option { copied: 1, class: 0, number: Ipv4OptionNumber(3), " ++
      "length: [3], data: [7] }],  }").toList := by decide +kernel

/-- C95: every value that a getter of the crate's packets returns has the type of its field and is
printed in the form of this type. -/
theorem C95_typed (six : List Nat → List Char) (e : String × List RawField × Decl) (he : e ∈ crateSources)
    (m : Mode) (buf : Buf) (k : Nat) (f : Field) (hf : e.2.2.fields[k]? = some f) (v : Val)
    (hv : e.2.2.get m buf k = .ok v) :
    ∃ t, fieldTy crateStruct e.2.1 f = some t ∧ ValueForm six t v (debugValue six crateStruct e.2.1 f v) := by
  obtain ⟨t, h1, _, h3⟩ := crate_fits e he f (List.mem_of_getElem? hf)
  rw [Decl.get, hf] at hv
  obtain ⟨x, hx⟩ := value_typed six h3 hv
  exact ⟨t, h1, by rw [debugValue_some h1 hx]; exact value_form hx⟩

example := C95_typed sixStd ("udp::Udp", Source.srcUdp, udp) (by simp [crateSources]) .debug
  [0, 53, 0, 53, 0, 8, 0, 0] 0 (fprim "source" 16) rfl (.num 53) (by decide +kernel)

/-- C95: two packets of one type with the same text have the same values in all fields but the
payload. -/
theorem C95_unambiguous (six : List Nat → List Char) (h6 : SixText six) (e : String × List RawField × Decl)
    (he : e ∈ crateSources) (base : String) (hb : Plain base.toList) (mutable : Bool) (m : Mode) (buf buf' : Buf)
    (t : List Char)
    (h : e.2.2.debugText base mutable (debugValue six crateStruct e.2.1) m buf = .ok t)
    (h' : e.2.2.debugText base mutable (debugValue six crateStruct e.2.1) m buf' = .ok t) :
    ∀ (k : Nat) (f : Field), e.2.2.fields[k]? = some f → f.payload = false →
      e.2.2.get m buf k = e.2.2.get m buf' k := by
  have hn := (C79_crate e he).2
  rw [C79_text e.2.2 base mutable _ m buf hb hn] at h
  rw [C79_text e.2.2 base mutable _ m buf' hb hn] at h'
  rw [List.range_eq_range'] at h h'
  cases hx : fieldTexts (debugValue six crateStruct e.2.1)
      (e.2.2.fields.zip ((List.range' 0 e.2.2.fields.length).map (e.2.2.get m buf))) with
  | error x => rw [hx] at h; cases h
  | ok x =>
    cases hx' : fieldTexts (debugValue six crateStruct e.2.1)
        (e.2.2.fields.zip ((List.range' 0 e.2.2.fields.length).map (e.2.2.get m buf'))) with
    | error x' => rw [hx'] at h'; cases h'
    | ok x' =>
      rw [hx] at h
      rw [hx'] at h'
      have he1 := Except.ok.inj (h.trans h'.symm)
      have he2 := List.append_cancel_left (List.append_cancel_left (List.append_cancel_left
        (List.append_cancel_left he1)))
      intro k f hf hp
      have := fieldTexts_read h6 e.2.2.fields 0 x x' _ _ rfl (crate_fits e he) hx hx' he2 k f hf hp
      simpa using this

/-- Two datagrams that differ in their payload only. -/
example := C95_unambiguous sixStd C95_ipv6_text ("udp::Udp", Source.srcUdp, udp) (by simp [crateSources])
  "Udp" (by decide) false .debug [0, 53, 0, 53, 0, 9, 0, 0, 1] [0, 53, 0, 53, 0, 9, 0, 0, 2]
  "UdpPacket { source : 53, destination : 53, length : 9, checksum : 0,  }".toList (by decide +kernel)
  (by decide +kernel)

/-- C95: the text is the same exactly when the fields but the payload are. -/
theorem C95_iff (six : List Nat → List Char) (h6 : SixText six) (e : String × List RawField × Decl)
    (he : e ∈ crateSources) (base : String) (hb : Plain base.toList) (mutable : Bool) (m : Mode) (buf buf' : Buf)
    (t : List Char)
    (h : e.2.2.debugText base mutable (debugValue six crateStruct e.2.1) m buf = .ok t) :
    e.2.2.debugText base mutable (debugValue six crateStruct e.2.1) m buf' = .ok t ↔
      ∀ (k : Nat) (f : Field), e.2.2.fields[k]? = some f → f.payload = false →
        e.2.2.get m buf k = e.2.2.get m buf' k := by
  constructor
  · exact C95_unambiguous six h6 e he base hb mutable m buf buf' t h
  · intro hg
    rw [← C79_payload_hidden e.2.2 base mutable _ m buf buf' hb (C79_crate e he).2 hg]
    exact h

example := C95_iff sixStd C95_ipv6_text ("udp::Udp", Source.srcUdp, udp) (by simp [crateSources])
  "Udp" (by decide) false .debug [0, 53, 0, 53, 0, 9, 0, 0, 1] [0, 53, 0, 54, 0, 9, 0, 0, 1]
  "UdpPacket { source : 53, destination : 53, length : 9, checksum : 0,  }".toList (by decide +kernel)

theorem fixed_not_payload : ∀ e ∈ crateSources, ∀ f ∈ e.2.2.fields, isFixed f = true → f.payload = false := by
  decide +kernel

/-- C95: two packets with the same text have the same header bytes. -/
theorem C95_header (six : List Nat → List Char) (h6 : SixText six) (e : String × List RawField × Decl)
    (he : e ∈ crateSources) (hd : e.2.2 ∈ crateDecls) (base : String) (hb : Plain base.toList) (mutable : Bool)
    (m : Mode) (buf buf' : Buf) (hsl : SliceLen buf.length) (hsl' : SliceLen buf'.length)
    (hnew : (e.2.2.newPacket buf).isSome = true) (hnew' : (e.2.2.newPacket buf').isSome = true) (t : List Char)
    (h : e.2.2.debugText base mutable (debugValue six crateStruct e.2.1) m buf = .ok t)
    (h' : e.2.2.debugText base mutable (debugValue six crateStruct e.2.1) m buf' = .ok t) :
    buf.take e.2.2.minSize = buf'.take e.2.2.minSize := by
  refine C93_header_determined e.2.2 hd m buf buf' hsl hsl' hnew hnew' ?_
  intro k f hf hfix
  exact C95_unambiguous six h6 e he base hb mutable m buf buf' t h h' k f hf
    (fixed_not_payload e he f (List.mem_of_getElem? hf) hfix)

example := C95_header sixStd C95_ipv6_text ("udp::Udp", Source.srcUdp, udp) (by simp [crateSources])
  (by simp [crateDecls]) "Udp" (by decide) false .debug [0, 53, 0, 53, 0, 9, 0, 0, 1]
  [0, 53, 0, 53, 0, 9, 0, 0, 2] (by decide) (by decide) (by decide) (by decide)
  "UdpPacket { source : 53, destination : 53, length : 9, checksum : 0,  }".toList (by decide +kernel)
  (by decide +kernel)

end Verif
