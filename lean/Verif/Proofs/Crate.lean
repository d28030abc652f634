import Verif.Proofs.VectorFields

/-! Facts about the crate's own declarations that the generic theorems need. -/

namespace Verif
open Spec

/-- A field whose integers and length expression are small, local and terminating. -/
structure GoodField (f : Field) : Prop where
  small : smallTy f.ty = true
  len : ∀ e, f.len = some e → e.local ∧ e.small ∧ e.ends
  inner : ∀ c, f.ty = .vecPkt c → ∃ d, Inner d ∧ c = d.codec

/-- A declaration all of whose fields are good, with at least one byte of fixed fields. -/
structure GoodDecl (d : Decl) : Prop where
  acc : d.accepted = true
  reg : regular d = true
  fields : ∀ f ∈ d.fields, GoodField f
  bytes : d.bits % 8 = 0
  pos : 8 ≤ d.bits
  bound : d.bits < 2 ^ 60
  count : d.fields.length ≤ 2 ^ 20

theorem GoodDecl.noWrap {d : Decl} (h : GoodDecl d) (m : Mode) : NoWrap m d :=
  noWrap_of_small m (fun f hf => ⟨(h.fields f hf).small, fun e he => ((h.fields f hf).len e he).2.1⟩)
    h.bound h.count

theorem GoodDecl.lens_small {d : Decl} (h : GoodDecl d) (m : Mode) (b : Buf) (k : Nat) (sizes : List Nat)
    (hl : (d.before m b k).lens = sizes.map .ok) : d.bits / 8 + sizes.sum < 2 ^ 63 :=
  Verif.lens_small m
    (fun f hf => ⟨(h.fields f hf).small, fun e he => ((h.fields f hf).len e he).2.1⟩) h.bound h.count
    b k sizes hl

theorem GoodDecl.local {d : Decl} (h : GoodDecl d) : localLens d.fields :=
  fun f hf e he => ((h.fields f hf).len e he).1

theorem GoodDecl.ends {d : Decl} (h : GoodDecl d) (m : Mode) : endFields m d.fields := by
  intro f hf
  refine ⟨fun e he => ((h.fields f hf).len e he).2.2, fun c hc => ?_⟩
  obtain ⟨d', hd', rfl⟩ := (h.fields f hf).inner c hc
  exact hd'.codecEnds m

theorem GoodDecl.confined {d : Decl} (h : GoodDecl d) (m : Mode) :
    ∀ f ∈ d.fields, ∀ c, f.ty = .vecPkt c → ConfinedC m c := by
  intro f hf c hc
  obtain ⟨d', hd', rfl⟩ := (h.fields f hf).inner c hc
  exact hd'.confined m

theorem good_fprim {s : String} {n : Nat} (h : n ≤ 32) : GoodField (fprim s n) where
  small := by simp [smallTy, fprim, h]
  len := by intro e he; cases he
  inner := by intro c hc; cases hc

theorem good_fmisc {s : String} {ns : List Nat} (h : ns.all (· ≤ 32) = true) : GoodField (fmisc s ns) where
  small := by
    simp only [smallTy, fmisc, List.all_map, List.all_eq_true] at h ⊢
    intro n hn
    have := h n hn
    simpa using this
  len := by intro e he; cases he
  inner := by intro c hc; cases hc

theorem good_frest {s : String} : GoodField (frest s) where
  small := rfl
  len := by intro e he; cases he
  inner := by intro c hc; cases hc

theorem good_fpayloadRest {s : String} : GoodField (fpayloadRest s) where
  small := rfl
  len := by intro e he; cases he
  inner := by intro c hc; cases hc

theorem good_fbytes {s : String} {e : LenExpr} (h : e.local ∧ e.small ∧ e.ends) :
    GoodField (fbytes s e) where
  small := rfl
  len := by intro e he; cases he; exact h
  inner := by intro c hc; cases hc

theorem good_fpayload {s : String} {e : LenExpr} (h : e.local ∧ e.small ∧ e.ends) :
    GoodField (fpayload s e) where
  small := rfl
  len := by intro e he; cases he; exact h
  inner := by intro c hc; cases hc

theorem good_vecPkt {s : String} {d : Decl} (hd : Inner d) {e : LenExpr}
    (h : e.local ∧ e.small ∧ e.ends) :
    GoodField { name := s, ty := .vecPkt d.codec, len := some e } where
  small := rfl
  len := by intro e he; cases he; exact h
  inner := by intro c hc; cases hc; exact ⟨d, hd, rfl⟩

theorem good_vecPktRest {s : String} {d : Decl} (hd : Inner d) :
    GoodField { name := s, ty := .vecPkt d.codec } where
  small := rfl
  len := by intro e he; cases he
  inner := by intro c hc; cases hc; exact ⟨d, hd, rfl⟩

theorem lenConst_good {n : Nat} (h : n < 2 ^ 40) :
    (lenConst n).local ∧ (lenConst n).small ∧ (lenConst n).ends :=
  ⟨lenConst_local _, lenConst_small h, lenConst_ends _⟩

theorem lenNum_good {i : Nat} {f : Nat → Nat} (h : ∀ n, n < 2 ^ 32 → f n < 2 ^ 40) :
    (lenNum i f).local ∧ (lenNum i f).small ∧ (lenNum i f).ends :=
  ⟨lenNum_local _ _, lenNum_small _ h, lenNum_ends _ _⟩

theorem good_fpayload0 {s : String} : GoodField (fpayload s (lenConst 0)) :=
  good_fpayload (lenConst_good (by decide))

theorem forall_nil {P : Field → Prop} : ∀ f ∈ ([] : List Field), P f := by simp

theorem forall_cons {P : Field → Prop} {g : Field} {fs : List Field} (h : P g) (hs : ∀ f ∈ fs, P f) :
    ∀ f ∈ g :: fs, P f := by
  intro f hf
  rcases List.mem_cons.mp hf with rfl | hf
  · exact h
  · exact hs f hf

/-- Discharge the facts about simple fields. -/
macro "good_fields" : tactic => `(tactic|
  repeat' first
    | exact forall_nil
    | refine forall_cons ?_ ?_
    | exact good_fprim (by decide)
    | exact good_fmisc (by decide)
    | exact good_frest
    | exact good_fpayloadRest
    | exact good_fpayload0)

theorem greOptLen_good : greOptLen.local ∧ greOptLen.small ∧ greOptLen.ends := by
  refine ⟨fun _ _ _ _ => rfl, ?_, ?_⟩
  · intro m g r k hg hk
    obtain ⟨c, hc, hk⟩ := bind_eq_ok.mp hk
    obtain ⟨r', hr, hk⟩ := bind_eq_ok.mp hk
    obtain ⟨a, ha, hk⟩ := bind_eq_ok.mp hk
    obtain ⟨b, hb, hk⟩ := bind_eq_ok.mp hk
    cases hk
    have := asNum_eq_ok ha; subst this
    have := asNum_eq_ok hb; subst this
    have h1 : a < 2 ^ 32 := hg _ _ hc
    have h2 : b < 2 ^ 32 := hg _ _ hr
    have := Nat.or_lt_two_pow h1 h2
    omega
  · intro m g r hg _
    exact (hg _).bind fun _ _ => (hg _).bind fun _ _ => (asNum_NH _).bind fun _ _ =>
      (asNum_NH _).bind fun _ _ => NH.ok _

theorem ethernet_good : GoodDecl ethernet :=
  ⟨by decide, by decide, by unfold ethernet; good_fields, by decide, by decide, by decide, by decide⟩
theorem vlan_good : GoodDecl vlan :=
  ⟨by decide, by decide, by unfold vlan; good_fields, by decide, by decide, by decide, by decide⟩
theorem arp_good : GoodDecl arp :=
  ⟨by decide, by decide, by unfold arp; good_fields, by decide, by decide, by decide, by decide⟩
theorem ipv6_good : GoodDecl ipv6 :=
  ⟨by decide, by decide, by
    unfold ipv6; good_fields; exact good_fpayload (lenNum_good fun n h => by simp only [id]; omega),
    by decide, by decide, by decide, by decide⟩
theorem extension_good : GoodDecl extension :=
  ⟨by decide, by decide, by
    unfold extension; good_fields
    exact good_fpayload (lenNum_good fun n h => by unfold ipv6ExtensionLength; omega),
    by decide, by decide, by decide, by decide⟩
theorem routing_good : GoodDecl routing :=
  ⟨by decide, by decide, by
    unfold routing; good_fields
    exact good_fpayload (lenNum_good fun n h => by unfold routingExtensionLength; omega),
    by decide, by decide, by decide, by decide⟩
theorem fragment_good : GoodDecl fragment :=
  ⟨by decide, by decide, by unfold fragment; good_fields, by decide, by decide, by decide, by decide⟩
theorem udp_good : GoodDecl udp :=
  ⟨by decide, by decide, by unfold udp; good_fields, by decide, by decide, by decide, by decide⟩
theorem icmp_good : GoodDecl icmp :=
  ⟨by decide, by decide, by unfold icmp; good_fields, by decide, by decide, by decide, by decide⟩
theorem echoReply_good : GoodDecl echoReply :=
  ⟨by decide, by decide, by unfold echoReply; good_fields, by decide, by decide, by decide, by decide⟩
theorem echoRequest_good : GoodDecl echoRequest :=
  ⟨by decide, by decide, by unfold echoRequest; good_fields, by decide, by decide, by decide, by decide⟩
theorem destinationUnreachable_good : GoodDecl destinationUnreachable :=
  ⟨by decide, by decide, by unfold destinationUnreachable; good_fields,
    by decide, by decide, by decide, by decide⟩
theorem timeExceeded_good : GoodDecl timeExceeded :=
  ⟨by decide, by decide, by unfold timeExceeded; good_fields, by decide, by decide, by decide, by decide⟩
theorem icmpv6_good : GoodDecl icmpv6 :=
  ⟨by decide, by decide, by unfold icmpv6; good_fields, by decide, by decide, by decide, by decide⟩

theorem inner_good {d : Decl} (h : Inner d) (ha : d.accepted = true) : GoodDecl d where
  acc := ha
  reg := h.reg
  fields f hf := ⟨(h.small f hf).1,
    fun e he => ⟨h.loc f hf e he, (h.small f hf).2 e he, h.ends f hf e he⟩,
    fun c hc => absurd hc (h.flat f hf c)⟩
  bytes := h.bytes
  pos := h.pos
  bound := h.bound
  count := h.count

theorem tcpOption_good : GoodDecl tcpOption := inner_good tcpOption_inner (by decide)
theorem ipv4Option_good : GoodDecl ipv4Option := inner_good ipv4Option_inner (by decide)
theorem ndpOption_good : GoodDecl ndpOption := inner_good ndpOption_inner (by decide)
theorem u16BE_good : GoodDecl u16BE := inner_good u16BE_inner (by decide)
theorem u32BE_good : GoodDecl u32BE := inner_good u32BE_inner (by decide)

theorem tcp_good : GoodDecl tcp :=
  ⟨by decide, by decide, by
    unfold tcp; good_fields
    exact good_vecPkt tcpOption_inner
      (lenNum_good fun n h => by unfold tcpOptionsLength; split <;> omega),
    by decide, by decide, by decide, by decide⟩

theorem ipv4_good : GoodDecl ipv4 :=
  ⟨by decide, by decide, by
    unfold ipv4; good_fields
    · exact good_vecPkt ipv4Option_inner
        (lenNum_good fun n h => by unfold ipv4OptionsLength; omega)
    · refine good_fpayload ⟨fun _ _ _ _ => rfl, ?_, ?_⟩
      · intro m g r k hg hk
        obtain ⟨t, ht, hk⟩ := bind_eq_ok.mp hk
        obtain ⟨h', hh, hk⟩ := bind_eq_ok.mp hk
        obtain ⟨a, ha, hk⟩ := bind_eq_ok.mp hk
        obtain ⟨b, hb, hk⟩ := bind_eq_ok.mp hk
        cases hk
        have := asNum_eq_ok ha; subst this
        have h1 : a < 2 ^ 32 := hg _ _ ht
        unfold ipv4PayloadLength; omega
      · intro m g r hg _
        exact (hg _).bind fun _ _ => (hg _).bind fun _ _ => (asNum_NH _).bind fun _ _ =>
          (asNum_NH _).bind fun _ _ => NH.ok _,
    by decide, by decide, by decide, by decide⟩

theorem gre_good : GoodDecl gre :=
  ⟨by decide, by decide, by
    unfold gre; good_fields
    · exact good_vecPkt u16BE_inner greOptLen_good
    · exact good_vecPkt u16BE_inner greOptLen_good
    · exact good_vecPkt u32BE_inner (lenNum_good fun n h => by omega)
    · exact good_vecPkt u32BE_inner (lenNum_good fun n h => by omega)
    · refine good_fbytes ⟨fun _ _ _ _ => rfl, ?_, ?_⟩
      · intro m g r k hg hk
        obtain ⟨t, ht, hk⟩ := bind_eq_ok.mp hk
        obtain ⟨a, ha, hk⟩ := bind_eq_ok.mp hk
        split at hk
        · cases hk; omega
        · simp at hk
      · intro m g r hg _
        refine (hg _).bind fun _ _ => (asNum_NH _).bind fun a _ => ?_
        split
        · exact NH.ok _
        · exact NH.panic,
    by decide, by decide, by decide, by decide⟩

theorem ndpTail_good : ∀ f ∈ ndpTail, GoodField f := by
  unfold ndpTail; good_fields
  exact good_vecPktRest ndpOption_inner

theorem forall_append {P : Field → Prop} {a b : List Field} (ha : ∀ f ∈ a, P f) (hb : ∀ f ∈ b, P f) :
    ∀ f ∈ a ++ b, P f := by
  intro f hf
  rcases List.mem_append.mp hf with hf | hf
  · exact ha f hf
  · exact hb f hf

theorem routerSolicit_good : GoodDecl routerSolicit :=
  ⟨by decide, by decide, by
    unfold routerSolicit; refine forall_append ?_ ndpTail_good; good_fields,
    by decide, by decide, by decide, by decide⟩
theorem routerAdvert_good : GoodDecl routerAdvert :=
  ⟨by decide, by decide, by
    unfold routerAdvert; refine forall_append ?_ ndpTail_good; good_fields,
    by decide, by decide, by decide, by decide⟩
theorem neighborSolicit_good : GoodDecl neighborSolicit :=
  ⟨by decide, by decide, by
    unfold neighborSolicit; refine forall_append ?_ ndpTail_good; good_fields,
    by decide, by decide, by decide, by decide⟩
theorem neighborAdvert_good : GoodDecl neighborAdvert :=
  ⟨by decide, by decide, by
    unfold neighborAdvert; refine forall_append ?_ ndpTail_good; good_fields,
    by decide, by decide, by decide, by decide⟩
theorem redirect_good : GoodDecl redirect :=
  ⟨by decide, by decide, by
    unfold redirect; refine forall_append ?_ ndpTail_good; good_fields,
    by decide, by decide, by decide, by decide⟩

theorem crateDecls_good : ∀ d ∈ crateDecls, GoodDecl d := by
  intro d hd
  simp only [crateDecls, List.mem_cons, List.not_mem_nil, or_false] at hd
  rcases hd with rfl | rfl | rfl | rfl | rfl | rfl | rfl | rfl | rfl | rfl | rfl | rfl | rfl | rfl |
    rfl | rfl | rfl | rfl | rfl | rfl | rfl | rfl | rfl | rfl | rfl | rfl | rfl
  · exact ethernet_good
  · exact vlan_good
  · exact arp_good
  · exact ipv4Option_good
  · exact ipv4_good
  · exact ipv6_good
  · exact extension_good
  · exact routing_good
  · exact fragment_good
  · exact udp_good
  · exact tcpOption_good
  · exact tcp_good
  · exact icmp_good
  · exact echoReply_good
  · exact echoRequest_good
  · exact destinationUnreachable_good
  · exact timeExceeded_good
  · exact icmpv6_good
  · exact ndpOption_good
  · exact routerSolicit_good
  · exact routerAdvert_good
  · exact neighborSolicit_good
  · exact neighborAdvert_good
  · exact redirect_good
  · exact u16BE_good
  · exact u32BE_good
  · exact gre_good

end Verif
