import Verif.Spec.Modes
import Verif.Model.Checksum
import Verif.Model.TcpOptions
import Verif.Model.Quic

/-! # Helper lemmas: debug results are release results -/

namespace Verif
open Spec

theorem Spec.Below.refl {α : Type} (x : Res α) : Below x x := fun _ h => h

theorem Spec.Below.bind {α β : Type} {x y : Res α} {f g : α → Res β} (h : Below x y)
    (hf : ∀ a, Below (f a) (g a)) : Below (x >>= f) (y >>= g) := by
  intro v hv
  obtain ⟨a, h1, h2⟩ := bind_eq_ok.mp hv
  rw [h a h1, ok_bind]
  exact hf a v h2

theorem Spec.Below.map {α β : Type} {x y : Res α} (f : α → β) (h : Below x y) : Below (f <$> x) (f <$> y) := by
  intro v hv
  cases x with
  | error e => cases hv
  | ok a => rw [h a rfl]; exact hv

theorem below_panic {α : Type} (x : Res α) : Below panic x := by intro v h; cases h

theorem below_error {α : Type} (e : Fail) (x : Res α) : Below (.error e) x := by intro v h; cases h

theorem below_ite {α : Type} {p : Prop} [Decidable p] {x y x' y' : Res α} (h : Below x x')
    (h' : Below y y') : Below (if p then x else y) (if p then x' else y') := by
  split <;> assumption

theorem uadd_below (a b : Nat) : Below (uadd .debug a b) (uadd .release a b) := by
  unfold uadd
  exact below_ite (.refl _) (below_panic _)

theorem usub_below (a b : Nat) : Below (usub .debug a b) (usub .release a b) := by
  unfold usub
  exact below_ite (.refl _) (below_panic _)

theorem u32add_below (a b : Nat) : Below (u32add .debug a b) (u32add .release a b) := by
  unfold u32add
  exact below_ite (.refl _) (below_panic _)

/-- Two lists of results, pointwise. -/
inductive BelowAll {α : Type} : List (Res α) → List (Res α) → Prop
  | nil : BelowAll [] []
  | cons {x y : Res α} {xs ys : List (Res α)} : Below x y → BelowAll xs ys → BelowAll (x :: xs) (y :: ys)

theorem BelowAll.snoc {α : Type} {xs ys : List (Res α)} {x y : Res α} (h : BelowAll xs ys)
    (hx : Below x y) : BelowAll (xs ++ [x]) (ys ++ [y]) := by
  induction h with
  | nil => exact .cons hx .nil
  | cons h1 _ ih => exact .cons h1 ih

theorem BelowAll.get {xs ys : List (Res Val)} (h : BelowAll xs ys) (i : Nat) :
    Below ((xs[i]?).getD panic) ((ys[i]?).getD panic) := by
  induction h generalizing i with
  | nil => exact below_panic _
  | cons h1 _ ih =>
    cases i with
    | zero => exact h1
    | succ i => simpa using ih i

theorem BelowAll.mapM {α : Type} {xs ys : List (Res α)} (h : BelowAll xs ys) :
    Below (xs.mapM id) (ys.mapM id) := by
  induction h with
  | nil => exact .refl _
  | cons h1 _ ih =>
    rw [List.mapM_cons, List.mapM_cons]
    exact h1.bind fun a => ih.bind fun as => .refl _

theorem curOff_below {ls ls' : List (Res Nat)} (h : BelowAll ls ls') (bit : Nat) :
    Below (curOff .debug bit ls) (curOff .release bit ls') := by
  unfold curOff
  generalize bit / 8 = a
  induction h generalizing a with
  | nil => exact .refl _
  | cons h1 _ ih =>
    rw [List.foldlM_cons, List.foldlM_cons]
    exact (h1.bind fun n => uadd_below a n).bind fun b => ih b

theorem getArgs_below {ls ls' : List (Res Nat)} (h : BelowAll ls ls') (buf : Buf) (bit : Nat) (ps : List Prim) :
    Below (getArgs .debug ls buf bit ps) (getArgs .release ls' buf bit ps) := by
  induction ps generalizing bit with
  | nil => exact .refl _
  | cons p ps ih =>
    simp only [getArgs]
    exact (curOff_below h bit).bind fun co => (Below.refl _).bind fun v => (ih _).bind fun vs => .refl _

theorem varSlice_below {buf : Buf} {co co' len len' : Res Nat} (h : Below co co') (h' : Below len len') :
    Below (varSlice .debug buf co len) (varSlice .release buf co' len') := by
  unfold varSlice
  exact h.bind fun a => h'.bind fun l => (uadd_below a l).bind fun b => .refl _

theorem next_below {c : Codec} (hc : CodecBelow c) (buf : Buf) :
    Below (c.next .debug buf) (c.next .release buf) := by
  unfold Codec.next
  exact below_ite ((hc.size buf).bind fun s => .refl _) (.refl _)

theorem collect_below {c : Codec} (hc : CodecBelow c) (fuel : Nat) (buf : Buf) :
    Below (c.collect .debug fuel buf) (c.collect .release fuel buf) := by
  induction fuel generalizing buf with
  | zero => exact .refl _
  | succ fuel ih =>
    simp only [Codec.collect]
    refine (next_below hc buf).bind fun o => ?_
    cases o with
    | none => exact .refl _
    | some pr =>
      exact (hc.dec _).bind fun v => below_ite ((ih _).bind fun vs => .refl _) (.refl _)

theorem items_below {c : Codec} (hc : CodecBelow c) (fuel : Nat) (buf : Buf) :
    Below (c.items .debug fuel buf) (c.items .release fuel buf) := by
  induction fuel generalizing buf with
  | zero => exact .refl _
  | succ fuel ih =>
    simp only [Codec.items]
    refine (next_below hc buf).bind fun o => ?_
    cases o with
    | none => exact .refl _
    | some pr => exact below_ite ((ih _).bind fun vs => .refl _) (.refl _)

theorem getField_below {buf : Buf} {bit : Nat} {ls ls' : List (Res Nat)} {len len' : Res Nat} {ty : Ty}
    (h : BelowAll ls ls') (hl : Below len len') (hc : ∀ c, ty = .vecPkt c → CodecBelow c) :
    Below (getField .debug buf bit ls len ty) (getField .release buf bit ls' len' ty) := by
  cases ty with
  | prim p => exact (curOff_below h bit).bind fun co => .refl _
  | misc args => exact (getArgs_below h buf bit args).map _
  | vecPrim p => exact (varSlice_below (curOff_below h bit) hl).bind fun pk => .refl _
  | vecPkt c =>
    exact (varSlice_below (curOff_below h bit) hl).bind fun pk => (collect_below (hc c rfl) _ pk).map _

/-- Two states of the generator's loop. -/
structure StBelow (s t : St) : Prop where
  bit : s.bit = t.bit
  lens : BelowAll s.lens t.lens
  vals : BelowAll s.vals t.vals

theorem lenExpr_below {buf : Buf} {s t : St} (h : StBelow s t) {e : LenExpr} (he : LenBelow e) :
    Below (lenExpr .debug buf s e) (lenExpr .release buf t e) := by
  unfold lenExpr
  refine he _ _ _ _ (fun i => h.vals.get i) ?_
  rw [h.bit]
  exact (curOff_below h.lens _).bind fun co => .refl _

theorem fieldLen_below {buf : Buf} {s t : St} (h : StBelow s t) {f : Field}
    (hf : ∀ e, f.len = some e → LenBelow e) :
    Below (fieldLen .debug buf s f) (fieldLen .release buf t f) := by
  unfold fieldLen
  cases hl : f.len with
  | none => exact .refl _
  | some e => exact lenExpr_below h (hf e hl)

theorem step_below {buf : Buf} {s t : St} (h : StBelow s t) {f : Field}
    (hf : ∀ e, f.len = some e → LenBelow e) (hc : ∀ c, f.ty = .vecPkt c → CodecBelow c) :
    StBelow (s.step .debug buf f) (t.step .release buf f) where
  bit := by simp [St.step, h.bit]
  lens := by
    unfold St.step
    cases hl : f.len with
    | none => exact h.lens
    | some e => exact h.lens.snoc (lenExpr_below h (hf e hl))
  vals := by
    unfold St.step
    refine h.vals.snoc ?_
    rw [h.bit]
    exact getField_below h.lens (fieldLen_below h hf) hc

theorem run_below {buf : Buf} {fs : List Field} (hd : ∀ f ∈ fs, (∀ e, f.len = some e → LenBelow e) ∧
    ∀ c, f.ty = .vecPkt c → CodecBelow c) {s t : St} (h : StBelow s t) :
    StBelow (St.run .debug buf s fs) (St.run .release buf t fs) := by
  induction fs generalizing s t with
  | nil => exact h
  | cons f fs ih =>
    have hf := hd f List.mem_cons_self
    exact ih (fun f' hf' => hd f' (List.mem_cons_of_mem _ hf')) (step_below h hf.1 hf.2)

theorem init_below : StBelow .init .init := ⟨rfl, .nil, .nil⟩

theorem setArgs_below {L L' : Buf → List (Res Nat)} (h : ∀ b, BelowAll (L b) (L' b)) (bit : Nat)
    (ps : List Prim) (vs : List Nat) (buf : Buf) :
    Below (setArgs .debug L bit ps vs buf) (setArgs .release L' bit ps vs buf) := by
  induction ps generalizing bit vs buf with
  | nil => cases vs <;> exact .refl _
  | cons p ps ih =>
    cases vs with
    | nil => exact .refl _
    | cons v vs =>
      simp only [setArgs]
      exact (curOff_below (h buf) bit).bind fun co => (Below.refl _).bind fun b => ih _ _ _

theorem setPackets_below {c : Codec} (hc : CodecBelow c) (endOff cur : Nat) (vs : List Val) (buf : Buf) :
    Below (setPackets .debug c endOff cur vs buf) (setPackets .release c endOff cur vs buf) := by
  induction vs generalizing cur buf with
  | nil => exact .refl _
  | cons v vs ih =>
    simp only [setPackets]
    refine (Below.refl _).bind fun sub => below_ite ?_ (.refl _)
    exact (hc.enc _ _).bind fun sub => (hc.size _).bind fun n => (uadd_below _ _).bind fun cur =>
      below_ite (ih _ _) (.refl _)

section
variable {d : Decl} (hd : DeclBelow d)
include hd

theorem before_below (buf : Buf) (k : Nat) : StBelow (d.before .debug buf k) (d.before .release buf k) :=
  run_below (fun f hf => hd f (List.mem_of_mem_take hf)) init_below

theorem final_below (buf : Buf) : StBelow (d.final .debug buf) (d.final .release buf) :=
  run_below hd init_below

theorem get_below (buf : Buf) (k : Nat) : Below (d.get .debug buf k) (d.get .release buf k) := by
  unfold Decl.get
  cases hf : d.fields[k]? with
  | none => exact .refl _
  | some f =>
    have hm := hd f (List.mem_of_getElem? hf)
    have hs := before_below hd buf k
    simp only
    rw [hs.bit]
    exact getField_below hs.lens (fieldLen_below hs hm.1) hm.2

theorem getRaw_below (buf : Buf) (k : Nat) : Below (d.getRaw .debug buf k) (d.getRaw .release buf k) := by
  unfold Decl.getRaw
  cases hf : d.fields[k]? with
  | none => exact .refl _
  | some f =>
    have hm := hd f (List.mem_of_getElem? hf)
    have hs := before_below hd buf k
    simp only
    rw [hs.bit]
    exact varSlice_below (curOff_below hs.lens _) (fieldLen_below hs hm.1)

theorem fromPacket_below (buf : Buf) : Below (d.fromPacket .debug buf) (d.fromPacket .release buf) :=
  (final_below hd buf).vals.mapM.map _

theorem packetSize_below (buf : Buf) : Below (d.packetSize .debug buf) (d.packetSize .release buf) := by
  have h := final_below hd buf
  unfold Decl.packetSize
  simp only
  rw [h.bit]
  exact curOff_below h.lens _

theorem payloadBounds_below (buf : Buf) :
    Below (d.payloadBounds .debug buf) (d.payloadBounds .release buf) := by
  unfold Decl.payloadBounds
  cases d.payloadIdx with
  | none => exact .refl _
  | some k =>
    simp only
    cases hf : d.fields[k]? with
    | none => exact .refl _
    | some f =>
      have hm := hd f (List.mem_of_getElem? hf)
      have hs := before_below hd buf k
      simp only
      rw [hs.bit]
      refine (curOff_below hs.lens _).bind fun lower => ?_
      cases hl : f.len with
      | none => exact .refl _
      | some e => exact (lenExpr_below hs (hm.1 e hl)).bind fun n => (uadd_below _ _).bind fun u => .refl _

theorem payload_below (buf : Buf) : Below (d.payload .debug buf) (d.payload .release buf) :=
  (payloadBounds_below hd buf).bind fun _ => .refl _

theorem payloadMut_below (buf new : Buf) :
    Below (d.payloadMutCopy .debug buf new) (d.payloadMutCopy .release buf new) :=
  (payloadBounds_below hd buf).bind fun _ => .refl _

theorem set_below (buf : Buf) (k : Nat) (v : Val) : Below (d.set .debug buf k v) (d.set .release buf k v) := by
  unfold Decl.set
  cases hf : d.fields[k]? with
  | none => exact .refl _
  | some f =>
    have hm := hd f (List.mem_of_getElem? hf)
    have hs := before_below hd buf k
    simp only
    rw [hs.bit]
    split
    · exact (curOff_below hs.lens _).bind fun co => .refl _
    · exact below_ite (setArgs_below (fun b => (before_below hd b k).lens) _ _ _ _) (.refl _)
    · refine (curOff_below hs.lens _).bind fun co => ?_
      cases hl : f.len with
      | none => exact .refl _
      | some e => exact (lenExpr_below hs (hm.1 e hl)).bind fun n => .refl _
    · rename_i c vs hty
      exact (curOff_below hs.lens _).bind fun co => (fieldLen_below hs hm.1).bind fun n =>
        (uadd_below _ _).bind fun e => setPackets_below (hm.2 _ hty) _ _ _ _
    · exact .refl _

theorem populateFrom_below (k : Nat) (vs : List Val) (buf : Buf) :
    Below (d.populateFrom .debug k vs buf) (d.populateFrom .release k vs buf) := by
  induction vs generalizing k buf with
  | nil => exact .refl _
  | cons v vs ih => exact (set_below hd buf k v).bind fun b => ih _ _

theorem populate_below (buf : Buf) (v : Val) : Below (d.populate .debug buf v) (d.populate .release buf v) := by
  cases v with
  | list vs => exact below_ite (populateFrom_below hd 0 vs buf) (.refl _)
  | _ => exact .refl _

theorem debug_below (buf : Buf) : Below (d.debug .debug buf) (d.debug .release buf) := by
  have h := final_below hd buf
  unfold Decl.debug
  refine Below.bind ?_ fun _ => .refl _
  have key : ∀ (fs : List Field) (xs ys : List (Res Val)), BelowAll xs ys →
      Below ((List.zip fs xs).mapM fun (p : Field × Res Val) => if p.1.payload then pure (.num 0) else p.2)
        ((List.zip fs ys).mapM fun (p : Field × Res Val) => if p.1.payload then pure (.num 0) else p.2) := by
    intro fs xs ys hxy
    induction hxy generalizing fs with
    | nil => exact .refl _
    | cons h1 _ ih =>
      cases fs with
      | nil => exact .refl _
      | cons f fs =>
        rw [List.zip_cons_cons, List.zip_cons_cons, List.mapM_cons, List.mapM_cons]
        exact (below_ite (.refl _) h1).bind fun _ => (ih fs).bind fun _ => .refl _
  exact key _ _ _ h.vals

theorem codec_below : CodecBelow d.codec where
  size := packetSize_below hd
  dec := fromPacket_below hd
  enc := populate_below hd

end

/-! ## The crate's declarations -/

/-- A field whose length expression and inner packet type are fine. -/
def FieldBelow (f : Field) : Prop :=
  (∀ e, f.len = some e → LenBelow e) ∧ ∀ c, f.ty = .vecPkt c → CodecBelow c

theorem fb_prim (s : String) (n : Nat) : FieldBelow (fprim s n) :=
  ⟨fun _ h => (nomatch h), fun _ h => (nomatch h)⟩
theorem fb_misc (s : String) (ns : List Nat) : FieldBelow (fmisc s ns) :=
  ⟨fun _ h => (nomatch h), fun _ h => (nomatch h)⟩
theorem fb_rest (s : String) : FieldBelow (frest s) := ⟨fun _ h => (nomatch h), fun _ h => (nomatch h)⟩
theorem fb_payloadRest (s : String) : FieldBelow (fpayloadRest s) :=
  ⟨fun _ h => (nomatch h), fun _ h => (nomatch h)⟩
theorem fb_bytes (s : String) {e : LenExpr} (he : LenBelow e) : FieldBelow (fbytes s e) :=
  ⟨fun _ h => (by cases h; exact he), fun _ h => (nomatch h)⟩
theorem fb_payload (s : String) {e : LenExpr} (he : LenBelow e) : FieldBelow (fpayload s e) :=
  ⟨fun _ h => (by cases h; exact he), fun _ h => (nomatch h)⟩
theorem fb_packets (s : String) {d : Decl} {e : LenExpr} (hd : DeclBelow d) (he : LenBelow e) :
    FieldBelow { name := s, ty := .vecPkt d.codec, len := some e } :=
  ⟨fun _ h => (by cases h; exact he), fun _ h => (by cases h; exact codec_below hd)⟩

theorem lb_const (n : Nat) : LenBelow (lenConst n) := fun _ _ _ _ _ _ => .refl _
theorem lb_num (i : Nat) (f : Nat → Nat) : LenBelow (lenNum i f) :=
  fun _ _ _ _ hg _ => (hg i).bind fun _ => .refl _
theorem lb_get (i : Nat) (f : Val → Res Nat) : LenBelow (fun _ get _ => get i >>= f) :=
  fun _ _ _ _ hg _ => (hg i).bind fun _ => .refl _
theorem lb_get2 (i j : Nat) (f : Val → Val → Res Nat) :
    LenBelow (fun _ get _ => get i >>= fun a => get j >>= fun b => f a b) :=
  fun _ _ _ _ hg _ => (hg i).bind fun _ => (hg j).bind fun _ => .refl _
theorem lb_varintLength : LenBelow lenVarintLength := fun _ _ _ _ _ hr => hr.bind fun _ => .refl _
theorem lb_varint (i : Nat) : LenBelow (lenVarint i) :=
  fun _ _ _ _ hg _ => (hg i).bind fun _ => .refl _
theorem lb_frames (i j : Nat) : LenBelow (lenFrames i j) :=
  fun _ _ _ _ hg _ => (hg i).bind fun _ => (Below.refl _).bind fun _ => (Below.refl _).bind fun _ =>
    (hg j).bind fun _ => (Below.refl _).bind fun _ => usub_below _ _
theorem lb_nVarints (f : Nat → Nat) : LenBelow (lenNVarints f) :=
  fun _ _ _ _ hg hr => (hg 0).bind fun _ => (Below.refl _).bind fun _ => hr.bind fun _ => .refl _
theorem lb_nVarintsOf (i : Nat) : LenBelow (lenNVarintsOf i) :=
  fun _ _ _ _ hg hr => (hg i).bind fun _ => (Below.refl _).bind fun _ => (Below.refl _).bind fun _ =>
    hr.bind fun _ => .refl _
theorem lb_streamData (i : Nat) : LenBelow (lenStreamData i) :=
  fun _ _ _ _ hg hr => (hg i).bind fun _ => (Below.refl _).bind fun _ =>
    below_ite (hr.bind fun _ => .refl _) (.refl _)
theorem lb_gre : LenBelow greOptLen :=
  fun _ _ _ _ hg _ => (hg 0).bind fun _ => (hg 1).bind fun _ => .refl _
theorem ndp_below (n : Nat) : Below (ndpOptionDataLength .debug n) (ndpOptionDataLength .release n) :=
  below_ite (.refl _) (below_panic _)

theorem fields_nil : ∀ f ∈ ([] : List Field), FieldBelow f := fun _ h => (nomatch h)
theorem fields_cons {f : Field} {fs : List Field} (h : FieldBelow f) (hs : ∀ f ∈ fs, FieldBelow f) :
    ∀ g ∈ f :: fs, FieldBelow g := List.forall_mem_cons.mpr ⟨h, hs⟩
theorem declBelow_mk {fs : List Field} (h : ∀ f ∈ fs, FieldBelow f) : DeclBelow ⟨fs⟩ := h

/-- Closes `DeclBelow d` for a literal field list, leaving fields with uncommon lengths. -/
macro "below_fields" : tactic => `(tactic| (
  refine declBelow_mk ?_
  repeat' first | exact fields_nil | refine fields_cons ?_ ?_
  all_goals first
    | with_reducible exact fb_prim _ _ | with_reducible exact fb_misc _ _
    | with_reducible exact fb_rest _ | with_reducible exact fb_payloadRest _
    | with_reducible refine fb_bytes _ ?_
    | with_reducible refine fb_payload _ ?_
    | skip
  all_goals first
    | with_reducible exact lb_const _ | with_reducible exact lb_num _ _
    | with_reducible exact lb_varintLength | with_reducible exact lb_varint _
    | with_reducible exact lb_frames _ _ | with_reducible exact lb_nVarints _
    | with_reducible exact lb_nVarintsOf _ | with_reducible exact lb_streamData _
    | with_reducible exact lb_gre
    | exact lb_get _ _ | exact lb_get2 _ _ _
    | skip))

theorem ethernet_below : DeclBelow ethernet := by unfold ethernet; below_fields
theorem vlan_below : DeclBelow vlan := by unfold vlan; below_fields
theorem arp_below : DeclBelow arp := by unfold arp; below_fields
theorem ipv4Option_below : DeclBelow ipv4Option := by unfold ipv4Option; below_fields
theorem ipv6_below : DeclBelow ipv6 := by unfold ipv6; below_fields
theorem extension_below : DeclBelow extension := by unfold extension; below_fields
theorem routing_below : DeclBelow routing := by unfold routing; below_fields
theorem fragment_below : DeclBelow fragment := by unfold fragment; below_fields
theorem udp_below : DeclBelow udp := by unfold udp; below_fields
theorem tcpOption_below : DeclBelow tcpOption := by unfold tcpOption; below_fields
theorem icmp_below : DeclBelow icmp := by unfold icmp; below_fields
theorem echoReply_below : DeclBelow echoReply := by unfold echoReply; below_fields
theorem echoRequest_below : DeclBelow echoRequest := by unfold echoRequest; below_fields
theorem destinationUnreachable_below : DeclBelow destinationUnreachable := by unfold destinationUnreachable; below_fields
theorem timeExceeded_below : DeclBelow timeExceeded := by unfold timeExceeded; below_fields
theorem icmpv6_below : DeclBelow icmpv6 := by unfold icmpv6; below_fields
theorem u16BE_below : DeclBelow u16BE := by unfold u16BE; below_fields
theorem u32BE_below : DeclBelow u32BE := by unfold u32BE; below_fields
theorem versionNegotiation_below : DeclBelow versionNegotiation := by unfold versionNegotiation; below_fields
theorem initial_below : DeclBelow initial := by unfold initial; below_fields
theorem zeroRtt_below : DeclBelow zeroRtt := by unfold zeroRtt; below_fields
theorem handshake_below : DeclBelow handshake := by unfold handshake; below_fields
theorem retry_below : DeclBelow retry := by unfold retry; below_fields
theorem oneRtt_below : DeclBelow oneRtt := by unfold oneRtt; below_fields
theorem frameBare_below : DeclBelow frameBare := by unfold frameBare; below_fields
theorem frameAck_below : DeclBelow frameAck := by unfold frameAck; below_fields
theorem frameResetStream_below : DeclBelow frameResetStream := by unfold frameResetStream; below_fields
theorem frameStopSending_below : DeclBelow frameStopSending := by unfold frameStopSending; below_fields
theorem frameCrypto_below : DeclBelow frameCrypto := by unfold frameCrypto; below_fields
theorem frameNewToken_below : DeclBelow frameNewToken := by unfold frameNewToken; below_fields
theorem frameStream_below : DeclBelow frameStream := by unfold frameStream; below_fields
theorem frameTwoVarints_below : DeclBelow frameTwoVarints := by unfold frameTwoVarints; below_fields
theorem frameNewConnectionId_below : DeclBelow frameNewConnectionId := by unfold frameNewConnectionId; below_fields
theorem framePath_below : DeclBelow framePath := by unfold framePath; below_fields
theorem frameConnectionClose_below : DeclBelow frameConnectionClose := by unfold frameConnectionClose; below_fields
theorem frameOneVarint_below (s : String) : DeclBelow (frameOneVarint s) := by
  unfold frameOneVarint; below_fields
theorem ipv4_below : DeclBelow ipv4 := by
  unfold ipv4; below_fields
  · exact fb_packets _ ipv4Option_below (lb_num _ _)
theorem tcp_below : DeclBelow tcp := by
  unfold tcp; below_fields
  · exact fb_packets _ tcpOption_below (lb_num _ _)
theorem gre_below : DeclBelow gre := by
  unfold gre; below_fields
  · exact fb_packets _ u16BE_below lb_gre
  · exact fb_packets _ u16BE_below lb_gre
  · exact fb_packets _ u32BE_below (lb_num _ _)
  · exact fb_packets _ u32BE_below (lb_num _ _)
theorem ndpOption_below : DeclBelow ndpOption := by
  unfold ndpOption; below_fields
  exact fun _ _ _ _ hg _ => (hg 1).bind fun _ => (Below.refl _).bind fun _ => ndp_below _
theorem fb_packetsRest (s : String) {d : Decl} (hd : DeclBelow d) :
    FieldBelow { name := s, ty := .vecPkt d.codec } :=
  ⟨fun _ h => (nomatch h), fun _ h => (by cases h; exact codec_below hd)⟩
theorem ndpTail_below : ∀ f ∈ ndpTail, FieldBelow f :=
  fields_cons (fb_payload _ (lb_const _)) (fields_cons (fb_packetsRest _ ndpOption_below) fields_nil)
theorem declBelow_ndp {fs : List Field} (h : DeclBelow ⟨fs⟩) : DeclBelow ⟨fs ++ ndpTail⟩ := by
  intro f hf
  rcases List.mem_append.mp hf with hf | hf
  · exact h f hf
  · exact ndpTail_below f hf
theorem routerSolicit_below : DeclBelow routerSolicit := declBelow_ndp (by below_fields)
theorem routerAdvert_below : DeclBelow routerAdvert := declBelow_ndp (by below_fields)
theorem neighborSolicit_below : DeclBelow neighborSolicit := declBelow_ndp (by below_fields)
theorem neighborAdvert_below : DeclBelow neighborAdvert := declBelow_ndp (by below_fields)
theorem redirect_below : DeclBelow redirect := declBelow_ndp (by below_fields)

theorem quicKind_below (k : QuicKind) : DeclBelow k.decl := by
  cases k
  · exact versionNegotiation_below
  · exact initial_below
  · exact zeroRtt_below
  · exact handshake_below
  · exact retry_below
  · exact oneRtt_below

theorem frameKind_below (k : FrameKind) : DeclBelow k.decl := by
  cases k
  · exact frameBare_below
  · exact frameBare_below
  · exact frameAck_below
  · exact frameResetStream_below
  · exact frameStopSending_below
  · exact frameCrypto_below
  · exact frameNewToken_below
  · exact frameStream_below
  · exact frameOneVarint_below _
  · exact frameTwoVarints_below
  · exact frameOneVarint_below _
  · exact frameOneVarint_below _
  · exact frameTwoVarints_below
  · exact frameOneVarint_below _
  · exact frameNewConnectionId_below
  · exact frameOneVarint_below _
  · exact framePath_below
  · exact framePath_below
  · exact frameConnectionClose_below
  · exact frameBare_below

/-! ## Checksums -/

theorem sumLoop_below (skip : Nat) : ∀ (data : Buf) (i sum : Nat),
    Below (sumLoop .debug skip data i sum) (sumLoop .release skip data i sum)
  | [], _, _ => .refl _
  | [_], _, _ => .refl _
  | _ :: _ :: rest, i, _ => by
    rw [sumLoop, sumLoop]
    dsimp only
    split
    · exact Below.bind (u32add_below _ _) fun _ => sumLoop_below skip rest (i + 1) _
    · exact Below.bind (.refl _) fun _ => sumLoop_below skip rest (i + 1) _

theorem sumBeWords_below (data : Buf) (skip : Nat) :
    Below (sumBeWords .debug data skip) (sumBeWords .release data skip) :=
  below_ite (.refl _) ((sumLoop_below _ _ _ _).bind fun _ =>
    below_ite ((Below.refl _).bind fun _ => u32add_below _ _) (.refl _))

theorem foldCarry_below : ∀ (fuel sum : Nat),
    Below (foldCarry .debug fuel sum) (foldCarry .release fuel sum)
  | 0, sum => by unfold foldCarry; exact below_ite (.refl _) (.refl _)
  | fuel + 1, sum => by
    unfold foldCarry
    exact below_ite ((u32add_below _ _).bind fun _ => foldCarry_below fuel _) (.refl _)

theorem finalize_below (sum : Nat) : Below (finalizeChecksum .debug sum) (finalizeChecksum .release sum) :=
  (foldCarry_below _ _).bind fun _ => .refl _

theorem checksum_below (data : Buf) (skip : Nat) :
    Below (checksum .debug data skip) (checksum .release data skip) :=
  below_ite (.refl _) ((sumBeWords_below _ _).bind fun _ => finalize_below _)

theorem foldlM_below : ∀ (l : List Nat) (a : Nat),
    Below (l.foldlM (u32add .debug) a) (l.foldlM (u32add .release) a)
  | [], _ => .refl _
  | x :: l, a => by
    rw [List.foldlM_cons, List.foldlM_cons]
    exact (u32add_below _ _).bind fun _ => foldlM_below l _

theorem addrChecksum_below (data : Buf) (skip : Nat) (extra : Buf) {s s' d d' : Res Nat} (protocol : UInt8)
    (hs : Below s s') (hd : Below d d') :
    Below (addrChecksum .debug data skip extra s d protocol)
      (addrChecksum .release data skip extra s' d' protocol) :=
  hs.bind fun _ => (u32add_below _ _).bind fun _ => hd.bind fun _ => (u32add_below _ _).bind fun _ =>
    (u32add_below _ _).bind fun _ => (uadd_below _ _).bind fun _ => (u32add_below _ _).bind fun _ =>
    (sumBeWords_below _ _).bind fun _ => (u32add_below _ _).bind fun _ =>
    (sumBeWords_below _ _).bind fun _ => (u32add_below _ _).bind fun _ => finalize_below _

theorem ipv4Checksum_below (data : Buf) (skip : Nat) (extra : Buf) (s d : Ipv4Addr) (protocol : UInt8) :
    Below (ipv4Checksum .debug data skip extra s d protocol)
      (ipv4Checksum .release data skip extra s d protocol) :=
  addrChecksum_below _ _ _ _ (u32add_below _ _) (u32add_below _ _)

theorem ipv6Checksum_below (data : Buf) (skip : Nat) (extra : Buf) (s d : Ipv6Addr) (protocol : UInt8) :
    Below (ipv6Checksum .debug data skip extra s d protocol)
      (ipv6Checksum .release data skip extra s d protocol) :=
  addrChecksum_below _ _ _ _ (foldlM_below _ _) (foldlM_below _ _)

theorem ipv4HeaderChecksum_below (packet : Buf) :
    Below (ipv4HeaderChecksum .debug packet) (ipv4HeaderChecksum .release packet) :=
  (get_below ipv4_below _ _).bind fun _ => (Below.refl _).bind fun _ => (Below.refl _).bind fun _ =>
    checksum_below _ _

/-! ## Fragment headers, TCP options -/

theorem fragmentRaw_below (buf : Buf) : Below (fragmentRaw .debug buf) (fragmentRaw .release buf) :=
  (get_below fragment_below _ _).bind fun _ => .refl _

theorem u8add_below (a b : Nat) : Below (u8add .debug a b) (u8add .release a b) :=
  below_ite (.refl _) (below_panic _)

theorem tcpSelectiveAck_below (acks : List Nat) :
    Below (tcpSelectiveAck .debug acks) (tcpSelectiveAck .release acks) :=
  (u8add_below _ _).bind fun _ => .refl _

/-! ## QUIC -/

theorem quicRemaining_below (p : QuicPacket) : Below (p.remaining .debug) (p.remaining .release) := by
  obtain ⟨k, buf⟩ := p
  unfold QuicPacket.remaining
  cases k
  · exact .refl _
  · exact getRaw_below initial_below _ _
  · exact getRaw_below zeroRtt_below _ _
  · exact getRaw_below handshake_below _ _
  · exact .refl _
  · exact .refl _

theorem quicLoop_below : ∀ (fuel : Nat) (packet : Buf),
    Below (QuicPacket.loop .debug fuel packet) (QuicPacket.loop .release fuel packet)
  | 0, _ => .refl _
  | fuel + 1, packet => by
    unfold QuicPacket.loop
    refine below_ite (.refl _) (below_ite (.refl _) ((Below.refl _).bind fun k => ?_))
    cases k with
    | none => exact .refl _
    | some k =>
      simp only
      cases k.decl.new packet with
      | none => exact .refl _
      | some buf =>
        refine (quicRemaining_below _).bind fun rest => (quicLoop_below fuel rest).bind fun r => ?_
        exact .refl _

theorem frameRemaining_below (f : Frame) : Below (f.remaining .debug) (f.remaining .release) :=
  getRaw_below (frameKind_below _) _ _

theorem frameLoop_below : ∀ (fuel : Nat) (frames : List Frame) (packet : Buf),
    Below (Frame.loop .debug fuel frames packet) (Frame.loop .release fuel frames packet)
  | 0, _, _ => .refl _
  | fuel + 1, frames, packet => by
    unfold Frame.loop
    refine below_ite (.refl _) ((Below.refl _).bind fun b0 => ?_)
    cases FrameKind.ofType b0.toNat with
    | none => exact .refl _
    | some k =>
      simp only
      cases k.decl.new packet with
      | none => exact .refl _
      | some buf =>
        exact (frameRemaining_below _).bind fun rest => frameLoop_below fuel _ rest

theorem quicVersion_below (p : QuicPacket) : Below (p.version .debug) (p.version .release) := by
  obtain ⟨k, buf⟩ := p
  unfold QuicPacket.version
  cases k
  · exact .refl _
  · exact (get_below initial_below _ _).map _
  · exact (get_below zeroRtt_below _ _).map _
  · exact (get_below handshake_below _ _).map _
  · exact (get_below retry_below _ _).map _
  · exact .refl _

theorem quicToken_below (p : QuicPacket) : Below (p.token .debug) (p.token .release) := by
  obtain ⟨k, buf⟩ := p
  unfold QuicPacket.token
  cases k
  · exact .refl _
  · exact (get_below initial_below _ _).map _
  · exact .refl _
  · exact .refl _
  · exact .refl _
  · exact .refl _

theorem quicPacketNumber_below (p : QuicPacket) :
    Below (p.packetNumber .debug) (p.packetNumber .release) := by
  obtain ⟨k, buf⟩ := p
  unfold QuicPacket.packetNumber
  cases k <;> dsimp only
  · exact Below.bind (.refl _) fun _ => .refl _
  · exact Below.bind ((getRaw_below initial_below _ _).map _) fun _ => .refl _
  · exact Below.bind ((getRaw_below zeroRtt_below _ _).map _) fun _ => .refl _
  · exact Below.bind ((getRaw_below handshake_below _ _).map _) fun _ => .refl _
  · exact Below.bind (.refl _) fun _ => .refl _
  · exact Below.bind ((getRaw_below oneRtt_below _ _).map _) fun _ => .refl _

theorem quicDestId_below (p : QuicPacket) : Below (p.destId .debug) (p.destId .release) := by
  obtain ⟨k, buf⟩ := p
  unfold QuicPacket.destId
  cases k
  · exact get_below versionNegotiation_below _ _
  · exact get_below initial_below _ _
  · exact get_below zeroRtt_below _ _
  · exact get_below handshake_below _ _
  · exact get_below retry_below _ _
  · exact get_below oneRtt_below _ _

theorem quicSrcId_below (p : QuicPacket) : Below (p.srcId .debug) (p.srcId .release) := by
  obtain ⟨k, buf⟩ := p
  unfold QuicPacket.srcId
  cases k
  · exact (get_below versionNegotiation_below _ _).map _
  · exact (get_below initial_below _ _).map _
  · exact (get_below zeroRtt_below _ _).map _
  · exact (get_below handshake_below _ _).map _
  · exact (get_below retry_below _ _).map _
  · exact .refl _

theorem quicFrames_below (p : QuicPacket) : Below (p.frames .debug) (p.frames .release) := by
  obtain ⟨k, buf⟩ := p
  unfold QuicPacket.frames
  cases k
  · exact .refl _
  · exact (getRaw_below initial_below _ _).map _
  · exact (getRaw_below zeroRtt_below _ _).map _
  · exact (getRaw_below handshake_below _ _).map _
  · exact .refl _
  · exact (payload_below oneRtt_below _).map _

end Verif
