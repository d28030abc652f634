import Verif.Proofs.QuicPackets
import Verif.Proofs.Options

/-! Helper lemmas: the headers of QUIC packets. -/

namespace Verif
open Spec

/-! ## The fixed first fields -/

theorem head_alive {d : Decl} {L : List Slot} (h : layoutOk d L = true) {hd : List Field}
    (hhd : d.fields.take L.length = hd) (hfix : hd.all Field.fixed = true) {c : Nat}
    (hbits : bitsSum hd = 8 * c) (hsh : L.all (fun s => match s.shape with
      | .int n => decide (n ≤ 32)
      | .tuple _ => true) = true) (hlen : L.length ≤ d.fields.length)
    (m : Mode) (buf : Buf) (hmin : d.minSize ≤ buf.length) (hc : c ≤ buf.length) :
    Alive buf (St.run m buf .init hd) (L.map (·.read buf)) (buf.drop c) ∧
      NumSmall (St.run m buf .init hd).vals := by
  have hbef : d.before m buf L.length = St.run m buf .init hd := by rw [Decl.before, hhd]
  have hb := before_bit d m buf L.length
  have hl := (before_fixed (d := d) (k := L.length) (by rw [hhd]; exact hfix) m buf).2
  rw [hhd, hbits, hbef] at hb
  rw [hbef] at hl
  have hv : (St.run m buf .init hd).vals = (L.map (·.read buf)).map .ok := by
    rw [← hbef, before_vals _ hlen]
    apply List.ext_getElem?
    intro i
    by_cases hi : i < L.length
    · rw [List.getElem?_map, List.getElem?_range hi, List.map_map, List.getElem?_map,
        List.getElem?_eq_getElem hi]
      simp only [Option.map_some, Function.comp]
      rw [layoutOk_get h (List.getElem?_eq_getElem hi) m buf hmin]
    · rw [List.getElem?_eq_none (by simp; omega), List.getElem?_eq_none (by simp; omega)]
  refine ⟨⟨⟨[], hl, ?_, ?_⟩, hv, ?_⟩, ?_⟩
  · rw [hb]; simp
  · rw [hb]; simpa using hc
  · rw [hb]; omega
  · intro x hx n hn
    rw [hv, List.map_map, List.mem_map] at hx
    obtain ⟨s, hs, rfl⟩ := hx
    simp only [Function.comp, Except.ok.injEq] at hn
    have := List.all_eq_true.mp hsh s hs
    unfold Slot.read at hn
    cases hsp : s.shape with
    | int w =>
      rw [hsp] at hn this
      cases hn
      have := of_decide_eq_true this
      exact Nat.lt_of_lt_of_le (bitsAt_lt _ _ _) (Nat.pow_le_pow_right (by omega) this)
    | tuple _ => rw [hsp] at hn; cases hn

/-- First fields of Initial, 0-RTT and Handshake packets. -/
def longSlots : List Slot := [⟨"header_form", 0, one 1⟩, ⟨"fixed_bit", 1, one 1⟩,
  ⟨"long_packet_type", 2, one 2⟩, ⟨"reserved", 4, .int 2⟩, ⟨"packet_number_len", 6, .int 2⟩,
  ⟨"version", 8, one 32⟩]

/-- First fields of Retry packets. -/
def retrySlots : List Slot := [⟨"header_form", 0, one 1⟩, ⟨"fixed_bit", 1, one 1⟩,
  ⟨"long_packet_type", 2, one 2⟩, ⟨"unused", 4, .int 4⟩, ⟨"version", 8, one 32⟩]

/-- First fields of Version Negotiation packets. -/
def vnSlots : List Slot := [⟨"header_form", 0, one 1⟩, ⟨"unused", 1, .int 7⟩, ⟨"version", 8, .int 32⟩]

/-- First fields of 1-RTT packets. -/
def oneRttSlots : List Slot := [⟨"header_form", 0, .int 1⟩, ⟨"fixed_bit", 1, .int 1⟩,
  ⟨"spin_bit", 2, .int 1⟩, ⟨"reserved_bits", 3, .int 2⟩, ⟨"key_phase", 5, .int 1⟩,
  ⟨"packet_number_len", 6, .int 2⟩]

theorem initial_layout : layoutOk initial longSlots = true := by decide +kernel
theorem zeroRtt_layout : layoutOk zeroRtt longSlots = true := by decide +kernel
theorem handshake_layout : layoutOk handshake longSlots = true := by decide +kernel
theorem retry_layout : layoutOk retry retrySlots = true := by decide +kernel
theorem vn_layout : layoutOk versionNegotiation vnSlots = true := by decide +kernel
theorem oneRtt_layout : layoutOk oneRtt oneRttSlots = true := by decide +kernel

/-- The fields read before those found by scanning. -/
def QuicKind.head : QuicKind → List Slot
  | .versionNegotiation => vnSlots
  | .initial => longSlots
  | .zeroRtt => longSlots
  | .handshake => longSlots
  | .retry => retrySlots
  | .oneRtt => oneRttSlots

/-- Size of those fields. -/
def QuicKind.headSize : QuicKind → Nat
  | .oneRtt => 1
  | _ => 5

/-- The fields scanned after the first ones, up to the Length field. -/
def QuicKind.items : QuicKind → List Item
  | .versionNegotiation => [.u8, .u8Bytes 3, .u8, .u8Bytes 5]
  | .initial => [.u8, .u8Bytes 6, .u8, .u8Bytes 8, .vi, .viBytes 10]
  | .zeroRtt => [.u8, .u8Bytes 6, .u8, .u8Bytes 8]
  | .handshake => [.u8, .u8Bytes 6, .u8, .u8Bytes 8]
  | .retry => [.u8, .u8Bytes 5, .u8, .u8Bytes 7]
  | .oneRtt => [.const 8, .pn 5]

/-- The corresponding fields. -/
def QuicKind.mid (k : QuicKind) : List Field := (k.decl.fields.drop k.head.length).take k.items.length

theorem quic_mid (k : QuicKind) : ItemsAre k.items k.mid := by
  cases k <;> repeat first | exact trivial | refine ⟨⟨rfl, rfl⟩, ?_⟩

theorem quic_tame (k : QuicKind) : tame k.head.length [] k.items := by
  cases k <;> simp [tame, QuicKind.items, QuicKind.head, longSlots, retrySlots, vnSlots, oneRttSlots,
    Item.cap, grow, Item.strict, Item.ref, Item.next]

theorem quic_layout (k : QuicKind) : layoutOk k.decl k.head = true := by
  cases k
  · exact vn_layout
  · exact initial_layout
  · exact zeroRtt_layout
  · exact handshake_layout
  · exact retry_layout
  · exact oneRtt_layout

theorem quic_minSize (k : QuicKind) : k.decl.minSize = if k = .oneRtt then 1 else 7 := by
  cases k <;> decide +kernel

theorem quic_head (k : QuicKind) (m : Mode) (buf : Buf) (hmin : k.decl.minSize ≤ buf.length) :
    Alive buf (St.run m buf .init (k.decl.fields.take k.head.length)) (k.head.map (·.read buf))
        (buf.drop k.headSize) ∧
      NumSmall (St.run m buf .init (k.decl.fields.take k.head.length)).vals := by
  have hc : k.headSize ≤ buf.length := by
    rw [quic_minSize] at hmin
    cases k <;> simp [QuicKind.headSize] at hmin ⊢ <;> omega
  refine head_alive (quic_layout k) rfl ?_ ?_ ?_ ?_ m buf hmin hc <;> cases k <;> decide +kernel

/-- The state reached after the scanned fields. -/
theorem quic_scan (k : QuicKind) (m : Mode) (buf : Buf) (hmin : k.decl.minSize ≤ buf.length)
    (hsl : SliceLen buf.length) {vals : List Val} {r : Buf}
    (hs : scan m k.items (k.head.map (·.read buf)) (buf.drop k.headSize) = some (vals, r)) :
    Alive buf (St.run m buf .init (k.decl.fields.take k.head.length ++ k.mid)) vals r := by
  rw [run_append]
  exact scan_alive hsl _ _ (quic_mid k) (quic_head k m buf hmin).1 hs

/-! ## Packets with a Length field -/

/-- Packets with a Length field. -/
def QuicKind.long : QuicKind → Bool
  | .initial => true
  | .zeroRtt => true
  | .handshake => true
  | _ => false

/-- Position of the Length field. -/
def QuicKind.lengthPos (k : QuicKind) : Nat := k.head.length + k.items.length

theorem long_fields (k : QuicKind) (h : k.long = true) :
    k.decl.fields = (k.decl.fields.take k.head.length ++ k.mid) ++ tailFields k.lengthPos := by
  cases k <;> first | rfl | cases h

theorem long_remaining (k : QuicKind) (h : k.long = true) (m : Mode) (buf : Buf) :
    QuicPacket.remaining m ⟨k, buf⟩ = k.decl.getRaw m buf (k.lengthPos + 3) := by
  cases k <;> first | rfl | cases h

theorem lenFrames_ends (a b : Nat) : (lenFrames a b).ends := fun _ _ _ hg _ =>
  (hg _).bind fun _ _ => (asNums_NH _).bind fun _ _ => (varint_NH _).bind fun _ _ =>
    (hg _).bind fun _ _ => (asNums_NH _).bind fun _ _ => usub_NH _ _ _

theorem long_endFields (k : QuicKind) (m : Mode) :
    endFields m (tailFields k.lengthPos) := by
  intro f hf
  simp only [tailFields, List.mem_cons, List.not_mem_nil, or_false] at hf
  rcases hf with rfl | rfl | rfl | rfl
  · exact ⟨fun e he => by cases he; exact lenVarintLength_ends, fun c hc => by cases hc⟩
  · exact ⟨fun e he => by cases he; exact lenNum_ends _ _, fun c hc => by cases hc⟩
  · exact ⟨fun e he => by cases he; exact lenFrames_ends _ _, fun c hc => by cases hc⟩
  · exact ⟨fun e he => (by cases he), fun c hc => by cases hc⟩

/-- The remaining bytes of a packet with a Length field. -/
theorem remaining_long (k : QuicKind) (hk : k.long = true) (m : Mode) (buf : Buf)
    (hmin : 7 ≤ buf.length) (hsl : SliceLen buf.length) :
    QuicPacket.remaining m ⟨k, buf⟩ =
      match scan m k.items (k.head.map (·.read buf)) (buf.drop 5) with
      | some (_, r) => tailRest m (bitsAt buf 6 2 + 1) r
      | none => panic := by
  have hmin' : k.decl.minSize ≤ buf.length := by
    rw [quic_minSize]; cases k <;> first | exact hmin | cases hk
  have hhs : k.headSize = 5 := by cases k <;> first | rfl | cases hk
  rw [long_remaining k hk]
  have hlen : (k.decl.fields.take k.head.length ++ k.mid).length = k.lengthPos := by
    cases k <;> first | rfl | cases hk
  rw [← hhs]
  cases hs : scan m k.items (k.head.map (·.read buf)) (buf.drop k.headSize) with
  | some x =>
    obtain ⟨vals, r⟩ := x
    have ha := quic_scan k m buf hmin' hsl hs
    have hx : vals[4]? = some (.num (bitsAt buf 6 2)) ∧ vals.length = k.lengthPos := by
      have hv := ha.vals
      have hbef : k.decl.before m buf k.lengthPos =
          St.run m buf .init (k.decl.fields.take k.head.length ++ k.mid) := by
        rw [Decl.before]; congr 1
        cases k <;> first | rfl | cases hk
      have hpos : k.lengthPos ≤ k.decl.fields.length := by
        cases k <;> first | decide | cases hk
      have hb := before_vals (d := k.decl) (m := m) (buf := buf) k.lengthPos hpos
      rw [hbef, hv] at hb
      have hl := congrArg List.length hb
      simp only [List.length_map, List.length_range] at hl
      refine ⟨?_, hl⟩
      have h4 : 4 < k.lengthPos := by cases k <;> first | decide | cases hk
      have hg := congrArg (·[4]?) hb
      simp only [List.getElem?_map, List.getElem?_range h4, Option.map_some] at hg
      have hget : k.decl.get m buf 4 = .ok (.num (bitsAt buf 6 2)) := by
        have hslot : k.head[4]? = some ⟨"packet_number_len", 6, .int 2⟩ := by
          cases k <;> first | rfl | cases hk
        exact layoutOk_get (quic_layout k) hslot m buf hmin'
      rw [hget] at hg
      cases hv4 : vals[4]? with
      | none => rw [hv4] at hg; cases hg
      | some v => rw [hv4] at hg; simpa using hg
    exact getRaw_tail hlen (long_fields k hk) hsl ha hx.2 hx.1 (bitsAt_lt buf 6 2)
  | none =>
    simp only
    have hfields : k.decl.fields = (k.decl.fields.take k.head.length ++ k.mid ++
        [fbytes "length" lenVarintLength, fbytes "packet_number" (lenPn 4),
          fbytes "frames" (lenFrames k.lengthPos (k.lengthPos + 1))]) ++ [frest "remaining"] := by
      rw [List.append_assoc (_ ++ _)]
      exact long_fields k hk
    rw [getRaw_last hfields rfl (by rw [List.length_append, hlen]; rfl), run_append, run_append]
    obtain ⟨hal, hN⟩ := quic_head k m buf hmin'
    have hd := fun o => scan_dead (o := o) hsl _ _ (quic_mid k) hal
      (by simpa using quic_tame k) (fun j hj => by simp at hj) hN hs
    generalize hst : St.run m buf (St.run m buf .init (k.decl.fields.take k.head.length)) k.mid = st at hd
    have hnh : (∀ l ∈ st.lens, NH l) ∧ ∀ x ∈ st.vals, NH x := by
      rw [← hst]
      obtain ⟨sizes, h1, -⟩ := hal.lens
      refine run_NH _ (items_endFields m (quic_mid k)) _ ?_ ?_
      · rw [h1]; intro l hl; obtain ⟨n, -, rfl⟩ := List.mem_map.mp hl; exact NH.ok _
      · rw [hal.vals]; intro l hl; obtain ⟨n, -, rfl⟩ := List.mem_map.mp hl; exact NH.ok _
    have hbad : ∀ n, lenExpr m buf st lenVarintLength ≠ .ok n := by
      intro n hn
      simp only [lenExpr, lenVarintLength, bind_eq_ok] at hn
      obtain ⟨r, ⟨o, ho, hr⟩, -⟩ := hn
      have := hd o ho
      rw [sliceFrom, if_neg (by omega)] at hr
      simp at hr
    have hef : endFields m [fbytes "length" lenVarintLength, fbytes "packet_number" (lenPn 4),
        fbytes "frames" (lenFrames k.lengthPos (k.lengthPos + 1))] := fun f hf =>
      long_endFields k m f (by
        simp only [List.mem_cons, List.not_mem_nil, or_false] at hf
        simp only [tailFields, List.mem_cons, List.not_mem_nil, or_false]
        rcases hf with h | h | h <;> simp [h])
    apply not_ok_panic
    · exact varSlice_NH (curOff_NH (run_NH _ hef st hnh.1 hnh.2).1) (NH.ok _)
    · intro a ha
      rw [varSlice, bind_eq_ok] at ha
      obtain ⟨o, ho, -⟩ := ha
      refine curOff_error ⟨lenExpr m buf st lenVarintLength, ?_, hbad⟩ o ho
      simp [St.run, St.step, fbytes]

end Verif
