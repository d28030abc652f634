import Verif.Props.Payloads
import Verif.Props.Checksum
import Verif.Proofs.Options
import Verif.Model.TcpOptions

/-! # TCP and IPv4 options (C10, C11, C17, C18, C32) -/

namespace Verif.Props
open Spec

/-- The options area of a TCP segment: what the data offset leaves after the 20 fixed bytes, cut
at the end of the buffer. -/
def tcpArea (buf : Buf) : Buf := (buf.drop 20).take (4 * bitsAt buf 96 4 - 20)

/-- The options area of an IPv4 packet. -/
def ipv4Area (buf : Buf) : Buf := (buf.drop 20).take (4 * bitsAt buf 4 4 - 20)

/-! ## C17 -/

/-- **C10/C17**: `get_options_raw()` (and `get_options_iter()`, which wraps it) never panics. -/
theorem C17_tcp_options_raw (m : Mode) (buf : Buf) (h : 20 ≤ buf.length) :
    tcp.getRaw m buf 10 = .ok (tcpArea buf) := by
  have hlt := bitsAt_lt buf 96 4
  exact getRaw_fixed (d := tcp) (k := 10) rfl rfl
    (by rw [← tcpOptionsLength_eq]; exact tcp_optLen m buf h) h
    (by rw [show bitsSum (tcp.fields.take 10) = 160 from rfl]; omega)

example : tcp.getRaw .debug (List.replicate 12 0 ++ [0x60] ++ List.replicate 7 0 ++ [1, 1, 1, 2, 9]) 10 =
    .ok [1, 1, 1, 2] := C17_tcp_options_raw .debug _ (by decide)

/-- The same for IPv4. -/
theorem C17_ipv4_options_raw (m : Mode) (buf : Buf) (h : 20 ≤ buf.length) :
    ipv4.getRaw m buf 13 = .ok (ipv4Area buf) := by
  have hlt := bitsAt_lt buf 4 4
  exact getRaw_fixed (d := ipv4) (k := 13) rfl rfl (ipv4_optLen m buf h) h
    (by rw [show bitsSum (ipv4.fields.take 13) = 160 from rfl]; omega)

example : ipv4.getRaw .debug ([0x46] ++ List.replicate 19 0 ++ [1, 1, 1, 2, 9]) 13 = .ok [1, 1, 1, 2] :=
  C17_ipv4_options_raw .debug _ (by decide)

/-- **C17**, full claim for `get_options()`. -/
def C17_statement : Prop := ∀ (m : Mode) (buf : Buf), 20 ≤ buf.length →
  (∃ v, tcp.get m buf 10 = .ok v) ∧ ∃ v, ipv4.get m buf 13 = .ok v

/-- A TCP segment whose options are three no-operations and a bare MSS kind byte. -/
def cutTcp : Buf := List.replicate 12 0 ++ [0x60] ++ List.replicate 7 0 ++ [1, 1, 1, 2]

/-- An IPv4 packet whose options are three no-operations and a bare kind byte. -/
def cutIpv4 : Buf := [0x46] ++ List.replicate 19 0 ++ [1, 1, 1, 2]

/-- C17 is false: `get_options()` panics on an option that is cut off after its kind byte. -/
theorem C17_false : ¬ C17_statement := by
  intro h
  obtain ⟨v, hv⟩ := (h .debug cutTcp (by decide)).1
  have : tcp.get .debug cutTcp 10 = panic := by decide +kernel
  rw [this] at hv; cases hv

/-- The IPv4 half alone is false too, in both build modes. -/
theorem C17_ipv4_false : ∀ m, tcp.get m cutTcp 10 = panic ∧ ipv4.get m cutIpv4 13 = panic := by
  intro m; cases m <;> decide +kernel

/-- **C17**, what holds of TCP `get_options()`: it returns the options of the area when the area is
an option list, and panics exactly when the area ends right after the kind byte of an option that
needs a length byte. Missing from the full claim: that second case (`C17_false`). -/
theorem C17_tcp_get_options_partial (m : Mode) (buf : Buf) (h : 20 ≤ buf.length) :
    (∀ os, OptParse tcpSolo (tcpArea buf) os →
      tcp.get m buf 10 = .ok (.list (os.map Opt.tcpVal))) ∧
    ((∀ os, ¬ OptParse tcpSolo (tcpArea buf) os) → tcp.get m buf 10 = panic) := by
  have hg : tcp.get m buf 10 =
      (.list <$> tcpOption.codec.collect m (tcpArea buf).length (tcpArea buf)) := by
    rw [pkt_get (d := tcp) (k := 10) rfl rfl, C17_tcp_options_raw m buf h, ok_bind]
  rw [hg]
  rcases collect_opts (tcpOption_optCodec m) _ (tcpArea buf) (Nat.le_refl _) with
    ⟨os, h1, h2⟩ | ⟨h1, h2⟩
  · refine ⟨fun os' h' => ?_, fun hn => absurd h1 (hn os)⟩
    rw [h2, Verif.OptParse.unique h1 h']; rfl
  · exact ⟨fun os h' => absurd h' (h1 os), fun _ => by rw [h2]; rfl⟩

/-- The options area of a segment with data offset 6 is a maximum segment size option. -/
example : tcp.get .debug (List.replicate 12 0 ++ [0x60] ++ List.replicate 7 0 ++ [2, 4, 5, 180]) 10 =
    .ok (.list ([⟨2, some 4, [5, 180]⟩].map Opt.tcpVal)) :=
  (C17_tcp_get_options_partial .debug _ (by decide)).1 _ (.long (l := 4) rfl .nil)

/-- **C17**, the same for IPv4 `get_options()`. -/
theorem C17_ipv4_get_options_partial (m : Mode) (buf : Buf) (h : 20 ≤ buf.length) :
    (∀ os, OptParse ipv4Solo (ipv4Area buf) os →
      ipv4.get m buf 13 = .ok (.list (os.map Opt.ipv4Val))) ∧
    ((∀ os, ¬ OptParse ipv4Solo (ipv4Area buf) os) → ipv4.get m buf 13 = panic) := by
  have hg : ipv4.get m buf 13 =
      (.list <$> ipv4Option.codec.collect m (ipv4Area buf).length (ipv4Area buf)) := by
    rw [pkt_get (d := ipv4) (k := 13) rfl rfl, C17_ipv4_options_raw m buf h, ok_bind]
  rw [hg]
  rcases collect_opts (ipv4Option_optCodec m) _ (ipv4Area buf) (Nat.le_refl _) with
    ⟨os, h1, h2⟩ | ⟨h1, h2⟩
  · refine ⟨fun os' h' => ?_, fun hn => absurd h1 (hn os)⟩
    rw [h2, Verif.OptParse.unique h1 h']; rfl
  · exact ⟨fun os h' => absurd h' (h1 os), fun _ => by rw [h2]; rfl⟩

example : ipv4.get .debug ([0x46] ++ List.replicate 19 0 ++ [148, 4, 0, 0]) 13 =
    .ok (.list ([⟨148, some 4, [0, 0]⟩].map Opt.ipv4Val)) :=
  (C17_ipv4_get_options_partial .debug _ (by decide)).1 _ (.long (l := 4) rfl .nil)

/-- **C17**: an option list has no reading exactly when it is a sequence of whole options followed
by a lone kind byte that needs a length byte. -/
theorem C17_unreadable_iff (solo : UInt8 → Bool) (raw : Buf) :
    (∀ os, ¬ OptParse solo raw os) ↔
      ∃ (os : List Opt) (k : UInt8), (∀ o ∈ os, o.whole solo) ∧ solo k = false ∧
        raw = os.flatMap Opt.bytes ++ [k] := by
  constructor
  · intro h
    generalize hn : raw.length = n
    induction n using Nat.strongRecOn generalizing raw with
    | ind n ih =>
      match raw with
      | [] => exact absurd .nil (h [])
      | k :: rest =>
        cases hs : solo k with
        | true =>
          obtain ⟨os, k', h1, h2, h3⟩ := ih rest.length (by simp at hn; omega) rest
            (fun os ho => h _ (.solo hs ho)) rfl
          refine ⟨⟨k, none, []⟩ :: os, k', ?_, h2, by rw [h3]; rfl⟩
          simp only [List.mem_cons, forall_eq_or_imp]
          exact ⟨by simp [Opt.whole, hs], h1⟩
        | false =>
          match rest with
          | [] => exact ⟨[], k, by simp, hs, rfl⟩
          | l :: rest =>
            obtain ⟨os, k', h1, h2, h3⟩ := ih (rest.drop (l.toNat - 2)).length
              (by simp at hn ⊢; omega) (rest.drop (l.toNat - 2)) (fun os ho => h _ (.long hs ho)) rfl
            refine ⟨⟨k, some l, rest.take (l.toNat - 2)⟩ :: os, k', ?_, h2, ?_⟩
            · simp only [List.mem_cons, forall_eq_or_imp]
              refine ⟨?_, h1⟩
              have := congrArg List.length h3
              simp at this
              simp [Opt.whole, hs]; omega
            · have hr : rest = rest.take (l.toNat - 2) ++ (os.flatMap Opt.bytes ++ [k']) := by
                rw [← h3, List.take_append_drop]
              simp only [List.flatMap_cons, Opt.bytes, Option.toList_some, List.cons_append,
                List.nil_append, List.append_assoc, ← hr]
  · rintro ⟨os, k, h1, h2, rfl⟩
    induction os with
    | nil => intro os' h'; cases h' with | solo h3 _ => rw [h2] at h3; cases h3
    | cons o os ih =>
      have ih' := ih fun x hx => h1 x (by simp [hx])
      have ho := h1 o (by simp)
      obtain ⟨c, len, data⟩ := o
      intro os' h'
      simp only [Opt.whole] at ho
      cases hs : solo c with
      | true =>
        simp only [hs, ↓reduceIte] at ho
        obtain ⟨rfl, rfl⟩ := ho
        simp only [List.flatMap_cons, Opt.bytes, Option.toList_none, List.nil_append,
          List.cons_append] at h'
        generalize hg : os.flatMap Opt.bytes ++ [k] = raw at h' ih'
        cases h' with
        | solo _ h3 => exact ih' _ h3
        | long h3 _ => rw [hs] at h3; cases h3
      | false =>
        simp only [hs, Bool.false_eq_true, ↓reduceIte] at ho
        obtain ⟨l, rfl, hl⟩ := ho
        simp only [List.flatMap_cons, Opt.bytes, Option.toList_some, List.nil_append,
          List.cons_append, List.append_assoc] at h'
        cases h' with
        | solo h3 _ => rw [hs] at h3; cases h3
        | long _ h3 =>
          rw [← hl, List.drop_left] at h3
          exact ih' _ h3

/-- The options of `cutTcp`. -/
example : ∀ os, ¬ OptParse tcpSolo [1, 1, 1, 2] os :=
  (C17_unreadable_iff tcpSolo [1, 1, 1, 2]).mpr ⟨[⟨1, none, []⟩, ⟨1, none, []⟩, ⟨1, none, []⟩], 2,
    by simp [Opt.whole, tcpSolo], rfl, rfl⟩

/-- **C17**: `get_options_iter()` and the iteration itself never panic (whatever the options), and
neither does formatting any of the yielded options with `{:?}` (which shows number and length). -/
theorem C17_iterate_and_format (m : Mode) (raw : Buf) :
    (∃ ps, tcpOption.codec.items m raw.length raw = .ok ps ∧
      ∀ p ∈ ps, tcpOption.debug m p = .ok ()) ∧
    (∃ ps, ipv4Option.codec.items m raw.length raw = .ok ps ∧
      ∀ p ∈ ps, ipv4Option.debug m p = .ok ()) := by
  have tcpDebug : ∀ p : Buf, 1 ≤ p.length → tcpOption.debug m p = .ok () := by
    intro p hp
    match p with
    | k :: rest =>
      have h1 : tcpOption.get m (k :: rest) 1 =
          .ok (.nums ((rest.take (if tcpSolo k then 0 else 1)).map (·.toNat))) := by
        rw [bytes_get (d := tcpOption) (k := 1) rfl rfl, tcpOption_decl.length]; rfl
      rw [Decl.debug, final_vals]
      simp only [show List.range tcpOption.fields.length = [0, 1, 2] from rfl, List.map_cons,
        List.map_nil, tcpOption_get0, h1]
      rfl
  have ipv4Debug : ∀ p : Buf, 1 ≤ p.length → ipv4Option.debug m p = .ok () := by
    intro p hp
    match p with
    | k :: rest =>
      have h1 : ipv4Option.get m (k :: rest) 3 =
          .ok (.nums ((rest.take (if ipv4Solo k then 0 else 1)).map (·.toNat))) := by
        rw [bytes_get (d := ipv4Option) (k := 3) rfl rfl, ipv4Option_decl.length]; rfl
      rw [Decl.debug, final_vals]
      simp only [show List.range ipv4Option.fields.length = [0, 1, 2, 3, 4] from rfl, List.map_cons,
        List.map_nil, ipv4Option_get, h1]
      rfl
  constructor
  · obtain ⟨ps, h1, h2⟩ := items_opts (tcpOption_optCodec m) raw.length raw
    exact ⟨ps, h1, fun p hp => tcpDebug p (h2 p hp)⟩
  · obtain ⟨ps, h1, h2⟩ := items_opts (ipv4Option_optCodec m) raw.length raw
    exact ⟨ps, h1, fun p hp => ipv4Debug p (h2 p hp)⟩

example : OptParse tcpSolo [1, 2, 4, 5, 180, 0] [⟨1, none, []⟩, ⟨2, some 4, [5, 180]⟩, ⟨0, none, []⟩] :=
  .solo rfl (.long (rest := [5, 180, 0]) rfl (.solo rfl .nil))

example : tcp.get .debug (List.replicate 12 0 ++ [0x70] ++ List.replicate 7 0 ++
      [1, 1, 2, 4, 5, 180, 0, 0]) 10 =
    .ok (.list ([⟨1, none, []⟩, ⟨1, none, []⟩, ⟨2, some 4, [5, 180]⟩, ⟨0, none, []⟩, ⟨0, none, []⟩].map
      Opt.tcpVal)) := by decide +kernel

/-! ## C18 -/

/-- **C18**, TCP. When the data offset leaves room for the options, `set_options` writes their
encodings after the 20 fixed bytes and changes nothing else; when they fill the options area,
`get_options()` returns them and `get_options_raw()` is the concatenation of the encodings. -/
theorem C18_tcp_options (m : Mode) (buf : Buf) (os : List Opt) (hwf : ∀ o ∈ os, o.wf tcpSolo)
    (hsl : SliceLen buf.length) (hfit : 20 + (os.flatMap Opt.bytes).length ≤ buf.length)
    (hle : 20 + (os.flatMap Opt.bytes).length ≤ 4 * bitsAt buf 96 4 ∨ os = []) :
    ∃ new, tcp.set m buf 10 (.list (os.map Opt.tcpVal)) = .ok new ∧
      new = buf.take 20 ++ os.flatMap Opt.bytes ++ buf.drop (20 + (os.flatMap Opt.bytes).length) ∧
      (20 + (os.flatMap Opt.bytes).length = 4 * bitsAt buf 96 4 →
        tcp.get m new 10 = .ok (.list (os.map Opt.tcpVal)) ∧
        tcp.getRaw m new 10 = .ok (os.flatMap Opt.bytes)) := by
  have h20 : 20 ≤ buf.length := by omega
  have hlt := bitsAt_lt buf 96 4
  have hset := set_options (d := tcp) (m := m) (buf := buf) (k := 10) (vs := os.map Opt.tcpVal)
    (bytes := os.flatMap Opt.bytes) tcpOption_inner rfl rfl rfl rfl
    (by rw [fieldLen]; exact tcp_optLen m buf h20) (by rw [tcpOptionsLength_eq]; omega)
    (by
      intro v hv
      obtain ⟨o, ho, rfl⟩ := List.mem_map.mp hv
      exact tcpVal_valid m o (hwf o ho))
    (by
      rw [List.flatMap_map]
      congr 1
      funext o
      exact tcpVal_enc m o)
    (by
        rw [tcpOptionsLength_eq]
        rcases hle with h | rfl
        · omega
        · simp) hfit hsl
  refine ⟨_, hset, rfl, fun heq => ?_⟩
  generalize hnew : buf.take 20 ++ os.flatMap Opt.bytes ++
    buf.drop (20 + (os.flatMap Opt.bytes).length) = new
  have h20' : (buf.take 20).length = 20 := by rw [List.length_take]; omega
  have hlen : 20 ≤ new.length := by rw [← hnew]; simp; omega
  have hoff : bitsAt new 96 4 = bitsAt buf 96 4 := by
    rw [← hnew, List.append_assoc, bitsAt_prefix _ _ (by omega)]
    conv => rhs; rw [← List.take_append_drop 20 buf, bitsAt_prefix _ _ (by omega)]
  have harea : tcpArea new = os.flatMap Opt.bytes := by
    rw [tcpArea, hoff, ← heq, ← hnew, List.append_assoc,
      show 20 + (os.flatMap Opt.bytes).length - 20 = (os.flatMap Opt.bytes).length by omega]
    conv => lhs; rw [show List.drop 20 (buf.take 20 ++ (os.flatMap Opt.bytes ++
      buf.drop (20 + (os.flatMap Opt.bytes).length))) = os.flatMap Opt.bytes ++
      buf.drop (20 + (os.flatMap Opt.bytes).length) from by
        conv => lhs; rw [← h20']
        rw [h20', List.drop_append_of_le_length (by omega), List.drop_eq_nil_of_le (by omega),
          List.nil_append]]
    rw [List.take_left]
  refine ⟨(C17_tcp_get_options_partial m new hlen).1 os ?_, ?_⟩
  · rw [harea]; exact Opt.parse_bytes os hwf
  · rw [C17_tcp_options_raw m new hlen, harea]

example := C18_tcp_options .debug (List.replicate 12 0 ++ [0x70] ++ List.replicate 17 0)
  [⟨2, some 4, [5, 180]⟩, ⟨4, some 2, []⟩, ⟨1, none, []⟩, ⟨0, none, []⟩] (by simp [Opt.wf, tcpSolo]) (by decide)
  (by decide)
  (.inl (by decide))

/-- **C18**, IPv4. -/
theorem C18_ipv4_options (m : Mode) (buf : Buf) (os : List Opt) (hwf : ∀ o ∈ os, o.wf ipv4Solo)
    (hsl : SliceLen buf.length) (hfit : 20 + (os.flatMap Opt.bytes).length ≤ buf.length)
    (hle : 20 + (os.flatMap Opt.bytes).length ≤ 4 * bitsAt buf 4 4 ∨ os = []) :
    ∃ new, ipv4.set m buf 13 (.list (os.map Opt.ipv4Val)) = .ok new ∧
      new = buf.take 20 ++ os.flatMap Opt.bytes ++ buf.drop (20 + (os.flatMap Opt.bytes).length) ∧
      (20 + (os.flatMap Opt.bytes).length = 4 * bitsAt buf 4 4 →
        ipv4.get m new 13 = .ok (.list (os.map Opt.ipv4Val)) ∧
        ipv4.getRaw m new 13 = .ok (os.flatMap Opt.bytes)) := by
  have h20 : 20 ≤ buf.length := by omega
  have hlt := bitsAt_lt buf 4 4
  have hset := set_options (d := ipv4) (m := m) (buf := buf) (k := 13) (vs := os.map Opt.ipv4Val)
    (bytes := os.flatMap Opt.bytes) ipv4Option_inner rfl rfl rfl rfl
    (by rw [fieldLen]; exact ipv4_optLen m buf h20) (by omega)
    (by
      intro v hv
      obtain ⟨o, ho, rfl⟩ := List.mem_map.mp hv
      exact ipv4Val_valid m o (hwf o ho))
    (by
      rw [List.flatMap_map]
      congr 1
      funext o
      exact ipv4Val_enc m o)
    (by
        rcases hle with h | rfl
        · omega
        · simp) hfit hsl
  refine ⟨_, hset, rfl, fun heq => ?_⟩
  generalize hnew : buf.take 20 ++ os.flatMap Opt.bytes ++
    buf.drop (20 + (os.flatMap Opt.bytes).length) = new
  have h20' : (buf.take 20).length = 20 := by rw [List.length_take]; omega
  have hlen : 20 ≤ new.length := by rw [← hnew]; simp; omega
  have hoff : bitsAt new 4 4 = bitsAt buf 4 4 := by
    rw [← hnew, List.append_assoc, bitsAt_prefix _ _ (by omega)]
    conv => rhs; rw [← List.take_append_drop 20 buf, bitsAt_prefix _ _ (by omega)]
  have harea : ipv4Area new = os.flatMap Opt.bytes := by
    rw [ipv4Area, hoff, ← heq, ← hnew, List.append_assoc,
      show 20 + (os.flatMap Opt.bytes).length - 20 = (os.flatMap Opt.bytes).length by omega]
    rw [List.drop_append_of_le_length (by omega), List.drop_eq_nil_of_le (by omega),
      List.nil_append, List.take_left]
  refine ⟨(C17_ipv4_get_options_partial m new hlen).1 os ?_, ?_⟩
  · rw [harea]; exact Opt.parse_bytes os hwf
  · rw [C17_ipv4_options_raw m new hlen, harea]

example := C18_ipv4_options .debug ([0x46] ++ List.replicate 23 0) [⟨148, some 4, [0, 0]⟩]
  (by simp [Opt.wf, ipv4Solo]) (by decide)
  (by decide) (.inl (by decide))

/-- Options filling 8 bytes, and a segment with data offset 7. -/
example : (∀ o ∈ ([⟨2, some 4, [5, 180]⟩, ⟨4, some 2, []⟩, ⟨1, none, []⟩, ⟨0, none, []⟩] : List Opt),
      o.wf tcpSolo) ∧
    bitsAt (List.replicate 12 0 ++ [0x70] ++ List.replicate 17 0) 96 4 = 7 := by
  refine ⟨?_, by decide +kernel⟩
  simp [Opt.wf, tcpSolo]

/-! ## C32 -/

/-- **C32**: a well-formed option, written anywhere, reads back unchanged and with its size. -/
theorem C32_wf_option_reads_back (m : Mode) (o : Opt) (h : o.wf tcpSolo) (tail : Buf) :
    tcpOption.fromPacket m (o.bytes ++ tail) = .ok o.tcpVal ∧
    tcpOption.packetSize m (o.bytes ++ tail) = .ok o.bytes.length := by
  obtain ⟨k, len, data⟩ := o
  have hc := tcpOption_optCodec m
  simp only [Opt.wf] at h
  cases hs : tcpSolo k with
  | true =>
    simp only [hs, ↓reduceIte] at h
    obtain ⟨rfl, rfl⟩ := h
    exact ⟨hc.soloDec k _ hs, hc.soloSize k _ hs⟩
  | false =>
    simp only [hs, Bool.false_eq_true, ↓reduceIte] at h
    obtain ⟨l, rfl, hl⟩ := h
    have h1 := hc.longDec k l (data ++ tail) hs
    have h2 := hc.longSize k l (data ++ tail) hs
    rw [show l.toNat - 2 = data.length by omega] at h1 h2
    rw [List.take_left] at h1
    refine ⟨h1, h2.trans ?_⟩
    simp [Opt.bytes]; omega

example := C32_wf_option_reads_back .debug ⟨2, some 4, [5, 180]⟩ (by simp [Opt.wf, tcpSolo]) [9, 9]

/-- **C32**: the constructors without a list argument build well-formed options of the RFC kinds,
with their integers in network order. -/
theorem C32_constructors (my their mss : Nat) (hmy : my < 2 ^ 32) (htheir : their < 2 ^ 32)
    (hmss : mss < 2 ^ 16) (shift : UInt8) :
    (∃ o : Opt, tcpNop = o.tcpVal ∧ o.wf tcpSolo ∧ o.bytes = [1]) ∧
    (∃ o : Opt, tcpTimestamp my their = o.tcpVal ∧ o.wf tcpSolo ∧ o.kind = 8 ∧ o.len = some 10 ∧
      o.bytes.length = 10 ∧ beNat (o.data.take 4) = my ∧ beNat (o.data.drop 4) = their) ∧
    (∃ o : Opt, tcpMssOption mss = o.tcpVal ∧ o.wf tcpSolo ∧ o.kind = 2 ∧ o.len = some 4 ∧
      o.bytes.length = 4 ∧ beNat o.data = mss) ∧
    (∃ o : Opt, tcpWscale shift = o.tcpVal ∧ o.wf tcpSolo ∧ o.bytes = [3, 3, shift]) ∧
    (∃ o : Opt, tcpSackPerm = o.tcpVal ∧ o.wf tcpSolo ∧ o.bytes = [4, 2]) := by
  refine ⟨⟨⟨1, none, []⟩, rfl, ⟨rfl, rfl⟩, rfl⟩,
    ⟨⟨8, some 10, octets32 my ++ octets32 their⟩, rfl, ⟨10, rfl, rfl⟩, rfl, rfl, rfl, ?_, ?_⟩,
    ⟨⟨2, some 4, octets16 mss⟩, rfl, ⟨4, rfl, rfl⟩, rfl, rfl, rfl, ?_⟩,
    ⟨⟨3, some 3, [shift]⟩, rfl, ⟨3, rfl, rfl⟩, rfl⟩, ⟨⟨4, some 2, []⟩, rfl, ⟨2, rfl, rfl⟩, rfl⟩⟩
  · exact ((C41_octets my).2.1 hmy).2
  · exact ((C41_octets their).2.1 htheir).2
  · exact ((C41_octets mss).2.2.1 hmss).2

example := C32_constructors 1 2 1460 (by decide) (by decide) (by decide) 7

/-- **C32**, full claim for `selective_ack`. -/
def C32_statement : Prop := ∀ (m : Mode) (acks : List Nat), (∀ a ∈ acks, a < 2 ^ 32) →
  ∃ o : Opt, tcpSelectiveAck m acks = .ok o.tcpVal ∧ o.wf tcpSolo

/-- C32 is false: with 64 acknowledgement numbers the length byte is truncated to 2. -/
theorem C32_false : ¬ C32_statement := by
  intro h
  obtain ⟨o, h1, h2⟩ := h .debug (List.replicate 64 0) (by simp)
  have hv : tcpSelectiveAck .debug (List.replicate 64 0) =
      .ok (mkTcpOption 5 [2] (List.replicate 256 0)) := by decide +kernel
  rw [hv] at h1
  obtain ⟨k, len, data⟩ := o
  simp only [mkTcpOption, Opt.tcpVal, Except.ok.injEq, Val.list.injEq, List.cons.injEq, Val.nums.injEq,
    and_true] at h1
  obtain ⟨hk, hlen, hdata⟩ := h1
  have hd : data.length = 256 := by
    have := congrArg List.length hdata
    rw [List.length_map, List.length_map, List.length_replicate] at this
    exact this.symm
  have hs : tcpSolo k = false := by simp [tcpSolo]; omega
  simp only [Opt.wf, hs, Bool.false_eq_true, ↓reduceIte] at h2
  obtain ⟨l, -, hl⟩ := h2
  have := l.toNat_lt
  omega

/-- **C32** for `selective_ack` with at most 63 numbers: well-formed, the numbers in network
order. (It never panics, even with more.) Missing: 64 numbers and more (`C32_false`). -/
theorem C32_selective_ack_partial (m : Mode) (acks : List Nat) (hr : ∀ a ∈ acks, a < 2 ^ 32)
    (hn : acks.length < 64) :
    ∃ o : Opt, tcpSelectiveAck m acks = .ok o.tcpVal ∧ o.wf tcpSolo ∧ o.kind = 5 ∧
      o.bytes.length = 2 + 4 * acks.length ∧
      ∀ i (h : i < acks.length), beNat ((o.data.drop (4 * i)).take 4) = acks[i] := by
  have hl := octets32_length acks
  have hadd : u8add m (1 + 1) ((acks.flatMap octets32).length % 256) = .ok (2 + 4 * acks.length) := by
    unfold u8add
    rw [hl, Nat.mod_eq_of_lt (by omega), if_pos (by omega)]
  have hto : (UInt8.ofNat (2 + 4 * acks.length)).toNat = 2 + 4 * acks.length := by
    rw [UInt8.toNat_ofNat']; omega
  refine ⟨⟨5, some (UInt8.ofNat (2 + 4 * acks.length)), acks.flatMap octets32⟩, ?_, ?_, rfl, ?_, ?_⟩
  · simp only [tcpSelectiveAck, hadd, ok_bind, mkTcpOption, Opt.tcpVal, Option.toList_some,
      List.map_cons, List.map_nil, hto]
    rfl
  · exact ⟨_, rfl, by rw [hto, hl]; omega⟩
  · simp [Opt.bytes, hl]; omega
  · clear hadd hto hl hn
    induction acks with
    | nil => intro i h; simp at h
    | cons a as ih =>
      intro i h
      cases i with
      | zero =>
        have := ((C41_octets a).2.1 (hr a (by simp))).2
        simpa [octets32] using this
      | succ i =>
        have := ih (fun x hx => hr x (by simp [hx])) i (by simpa using h)
        rw [List.getElem_cons_succ, ← this]
        congr 2

example := C32_selective_ack_partial .debug [1, 0x01020304] (by decide) (by decide)

/-- **C32**: `selective_ack` never panics; the exact length byte. -/
theorem C32_selective_ack_length (m : Mode) (acks : List Nat) :
    tcpSelectiveAck m acks =
      .ok (mkTcpOption 5 [2 + 4 * acks.length % 256] (acks.flatMap octets32)) := by
  have hl := octets32_length acks
  simp only [tcpSelectiveAck, u8add, hl]
  rw [if_pos (by omega)]
  rfl

example : tcpSelectiveAck .debug [1, 0x01020304] =
    .ok (.list [.nums [5], .nums [10], .nums [0, 0, 0, 1, 1, 2, 3, 4]]) := by decide

end Verif.Props
