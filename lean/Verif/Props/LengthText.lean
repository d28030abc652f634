import Verif.Proofs.LengthEval
import Verif.Props.LengthExpr
import Verif.Proofs.Crate

/-! # C77: the modelled lengths are the `#[length]` texts -/

namespace Verif
open Spec LengthText

/-! ## C77 -/

/-- C77: the token trees used for the `#[length]` texts (C65, C68) are those of the texts. -/
theorem C77_tokens (s : String) (tts : List TT) (h : (s, tts) ∈ Source.lengthTokenTable) :
    (tokenise s).map flatten = some (flatten tts) := by
  have key : (Source.lengthTokenTable.all fun e => (tokenise e.1).map flatten == some (flatten e.2)) = true := by
    decide +kernel
  simpa using List.all_eq_true.mp key _ h

example : (tokenise "n_varints(varint(&ack_range_count), ...)").map flatten =
    some [.ident "n_varints", .opening .paren, .ident "varint", .opening .paren, .punct '&',
      .ident "ack_range_count", .closing .paren, .punct ',', .ident "r#field_offset",
      .closing .paren] := by decide +kernel

/-- C77: in every struct of the crate, a field of the modelled declaration has a length exactly when it
is written with `#[length]`, and the modelled length computes what is written (after the macro has put
getters in place of field names): the same value, or the same failure, in debug and in release
builds. -/
theorem C77_lengths (e : String × List RawField × Decl) (h : e ∈ crateSources) (k : Nat) (f : Field)
    (hf : e.2.2.fields[k]? = some f) :
    (f.len = none ∧ exprOf e.2.1 k = none) ∨
      ∃ len x, f.len = some len ∧ exprOf e.2.1 k = some x ∧ Denotes e.2.2 k len x := by
  have key : LensFrom e.2.1 e.2.2 0 e.2.2.fields := by
    simp only [crateSources, List.mem_cons, List.not_mem_nil, or_false] at h
    rcases h with rfl | rfl | rfl | rfl | rfl | rfl | rfl | rfl | rfl | rfl | rfl | rfl | rfl | rfl |
      rfl | rfl | rfl | rfl | rfl | rfl | rfl | rfl | rfl | rfl | rfl | rfl | rfl | rfl | rfl | rfl |
      rfl | rfl | rfl | rfl | rfl | rfl | rfl | rfl | rfl | rfl | rfl | rfl | rfl | rfl | rfl | rfl |
      rfl | rfl | rfl | rfl | rfl | rfl | rfl
    · exact lens_Ethernet
    · exact lens_Vlan
    · exact lens_Arp
    · exact lens_Ipv4
    · exact lens_Ipv4Option
    · exact lens_Ipv6
    · exact lens_Extension
    · exact lens_Routing
    · exact lens_Fragment
    · exact lens_Udp
    · exact lens_Tcp
    · exact lens_TcpOption
    · exact lens_IcmpIcmp
    · exact lens_IcmpEchoReply
    · exact lens_IcmpEchoRequest
    · exact lens_IcmpDestinationUnreachable
    · exact lens_IcmpTimeExceeded
    · exact lens_Icmpv6Icmpv6
    · exact lens_Icmpv6NdpOption
    · exact lens_Icmpv6RouterSolicit
    · exact lens_Icmpv6RouterAdvert
    · exact lens_Icmpv6NeighborSolicit
    · exact lens_Icmpv6NeighborAdvert
    · exact lens_Icmpv6Redirect
    · exact lens_Gre
    · exact lens_U16BE
    · exact lens_U32BE
    · exact lens_QuicVersionNegotiation
    · exact lens_QuicInitial
    · exact lens_QuicZeroRtt
    · exact lens_QuicHandshake
    · exact lens_QuicRetry
    · exact lens_QuicOneRtt
    · exact lens_QuicPadding
    · exact lens_QuicPing
    · exact lens_QuicAck
    · exact lens_QuicResetStream
    · exact lens_QuicStopSending
    · exact lens_QuicCrypto
    · exact lens_QuicNewToken
    · exact lens_QuicStream
    · exact lens_QuicMaxData
    · exact lens_QuicMaxStreamData
    · exact lens_QuicMaxStreams
    · exact lens_QuicDataBlocked
    · exact lens_QuicStreamDataBlocked
    · exact lens_QuicStreamsBlocked
    · exact lens_QuicNewConnectionId
    · exact lens_QuicRetireConnectionId
    · exact lens_QuicPathChallenge
    · exact lens_QuicPathResponse
    · exact lens_QuicConnectionClose
    · exact lens_QuicHandshakeDone
  have := key.get hf
  rwa [Nat.zero_add] at this

example := C77_lengths ("tcp::Tcp", Source.srcTcp, tcp) (by simp [crateSources]) 10 _ rfl

/-- C77: the getters of a packet of the crate return values within the widths of their fields, so that
the premise of `Denotes` holds of packets. -/
theorem C77_getters_typed (e : String × List RawField × Decl) (h : e ∈ crateSources) (m : Mode)
    (buf : Buf) (k : Nat) : TypedGetters e.2.2 k (e.2.2.get m buf) := by
  have key : (crateSources.all fun e => e.2.2.fields.all fun f => bigTy f.ty) = true := by decide +kernel
  intro i f v _ hf hv
  exact get_typed hf (List.all_eq_true.mp (List.all_eq_true.mp key e h) f (List.mem_of_getElem? hf)) hv

example := C77_getters_typed ("tcp::Tcp", Source.srcTcp, tcp) (by simp [crateSources]) .debug (List.replicate 20 0) 10

/-- C77: in a packet, the length of a field is the value of its text, evaluated with the packet's
getters and the bytes from the field on. -/
theorem C77_packets (e : String × List RawField × Decl) (h : e ∈ crateSources) (m : Mode) (buf : Buf)
    (k : Nat) (sizes : List Nat) (f : Field) (len : LenExpr) (hf : e.2.2.fields[k]? = some f)
    (hl : f.len = some len) :
    ∃ x, exprOf e.2.1 k = some x ∧
      evalLength e.2.2 m buf k sizes len =
        evalUsize m e.2.2 (earlierGetters e.2.2 m buf k) (tailAt buf (startOf e.2.2 k sizes)) x := by
  rcases C77_lengths e h k f hf with ⟨h1, -⟩ | ⟨len', x, h1, h2, h3⟩
  · rw [h1] at hl; cases hl
  · rw [h1] at hl
    cases hl
    refine ⟨x, h2, h3 m _ _ ?_⟩
    intro i g v hi hg hv
    unfold earlierGetters at hv
    rw [if_pos hi] at hv
    exact C77_getters_typed e h m buf k i g v hi hg hv

example : exprOf Source.srcTcp 10 = some (.call1 "tcp_options_length" (.getter "data_offset")) ∧
    exprOf Source.srcQuicInitial 14 = some (.bin .sub (.call1 "varint" (.ref (.getter "length")))
      (.method0 (.getter "packet_number") "len")) ∧
    exprOf Source.srcQuicStream 2 = some (.call2 "n_varints"
      (.ite (.bin .gt (.bin .and (.first (.getter "ty")) (.int 4)) (.int 0)) (.int 1) (.int 0)) .rest) ∧
    exprOf Source.srcTcp 11 = none := by decide +kernel

end Verif
