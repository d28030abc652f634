import Verif.Model.Derive

/-!
# The packet declarations of the crate (all protocols but QUIC)

Each `#[derive(Packet)]` struct of `/repo/src` as a `Decl`. Fields are referred to by position
(first field = 0) in length expressions.
-/

namespace Verif

/-! ## Vocabulary for declarations -/

/-- `uN`/`uNbe` as field type or `construct_with` argument (`parse.rs:298-327`: big endian is the
default). -/
abbrev u (n : Nat) : Prim := ⟨n, .big⟩

/-- A plain integer field. -/
def fprim (name : String) (n : Nat) : Field := { name, ty := .prim (u n) }

/-- A field with `#[construct_with(uN, ..)]`. -/
def fmisc (name : String) (ns : List Nat) : Field := { name, ty := .misc (ns.map u) }

/-- A field `Vec<u8>` with `#[length]`. -/
def fbytes (name : String) (len : LenExpr) : Field := { name, ty := .vecPrim (u 8), len := some len }

/-- A field `Vec<u8>` without `#[length]`. -/
def frest (name : String) : Field := { name, ty := .vecPrim (u 8) }

/-- A `#[payload]` field `Vec<u8>` with `#[length]`. -/
def fpayload (name : String) (len : LenExpr) : Field :=
  { name, ty := .vecPrim (u 8), payload := true, len := some len }

/-- A `#[payload]` field `Vec<u8>` without `#[length]`. -/
def fpayloadRest (name : String) : Field := { name, ty := .vecPrim (u 8), payload := true }

/-- The integer value of an integer field. -/
def Val.asNum : Val → Res Nat
  | .num n => .ok n
  | _ => panic

/-- The content of a one-argument `construct_with` field (`x.0`). -/
def Val.asTuple1 : Val → Res Nat
  | .nums [n] => .ok n
  | _ => panic

/-- The content of a `Vec<u8>` field. -/
def Val.asNums : Val → Res (List Nat)
  | .nums ns => .ok ns
  | _ => panic

/-- A constant length. -/
def lenConst (n : Nat) : LenExpr := fun _ _ _ => .ok n

/-- A length computed from integer field `i` by a function that cannot panic. -/
def lenNum (i : Nat) (f : Nat → Nat) : LenExpr := fun _ get _ => do
  let v ← get i
  .ok (f (← v.asNum))

/-! ## Link layer -/

/-- `Ethernet`, `src/ethernet.rs:15-25`. -/
def ethernet : Decl := ⟨[
  fmisc "destination" [8, 8, 8, 8, 8, 8],
  fmisc "source" [8, 8, 8, 8, 8, 8],
  fmisc "ethertype" [16],
  fpayloadRest "payload"]⟩

/-- `Vlan`, `src/vlan.rs:56-67`. -/
def vlan : Decl := ⟨[
  fmisc "priority_code_point" [3],
  fprim "drop_eligible_indicator" 1,
  fprim "vlan_identifier" 12,
  fmisc "ethertype" [16],
  fpayloadRest "payload"]⟩

/-- `Arp`, `src/arp.rs:74-101`. -/
def arp : Decl := ⟨[
  fmisc "hardware_type" [16],
  fmisc "protocol_type" [16],
  fprim "hw_addr_len" 8,
  fprim "proto_addr_len" 8,
  fmisc "operation" [16],
  fmisc "sender_hw_addr" [8, 8, 8, 8, 8, 8],
  fmisc "sender_proto_addr" [8, 8, 8, 8],
  fmisc "target_hw_addr" [8, 8, 8, 8, 8, 8],
  fmisc "target_proto_addr" [8, 8, 8, 8],
  fpayload "payload" (lenConst 0)]⟩

/-! ## IPv4 -/

/-- `ipv4_options_length`, `src/ipv4.rs:216-221`. -/
def ipv4OptionsLength (headerLength : Nat) : Nat := headerLength * 4 - 20

/-- `ipv4_payload_length`, `src/ipv4.rs:228-230`. -/
def ipv4PayloadLength (totalLength headerLength : Nat) : Nat := totalLength - headerLength * 4

/-- `ipv4_option_length`, `src/ipv4.rs:259-265` (EOL = 0, NOP = 1, `src/ipv4.rs:35,38`). -/
def ipv4OptionLength (number : Nat) : Nat := if number = 0 then 0 else if number = 1 then 0 else 1

/-- `ipv4_option_payload_length`, `src/ipv4.rs:267-272`. -/
def ipv4OptionPayloadLength (length : List Nat) : Nat :=
  match length with
  | len :: _ => len - 2
  | [] => 0

/-- `Ipv4Option`, `src/ipv4.rs:240-254`. -/
def ipv4Option : Decl := ⟨[
  fprim "copied" 1,
  fprim "class" 2,
  fmisc "number" [5],
  fbytes "length" (fun _ get _ => do
    let v ← get 2
    .ok (ipv4OptionLength (← v.asTuple1))),
  fpayload "data" (fun _ get _ => do
    let v ← get 3
    .ok (ipv4OptionPayloadLength (← v.asNums)))]⟩

/-- `Ipv4`, `src/ipv4.rs:131-155`. -/
def ipv4 : Decl := ⟨[
  fprim "version" 4,
  fprim "header_length" 4,
  fprim "dscp" 6,
  fprim "ecn" 2,
  fprim "total_length" 16,
  fprim "identification" 16,
  fprim "flags" 3,
  fprim "fragment_offset" 13,
  fprim "ttl" 8,
  fmisc "next_level_protocol" [8],
  fprim "checksum" 16,
  fmisc "source" [8, 8, 8, 8],
  fmisc "destination" [8, 8, 8, 8],
  { name := "options", ty := .vecPkt ipv4Option.codec, len := some (lenNum 1 ipv4OptionsLength) },
  fpayload "payload" (fun _ get _ => do
    let t ← get 4
    let h ← get 1
    .ok (ipv4PayloadLength (← t.asNum) (← h.asNum)))]⟩

/-! ## IPv6 -/

/-- `Ipv6`, `src/ipv6.rs:15-32`. -/
def ipv6 : Decl := ⟨[
  fprim "version" 4,
  fprim "traffic_class" 8,
  fprim "flow_label" 20,
  fprim "payload_length" 16,
  fmisc "next_header" [8],
  fprim "hop_limit" 8,
  fmisc "source" [16, 16, 16, 16, 16, 16, 16, 16],
  fmisc "destination" [16, 16, 16, 16, 16, 16, 16, 16],
  fpayload "payload" (lenNum 3 id)]⟩

/-- `ipv6_extension_length`, `src/ipv6.rs:51-53`. -/
def ipv6ExtensionLength (hdrExtLen : Nat) : Nat := hdrExtLen * 8 + 8 - 2

/-- `Extension` (also `HopByHop` and `Destination`), `src/ipv6.rs:40-49`. -/
def extension : Decl := ⟨[
  fmisc "next_header" [8],
  fprim "hdr_ext_len" 8,
  fpayload "options" (lenNum 1 ipv6ExtensionLength)]⟩

/-- `routing_extension_length`, `src/ipv6.rs:75-77`. -/
def routingExtensionLength (hdrExtLen : Nat) : Nat := hdrExtLen * 8 + 8 - 4

/-- `Routing`, `src/ipv6.rs:62-73`. -/
def routing : Decl := ⟨[
  fmisc "next_header" [8],
  fprim "hdr_ext_len" 8,
  fprim "routing_type" 8,
  fprim "segments_left" 8,
  fpayload "data" (lenNum 1 routingExtensionLength)]⟩

/-- `Fragment`, `src/ipv6.rs:79-90`. -/
def fragment : Decl := ⟨[
  fmisc "next_header" [8],
  fprim "reserved" 8,
  fprim "fragment_offset_with_flags" 16,
  fprim "id" 32,
  fpayload "payload" (lenConst 0)]⟩

/-- `FRAGMENT_FLAGS_MASK`, `src/ipv6.rs:92`. -/
def fragmentFlagsMask : Nat := 0x03

/-- `FRAGMENT_FLAGS_MORE_FRAGMENTS`, `src/ipv6.rs:93`. -/
def fragmentFlagsMore : Nat := 0x01

/-- `FRAGMENT_OFFSET_MASK = !FRAGMENT_FLAGS_MASK` on `u16`, `src/ipv6.rs:94`. -/
def fragmentOffsetMask : Nat := 0xFFFF - fragmentFlagsMask

/-- The raw field of a fragment header. -/
def fragmentRaw (m : Mode) (buf : Buf) : Res Nat := do (← fragment.get m buf 2).asNum

/-- `get_fragment_offset`, `src/ipv6.rs:97-99,107-109`. -/
def getFragmentOffset (m : Mode) (buf : Buf) : Res Nat := do
  .ok ((← fragmentRaw m buf) &&& fragmentOffsetMask)

/-- `is_last_fragment`, `src/ipv6.rs:101-103,111-113`. -/
def isLastFragment (m : Mode) (buf : Buf) : Res Bool := do
  .ok (((← fragmentRaw m buf) &&& fragmentFlagsMore) == 0)

/-- `set_fragment_offset`, `src/ipv6.rs:115-121`. -/
def setFragmentOffset (m : Mode) (buf : Buf) (offset : Nat) : Res Buf := do
  let old ← fragmentRaw m buf
  fragment.set m buf 2 (.num ((offset &&& fragmentOffsetMask) ||| (old &&& fragmentFlagsMask)))

/-- `set_last_fragment`, `src/ipv6.rs:123-131`. -/
def setLastFragment (m : Mode) (buf : Buf) (isLast : Bool) : Res Buf := do
  let old ← fragmentRaw m buf
  fragment.set m buf 2
    (.num (if isLast then old &&& (0xFFFF - fragmentFlagsMore) else old ||| fragmentFlagsMore))

/-! ## Transport -/

/-- `Udp`, `src/udp.rs:15-24`. -/
def udp : Decl := ⟨[
  fprim "source" 16,
  fprim "destination" 16,
  fprim "length" 16,
  fprim "checksum" 16,
  fpayloadRest "payload"]⟩

/-- `tcp_option_length`, `src/tcp.rs:198-204` (EOL = 0, NOP = 1, `src/tcp.rs:82-85`). -/
def tcpOptionLength (number : Nat) : Nat := if number = 0 then 0 else if number = 1 then 0 else 1

/-- `tcp_option_payload_length`, `src/tcp.rs:206-211`. -/
def tcpOptionPayloadLength (length : List Nat) : Nat :=
  match length with
  | len :: _ => if len ≥ 2 then len - 2 else 0
  | [] => 0

/-- `tcp_options_length`, `src/tcp.rs:228-234`. -/
def tcpOptionsLength (dataOffset : Nat) : Nat := if dataOffset > 5 then dataOffset * 4 - 20 else 0

/-- `TcpOption`, `src/tcp.rs:104-116`. -/
def tcpOption : Decl := ⟨[
  fmisc "number" [8],
  fbytes "length" (fun _ get _ => do
    let v ← get 0
    .ok (tcpOptionLength (← v.asTuple1))),
  fpayload "data" (fun _ get _ => do
    let v ← get 1
    .ok (tcpOptionPayloadLength (← v.asNums)))]⟩

/-- `Tcp`, `src/tcp.rs:53-70`. -/
def tcp : Decl := ⟨[
  fprim "source" 16,
  fprim "destination" 16,
  fprim "sequence" 32,
  fprim "acknowledgement" 32,
  fprim "data_offset" 4,
  fprim "reserved" 3,
  fprim "flags" 9,
  fprim "window" 16,
  fprim "checksum" 16,
  fprim "urgent_ptr" 16,
  { name := "options", ty := .vecPkt tcpOption.codec, len := some (lenNum 4 tcpOptionsLength) },
  fpayloadRest "payload"]⟩

/-! ## ICMP -/

/-- `Icmp`, `src/icmp.rs:50-62`. -/
def icmp : Decl := ⟨[
  fmisc "icmp_type" [8],
  fmisc "icmp_code" [8],
  fprim "checksum" 16,
  fpayloadRest "payload"]⟩

/-- `EchoReply`, `src/icmp.rs:205-216`. -/
def echoReply : Decl := ⟨[
  fmisc "icmp_type" [8],
  fmisc "icmp_code" [8],
  fprim "checksum" 16,
  fprim "identifier" 16,
  fprim "sequence_number" 16,
  fpayloadRest "payload"]⟩

/-- `EchoRequest`, `src/icmp.rs:282-293`. -/
def echoRequest : Decl := ⟨[
  fmisc "icmp_type" [8],
  fmisc "icmp_code" [8],
  fprim "checksum" 16,
  fprim "identifier" 16,
  fprim "sequence_number" 16,
  fpayloadRest "payload"]⟩

/-- `DestinationUnreachable`, `src/icmp.rs:352-362`. -/
def destinationUnreachable : Decl := ⟨[
  fmisc "icmp_type" [8],
  fmisc "icmp_code" [8],
  fprim "checksum" 16,
  fprim "unused" 32,
  fpayloadRest "payload"]⟩

/-- `TimeExceeded`, `src/icmp.rs:393-403`. -/
def timeExceeded : Decl := ⟨[
  fmisc "icmp_type" [8],
  fmisc "icmp_code" [8],
  fprim "checksum" 16,
  fprim "unused" 32,
  fpayloadRest "payload"]⟩

/-! ## ICMPv6 and neighbour discovery -/

/-- `Icmpv6`, `src/icmpv6.rs:63-72`. -/
def icmpv6 : Decl := ⟨[
  fmisc "icmpv6_type" [8],
  fmisc "icmpv6_code" [8],
  fprim "checksum" 16,
  fpayloadRest "payload"]⟩

/-- `(length * 8).saturating_sub(2)` in `u8` arithmetic, `src/icmpv6.rs:283`: the multiplication
panics in debug builds and wraps in release builds. -/
def ndpOptionDataLength (m : Mode) (length : Nat) : Res Nat :=
  if length * 8 < 256 then .ok (length * 8 - 2)
  else match m with
    | .debug => panic
    | .release => .ok (length * 8 % 256 - 2)

/-- `NdpOption`, `src/icmpv6.rs:277-286`. (`length` has type `u8`; its `construct_with` is
ignored, `gen.rs:126-131`.) -/
def ndpOption : Decl := ⟨[
  fmisc "option_type" [8],
  fprim "length" 8,
  fpayload "data" (fun m get _ => do
    let v ← get 1
    ndpOptionDataLength m (← v.asNum))]⟩

/-- The fields `payload` (length 0) and `options` that end every NDP message. -/
def ndpTail : List Field := [
  fpayload "payload" (lenConst 0),
  { name := "options", ty := .vecPkt ndpOption.codec }]

/-- `RouterSolicit`, `src/icmpv6.rs:300-312`. -/
def routerSolicit : Decl := ⟨[
  fmisc "icmpv6_type" [8],
  fmisc "icmpv6_code" [8],
  fprim "checksum" 16,
  fprim "reserved" 32] ++ ndpTail⟩

/-- `RouterAdvert`, `src/icmpv6.rs:343-359`. -/
def routerAdvert : Decl := ⟨[
  fmisc "icmpv6_type" [8],
  fmisc "icmpv6_code" [8],
  fprim "checksum" 16,
  fprim "hop_limit" 8,
  fprim "flags" 8,
  fprim "lifetime" 16,
  fprim "reachable_time" 32,
  fprim "retrans_time" 32] ++ ndpTail⟩

/-- `NeighborSolicit`, `src/icmpv6.rs:382-396`. -/
def neighborSolicit : Decl := ⟨[
  fmisc "icmpv6_type" [8],
  fmisc "icmpv6_code" [8],
  fprim "checksum" 16,
  fprim "reserved" 32,
  fmisc "target_addr" [16, 16, 16, 16, 16, 16, 16, 16]] ++ ndpTail⟩

/-- `NeighborAdvert`, `src/icmpv6.rs:433-448`. -/
def neighborAdvert : Decl := ⟨[
  fmisc "icmpv6_type" [8],
  fmisc "icmpv6_code" [8],
  fprim "checksum" 16,
  fprim "flags" 8,
  fprim "reserved" 24,
  fmisc "target_addr" [16, 16, 16, 16, 16, 16, 16, 16]] ++ ndpTail⟩

/-- `Redirect`, `src/icmpv6.rs:479-495`. -/
def redirect : Decl := ⟨[
  fmisc "icmpv6_type" [8],
  fmisc "icmpv6_code" [8],
  fprim "checksum" 16,
  fprim "reserved" 32,
  fmisc "target_addr" [16, 16, 16, 16, 16, 16, 16, 16],
  fmisc "dest_addr" [16, 16, 16, 16, 16, 16, 16, 16]] ++ ndpTail⟩

/-! ## GRE -/

/-- `U16BE`, `src/gre.rs:62-69`. -/
def u16BE : Decl := ⟨[
  fprim "number" 16,
  fpayload "unused" (lenConst 0)]⟩

/-- `U32BE`, `src/gre.rs:71-78`. -/
def u32BE : Decl := ⟨[
  fprim "number" 32,
  fpayload "unused" (lenConst 0)]⟩

/-- `(checksum_present | routing_present) * 2`, `src/gre.rs:48,50`. -/
def greOptLen : LenExpr := fun _ get _ => do
  let c ← get 0
  let r ← get 1
  .ok (((← c.asNum) ||| (← r.asNum)) * 2)

/-- `Gre`, `src/gre.rs:37-60`. -/
def gre : Decl := ⟨[
  fprim "checksum_present" 1,
  fprim "routing_present" 1,
  fprim "key_present" 1,
  fprim "sequence_present" 1,
  fprim "strict_source_route" 1,
  fprim "recursion_control" 3,
  fprim "zero_flags" 5,
  fprim "version" 3,
  fprim "protocol_type" 16,
  { name := "checksum", ty := .vecPkt u16BE.codec, len := some greOptLen },
  { name := "offset", ty := .vecPkt u16BE.codec, len := some greOptLen },
  { name := "key", ty := .vecPkt u32BE.codec, len := some (lenNum 2 (· * 4)) },
  { name := "sequence", ty := .vecPkt u32BE.codec, len := some (lenNum 3 (· * 4)) },
  fbytes "routing" (fun _ get _ => do
    let r ← get 1
    if (← r.asNum) = 0 then .ok 0 else panic),
  fpayloadRest "payload"]⟩

/-- All declarations of the crate outside `quic.rs`. -/
def crateDecls : List Decl := [ethernet, vlan, arp, ipv4Option, ipv4, ipv6, extension, routing,
  fragment, udp, tcpOption, tcp, icmp, echoReply, echoRequest, destinationUnreachable, timeExceeded,
  icmpv6, ndpOption, routerSolicit, routerAdvert, neighborSolicit, neighborAdvert, redirect, u16BE,
  u32BE, gre]

end Verif
