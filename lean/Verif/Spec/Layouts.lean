import Verif.Spec.Encode

/-!
# Specification: header layouts and option lists, from the protocol documents

Bit positions are those of the header diagrams of IEEE 802.3 / 802.1Q, RFC 826 (ARP), RFC 791
(IPv4), RFC 8200 (IPv6), RFC 793 with RFC 3168/3540 flags (TCP), RFC 768 (UDP), RFC 792 (ICMP),
RFC 4443 (ICMPv6), RFC 4861 (neighbour discovery) and RFC 1701/2890 (GRE).
-/

namespace Verif.Spec

/-- The unsigned number in `n` bits of the buffer from bit `start` on, in network order. -/
def bitsAt (buf : Buf) (start n : Nat) : Nat := ofBits (bitSlice (bitsOf buf) start n)

/-- What a header field holds: one number, or a tuple of consecutive numbers (an address or a
one-field newtype). -/
inductive Shape where
  | int (width : Nat)
  | tuple (widths : List Nat)

/-- A header field: name, first bit, shape. -/
structure Slot where
  name : String
  start : Nat
  shape : Shape

/-- The consecutive numbers of the given widths from bit `start` on. -/
def intsAt (buf : Buf) : (start : Nat) → List Nat → List Nat
  | _, [] => []
  | start, n :: ns => bitsAt buf start n :: intsAt buf (start + n) ns

/-- The value of a header field. -/
def Slot.read (buf : Buf) (s : Slot) : Val :=
  match s.shape with
  | .int n => .num (bitsAt buf s.start n)
  | .tuple ns => .nums (intsAt buf s.start ns)

/-- A six-byte hardware address. -/
abbrev mac : Shape := .tuple [8, 8, 8, 8, 8, 8]
/-- A four-byte IPv4 address. -/
abbrev v4 : Shape := .tuple [8, 8, 8, 8]
/-- An IPv6 address as eight 16-bit segments. -/
abbrev v6 : Shape := .tuple [16, 16, 16, 16, 16, 16, 16, 16]
/-- A newtype around one number. -/
abbrev one (n : Nat) : Shape := .tuple [n]

/-- IEEE 802.3. -/
def ethernetLayout : List Slot :=
  [⟨"destination", 0, mac⟩, ⟨"source", 48, mac⟩, ⟨"ethertype", 96, one 16⟩]

/-- IEEE 802.1Q tag control information and the following type. -/
def vlanLayout : List Slot :=
  [⟨"priority_code_point", 0, one 3⟩, ⟨"drop_eligible_indicator", 3, .int 1⟩,
   ⟨"vlan_identifier", 4, .int 12⟩, ⟨"ethertype", 16, one 16⟩]

/-- RFC 826, Ethernet/IPv4. -/
def arpLayout : List Slot :=
  [⟨"hardware_type", 0, one 16⟩, ⟨"protocol_type", 16, one 16⟩, ⟨"hw_addr_len", 32, .int 8⟩,
   ⟨"proto_addr_len", 40, .int 8⟩, ⟨"operation", 48, one 16⟩, ⟨"sender_hw_addr", 64, mac⟩,
   ⟨"sender_proto_addr", 112, v4⟩, ⟨"target_hw_addr", 144, mac⟩, ⟨"target_proto_addr", 192, v4⟩]

/-- RFC 791 section 3.1 (with the RFC 2474/3168 split of the type of service byte). -/
def ipv4Layout : List Slot :=
  [⟨"version", 0, .int 4⟩, ⟨"header_length", 4, .int 4⟩, ⟨"dscp", 8, .int 6⟩, ⟨"ecn", 14, .int 2⟩,
   ⟨"total_length", 16, .int 16⟩, ⟨"identification", 32, .int 16⟩, ⟨"flags", 48, .int 3⟩,
   ⟨"fragment_offset", 51, .int 13⟩, ⟨"ttl", 64, .int 8⟩, ⟨"next_level_protocol", 72, one 8⟩,
   ⟨"checksum", 80, .int 16⟩, ⟨"source", 96, v4⟩, ⟨"destination", 128, v4⟩]

/-- First byte of an IPv4 option, RFC 791 section 3.1. -/
def ipv4OptionLayout : List Slot :=
  [⟨"copied", 0, .int 1⟩, ⟨"class", 1, .int 2⟩, ⟨"number", 3, one 5⟩]

/-- RFC 8200 section 3. -/
def ipv6Layout : List Slot :=
  [⟨"version", 0, .int 4⟩, ⟨"traffic_class", 4, .int 8⟩, ⟨"flow_label", 12, .int 20⟩,
   ⟨"payload_length", 32, .int 16⟩, ⟨"next_header", 48, one 8⟩, ⟨"hop_limit", 56, .int 8⟩,
   ⟨"source", 64, v6⟩, ⟨"destination", 192, v6⟩]

/-- RFC 8200 sections 4.3 and 4.6. -/
def extensionLayout : List Slot := [⟨"next_header", 0, one 8⟩, ⟨"hdr_ext_len", 8, .int 8⟩]

/-- RFC 8200 section 4.4. -/
def routingLayout : List Slot :=
  [⟨"next_header", 0, one 8⟩, ⟨"hdr_ext_len", 8, .int 8⟩, ⟨"routing_type", 16, .int 8⟩,
   ⟨"segments_left", 24, .int 8⟩]

/-- RFC 8200 section 4.5 (offset, reserved bits and flag as one 16-bit word). -/
def fragmentLayout : List Slot :=
  [⟨"next_header", 0, one 8⟩, ⟨"reserved", 8, .int 8⟩, ⟨"fragment_offset_with_flags", 16, .int 16⟩,
   ⟨"id", 32, .int 32⟩]

/-- RFC 768. -/
def udpLayout : List Slot :=
  [⟨"source", 0, .int 16⟩, ⟨"destination", 16, .int 16⟩, ⟨"length", 32, .int 16⟩,
   ⟨"checksum", 48, .int 16⟩]

/-- RFC 793 section 3.1 with the nine flags of RFC 3168 and RFC 3540. -/
def tcpLayout : List Slot :=
  [⟨"source", 0, .int 16⟩, ⟨"destination", 16, .int 16⟩, ⟨"sequence", 32, .int 32⟩,
   ⟨"acknowledgement", 64, .int 32⟩, ⟨"data_offset", 96, .int 4⟩, ⟨"reserved", 100, .int 3⟩,
   ⟨"flags", 103, .int 9⟩, ⟨"window", 112, .int 16⟩, ⟨"checksum", 128, .int 16⟩,
   ⟨"urgent_ptr", 144, .int 16⟩]

/-- First byte of a TCP option, RFC 793 section 3.1. -/
def tcpOptionLayout : List Slot := [⟨"number", 0, one 8⟩]

/-- RFC 792. -/
def icmpLayout : List Slot :=
  [⟨"icmp_type", 0, one 8⟩, ⟨"icmp_code", 8, one 8⟩, ⟨"checksum", 16, .int 16⟩]

/-- RFC 792, echo and echo reply. -/
def echoLayout : List Slot :=
  icmpLayout ++ [⟨"identifier", 32, .int 16⟩, ⟨"sequence_number", 48, .int 16⟩]

/-- RFC 792, destination unreachable and time exceeded. -/
def unusedLayout : List Slot := icmpLayout ++ [⟨"unused", 32, .int 32⟩]

/-- RFC 4443 section 2.1. -/
def icmpv6Layout : List Slot :=
  [⟨"icmpv6_type", 0, one 8⟩, ⟨"icmpv6_code", 8, one 8⟩, ⟨"checksum", 16, .int 16⟩]

/-- RFC 4861 section 4.1. -/
def routerSolicitLayout : List Slot := icmpv6Layout ++ [⟨"reserved", 32, .int 32⟩]

/-- RFC 4861 section 4.2. -/
def routerAdvertLayout : List Slot :=
  icmpv6Layout ++ [⟨"hop_limit", 32, .int 8⟩, ⟨"flags", 40, .int 8⟩, ⟨"lifetime", 48, .int 16⟩,
    ⟨"reachable_time", 64, .int 32⟩, ⟨"retrans_time", 96, .int 32⟩]

/-- RFC 4861 section 4.3. -/
def neighborSolicitLayout : List Slot :=
  icmpv6Layout ++ [⟨"reserved", 32, .int 32⟩, ⟨"target_addr", 64, v6⟩]

/-- RFC 4861 section 4.4. -/
def neighborAdvertLayout : List Slot :=
  icmpv6Layout ++ [⟨"flags", 32, .int 8⟩, ⟨"reserved", 40, .int 24⟩, ⟨"target_addr", 64, v6⟩]

/-- RFC 4861 section 4.5. -/
def redirectLayout : List Slot :=
  icmpv6Layout ++ [⟨"reserved", 32, .int 32⟩, ⟨"target_addr", 64, v6⟩, ⟨"dest_addr", 192, v6⟩]

/-- RFC 4861 section 4.6. -/
def ndpOptionLayout : List Slot := [⟨"option_type", 0, one 8⟩, ⟨"length", 8, .int 8⟩]

/-- RFC 1701 first word (RFC 2784 and RFC 2890 use a subset). -/
def greLayout : List Slot :=
  [⟨"checksum_present", 0, .int 1⟩, ⟨"routing_present", 1, .int 1⟩, ⟨"key_present", 2, .int 1⟩,
   ⟨"sequence_present", 3, .int 1⟩, ⟨"strict_source_route", 4, .int 1⟩,
   ⟨"recursion_control", 5, .int 3⟩, ⟨"zero_flags", 8, .int 5⟩, ⟨"version", 13, .int 3⟩,
   ⟨"protocol_type", 16, .int 16⟩]

/-! ## Option lists -/

/-- One option of an option list: its kind byte, its length byte unless the kind has none, its
data. -/
structure Opt where
  kind : UInt8
  len : Option UInt8
  data : Buf

/-- Reading an option list (RFC 793 section 3.1 and RFC 791 section 3.1): a kind for which `solo`
holds stands alone; any other kind is followed by a length byte that counts the kind, itself and
the data. A length byte below 2 is read as 2, and data may be cut off by the end of the list.
There is no reading of a list that ends right after a kind byte that needs a length. -/
inductive OptParse (solo : UInt8 → Bool) : Buf → List Opt → Prop
  | nil : OptParse solo [] []
  | solo {k rest os} : solo k = true → OptParse solo rest os →
      OptParse solo (k :: rest) (⟨k, none, []⟩ :: os)
  | long {k l rest os} : solo k = false → OptParse solo (rest.drop (l.toNat - 2)) os →
      OptParse solo (k :: l :: rest) (⟨k, some l, rest.take (l.toNat - 2)⟩ :: os)

/-- An option's bytes. -/
def Opt.bytes (o : Opt) : Buf := o.kind :: (o.len.toList ++ o.data)

/-- A well-formed option: no length and no data for a solo kind, else a length byte equal to the
encoded size. -/
def Opt.wf (solo : UInt8 → Bool) (o : Opt) : Prop :=
  if solo o.kind then o.len = none ∧ o.data = []
  else ∃ l : UInt8, o.len = some l ∧ l.toNat = o.data.length + 2

/-- An option that is not cut off: as well-formed, but a length byte below 2 counts as 2. -/
def Opt.whole (solo : UInt8 → Bool) (o : Opt) : Prop :=
  if solo o.kind then o.len = none ∧ o.data = []
  else ∃ l : UInt8, o.len = some l ∧ o.data.length = l.toNat - 2

/-- TCP: kinds 0 (end of list) and 1 (no-operation) have no length. -/
def tcpSolo (k : UInt8) : Bool := k.toNat < 2

/-- IPv4: the low five bits are the option number; numbers 0 and 1 have no length. -/
def ipv4Solo (k : UInt8) : Bool := k.toNat % 32 < 2

/-- A TCP option as a struct value: number, length, data. -/
def Opt.tcpVal (o : Opt) : Val :=
  .list [.nums [o.kind.toNat], .nums (o.len.toList.map (·.toNat)), .nums (o.data.map (·.toNat))]

/-- An IPv4 option as a struct value: copied flag, class, number, length, data. -/
def Opt.ipv4Val (o : Opt) : Val :=
  .list [.num (o.kind.toNat / 128), .num (o.kind.toNat / 32 % 4), .nums [o.kind.toNat % 32],
    .nums (o.len.toList.map (·.toNat)), .nums (o.data.map (·.toNat))]

end Verif.Spec
