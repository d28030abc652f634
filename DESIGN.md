# Formal model of libpacket: design

Everything is Lean 4 (`/verif/lean`, `lake build`). The Rust sources in `/repo` were read as text
and transcribed by hand; the code was neither built nor run.

## What is modelled

| Lean module | Rust source | What |
|---|---|---|
| `Verif/Model/Basic` | - | bytes, buffers, Rust panics as values (`Res`), slicing, usize arithmetic in debug (panic) and release (wrap) mode |
| `Verif/Model/Ops` | `derive/src/util.rs`, `gen.rs` | `operations`, `to_mutator`, `to_little_endian` and the generated shift/mask code |
| `Verif/Model/Derive` | `derive/src/gen.rs` | deep embedding of packet declarations and all generated methods |
| `Verif/Model/Index` | `derive/src/gen.rs` | the accessors once more, with machine arithmetic in their indices |
| `Verif/Model/Packet` | `core/src/packet.rs` | `PacketData`, `MutPacketData`, `clone_from`, packet equality |
| `Verif/Model/Parse` | `derive/src/parse.rs` | the declaration parser: attributes, types, field rules |
| `Verif/Model/Macro` | `derive/src/gen.rs`, `lib.rs` | which parsed declarations the generator accepts, rejects or panics on |
| `Verif/Model/LengthExpr` | `derive/src/parse.rs` | `parse_length_expr` on token trees |
| `Verif/Model/Offsets` | `derive/src/gen.rs`, `derive/src/parse.rs` | token streams of positions and lengths (`current_offset`, `...`) |
| `Verif/Model/Capacity` | `derive/src/gen.rs:178-196` | vector getters with any capacity of `Vec::with_capacity` |
| `Verif/Model/Template` | `derive/src/gen.rs` | the bodies of the generated methods, statement by statement (run by `Spec/MiniRust`) |
| `Verif/Model/Unwind` | `derive/src/gen.rs` | setters and `populate` as steps that keep the buffer when they panic |
| `Verif/Spec/MiniLeft` | (Rust) | the statements of `Spec/MiniRust`, with the buffer at the moment of a panic |
| `Verif/Model/Methods` | `derive/src/gen.rs` | which body the methods of a field have, by its type as written; the calls and sizes that go through all fields |
| `Verif/Model/Loops` | `src/util.rs`, `src/quic.rs`, `derive/src/{gen,util}.rs` | one round of every loop |
| `Verif/Model/Sources` | `src/*.rs` | the 53 `derive(Packet)` structs as written (generated by a script) |
| `Verif/Model/Fuzz` | `fuzz/fuzzers/*.rs` | the bodies of the six fuzz targets |
| `Verif/Model/DocExamples` | `derive/src/lib.rs:16-42`, `docs/using_packet.md:120-165` | the two structs of the documentation |
| `Verif/Model/Primitive` | `core/src/packet.rs`, std | `PrimitiveValues` of the addresses and their constructors, typed getters and setters |
| `Verif/Model/Types` | `core/src/types.rs` | the integer type names (generated by a script) |
| `Verif/Model/Checksum` | `src/util.rs` and the checksum functions of the protocols | checksums |
| `Verif/Model/Protocols`, `TcpOptions` | `src/*.rs` | the declarations of the crate and hand-written helpers |
| `Verif/Model/MacAddr` | `core/src/macaddr.rs` | parsing, printing, conversions, order, serde |
| `Verif/Model/Names` | `src/ip.rs`, `src/ethernet.rs`, ... | constants and their printed names (generated by a script) |
| `Verif/Model/Quic` | `src/quic.rs` | varints, packets, frames |
| `Verif/Model/LengthEval` | (Rust) | lexer, parser and evaluator for the `#[length]` texts; meaning of the Rust fragment, not code of `/repo` |
| `Verif/Model/CodeText` | `derive/src/util.rs`, `gen.rs` | the accessor texts as strings; with a parser and evaluator for the Rust fragment they use |
| `Verif/Model/Debug` | `derive/src/gen.rs:722-753` | the format string of the generated `Debug` and the text written; how a field value prints is a parameter |
| `Verif/Model/ApiNames` | `derive/src/gen.rs:25-466,655-662`, `derive/src/parse.rs:41-48` | names of generated methods and types |
| `Verif/Model/Storage` | `core/src/packet.rs:61-168` | `Index`, `IndexMut` and `len` of the packet storage |
| `Verif/Model/Iterables` | `src/ipv6.rs:34-38`, `derive/src/gen.rs:679-681` | `ExtensionIterable::new`, `size_hint` |
| `Verif/Model/DebugValue` | `core/src/macaddr.rs:94-102,160-164`, `#[derive(Debug)]` on field types | `{:?}` of field values; the text of an `Ipv6Addr` is a parameter |
| `Verif/Model/Ipv6Text` | none (`core::net` of the standard library) | the value of that parameter: `{:?}` of an `Ipv6Addr` |
| `Verif/Model/Memory` | `core/src/packet.rs:31-42,82-98`, `src/quic.rs:14-49,490-536` | the functions with `unsafe` blocks once more, with slices as addresses into objects that can be freed |
| `Verif/Model/Constants` | `src/*.rs` | types with `PrimitiveValues`, public constants |
| `Verif/Model/Diagnostics` | `derive/src/{lib,parse,gen}.rs` | parser and generator once more, with the text and place of every error |
| `Verif/Tests/*` | `derive/src/util.rs`, `derive/tests`, `src/*.rs`, `core/src/macaddr.rs` (tests) | the project's own unit tests, transcribed and run on the model; conformance checks, not properties. `Tests/CodeText` and `Tests/LengthEval` check the readers of accessor texts and of length texts against the Rust reference |
| `Verif/Model/QuicDisplay` | `src/quic.rs` | the texts printed for packets, frames and header types |

The position of a variable-length field is specified by `Verif/Spec/Sizes` (from the packet's own
getters), the wire format of structs by `Verif/Spec/Encode`, bit positions by `Verif/Spec/Bits` and
`Verif/Spec/Layouts`.

Specifications used in the property statements live in `Verif/Spec/*`, helper lemmas in
`Verif/Proofs/*`, the property theorems (with non-vacuity examples) in `Verif/Props/*`.

Some properties are about programs written with the crate, which are not code of the crate: senders and
receivers (C113, `Spec/Transfer`; C132, C133, `Spec/QuicSend`, `Spec/QuicDatagram`, `Spec/QuicOverUdp`),
a reader of nested headers (C134, `Spec/Descend`), routers (C135, `Spec/Router`), an address translator
(C136, `Spec/Translate`), a program sending packets back (C137, `Spec/Reflect`), one answering
echo requests (C138, `Spec/Ping`), one answering ARP requests (C139, `Spec/ArpAnswer`), one that puts VLAN
tags on frames and takes them off (C140, `Spec/Tagging`), programs that cut IPv4 packets into fragments and put
them together (C141, `Spec/Fragments`), routers that answer expired packets (C142, `Spec/Traceroute`) and the ends of
GRE tunnels (C143, `Spec/Tunnel`). They call nothing but
modelled functions of the crate, so their properties are about those functions working together.

### Modelling decisions

* `Buf = List UInt8`. `&mut [u8]` is modelled by returning the new buffer. A panic is the value
  `.error .panic`; an endless loop is `.error .hang` (the model never silently gives a value
  where the code panics).
* `usize` is 64 bit. `Mode.debug` = overflow checks on, `Mode.release` = wrapping.
* Integers are `Nat` with explicit `% 2^W` at the points where Rust truncates.
* Struct values are dynamically typed (`Val`), with an explicit well-typedness predicate; Rust's
  type checker discharges it in reality.
* `#[length = ...]` expressions are arbitrary functions of the already decoded earlier fields and
  of the rest of the buffer (`...`). An expression that refers to a *later* field (possible in
  Rust, see C68) is not modelled in `Derive`; C68 shows that the crate has none.
* Standard library functions are modelled by what their documentation says: `str::split`,
  `str::replace`, `u8::from_str_radix`, `usize::parse`, `{:02x}`, `chunks`, slicing, iterator
  adaptors. The one regular expression used is modelled by the recogniser it denotes.
* `serde`: a data format is modelled by the value it presents to the visitor.
* The index `co + i` of byte `i` of an integer field, the end of a copy and the loop step `co += size`
  are computed without overflow in `Model/Derive`. `Model/Index` has them with `usize` arithmetic, and
  C94 proves that the results are the same in both build modes.
* `Vec::with_capacity(n).capacity() = n` in `Model/Derive` (std only promises >=, and today reserves
  exactly `n`). `Model/Capacity` has the capacity as a parameter, see C115.
* `Vec` elements of 8 bits are taken to be called `u8` (the macro compares the name; `u8be`, `u8le` and
  `u8he`, which the crate does not use in vectors, get the loop of the wider elements instead of one copy).
* The bytes left by a call that panics are in `Model/Unwind` only; C122 shows that its setters are those
  of `Model/Derive`.

### Not modelled

Lifetimes (except of the slices in `Model/Memory`), proc-macro tokenisation
(`syn`/`quote`), messages made by `syn` itself, allocation failure. The `Debug` text of `Ipv6Addr` is the standard library's;
it is modelled from its known behaviour, without its source at hand (`Model/Ipv6Text`), and C95 holds for any injective text without separators.

## Trusted base

* Lean's kernel and the axioms `propext`, `Classical.choice`, `Quot.sound` (checked with
  `#print axioms`; no own axioms, no `sorry`, no `native_decide`/`bv_decide`).
* The reading of the Rust code: each definition cites file and lines.

## Findings: claims that are false of the code

Each has a witness theorem and, beside it, a theorem for the exact part that holds.

| Claim | What happens | Theorem |
|---|---|---|
| C04 | little-endian fields that are neither in one byte nor symmetric lose bits | `C04_false`, `C04_unfaithful` |
| C05 | a field such as `u4` at bit 5 of a byte is rejected by the macro | `C05_false` |
| C10, C11, C17 | getters of variable-length fields, `from_packet` and `get_options` panic when lengths point past the buffer | `C10_false`, `C10_more_panics`, `C11_false`, `C17_false` |
| C12 | fields such as `u9le` do not give back what `populate` stored | `C12_false`, `C12_byte_orders_partial` |
| C13 | `populate` writes a vector behind bits that do not fill a byte over these bits | `C13_false`, `C13_byte_orders_partial` |
| C14 | `packet_size(&s)` counts elements of `Vec<packet>` instead of bytes | `C14_false` |
| C15 | iterating packets of less than 8 fixed bits never ends; in release builds also by wrap-around | `C15_false`, `C15_false_wrap` |
| C19, C20 | `Vec<u16be>` getters panic on every non-empty field; setters write past the field | `C19_false`, `C19_exact_partial`, `C20_false` |
| C27 | the `*_adv` checksums ignore the last byte of extra data of odd length | `C27_false` |
| C28 | the 32-bit accumulator overflows on more than 131074 bytes | `C28_false`, `C28_release_wrong` |
| C30 | IPv4 payload with `header_length` below 5 exceeds `total_length` | `C30_false` |
| C32 | `selective_ack` with 64 or more acknowledgements overflows its length byte | `C32_false` |
| C34 | IPv6 fragment offset includes a reserved bit | `C34_false` |
| C36 | NDP options of length 32 or more overflow `u8` | `C36_false` |
| C37 | GRE packets with the routing bit panic | `C37_routing_panics` |
| C43, C49, C76 | `QuicPacket::new`, `Frame::new` and printing panic on truncated packets | `C43_new_total_false`, `C49_frame_new_total_false`, `C76_display_total_false` |
| C45 | Version Negotiation is recognised whatever the header form bit | `C45_version_negotiation_false` |
| C48 | ACK frames with ranges are cut wrongly | `C48_ack_ranges_false` |
| C50 | `populate` on a zeroed buffer panics for QUIC packets with longer varints | `C50_populate_zeroed_false` |
| C56 | a vector after bits that do not fill a byte overwrites them | `C56_false` |
| C57 | equality distinguishes owning from borrowing packets | `C57_false` |
| C58 | UDP over IPv6 or IPv4 can return checksum 0 | `C58_false`, `C58_zero_iff_partial`, `C58_zero_iff_ipv4_partial` |
| C59 | a doc comment on a field is rejected | `C59_false` |
| C66 | the macro panics instead of reporting errors (fields that straddle bytes, wide integers, `Vec<a::B>`, enums, fields named by a raw identifier such as `r#type`) | `C66_false`, `C66_more_panics` |
| C67, C68 | length expressions are not restricted as documented; one that mentions a later field makes the getters recurse forever | `C67_documented_false`, `C68_false` |
| C69 | the macro knows integer names for which no type exists | `C69_undefined` |
| C71 | the GRE fuzz target panics on four bytes announcing a checksum | `C71_false` |
| C74 | debug and release builds differ | `C74_false`, `C43_modes_differ` |
| C78 | setters of `u16le`/`u32le`/`u16he`/`u32he` at bit 5, 6 or 7 of a byte contain a literal too large for its type (truncated by rustc, so the bits lost are those of C04) | `C78_literals` |
| C80 | `clone_from` trusts safe trait implementations: one whose `packet_mut()` is shorter than `packet()`, or whose `packet()` changes between calls, makes it write outside the buffer | `C80_false` |
| C81 | the payload of `UdpPacket` is the rest of the buffer, whatever its `length` field says: padding after the datagram is read as payload | `C81_false` |
| C84 | `QuicPacket::new` accepts truncated 1-RTT, Version Negotiation and Retry packets: `dest_id()` is silently cut, `packet_number()` and `src_id()` panic | `C84_false`, `C84_one_rtt`, `C84_ids` |
| C86 | writing back the struct read from a packet panics when an option goes on after the end of the options area: `from_packet()` cuts the option, the setter's assertion compares its uncut size. For neighbor discovery options the assertion uses the wrong end (the length of the message added to the offset of the options), so there it fires only for options longer by more than the bytes before the list | `C86_false`, `C86_crate_partial` |
| C87 | in release builds a Length field smaller than the packet number is accepted: bytes of the packet number are parsed again as the start of the next packet | `C87_outcome`, `C87_short_length`, example in Props/QuicRelease.lean |
| C88 | the text "endianness must be specified for types of size >= 8" overstates the rule (size 8 needs none); a bad type in `#[construct_with]` is reported at the field's type, not at the attribute | `C88_endianness_overstated`, `C88_argument_place` |
| C89 | options of length 0 are accepted (RFC 4861: such packets must be discarded); set_options into a longer, zeroed message reads back with extra options | `C89_padding` |
| C90 | 15 fields are narrower than their types (Ipv4OptionNumber, ClassOfService, HeaderForm, FixedBit, LongPacketType): the setter drops high bits, so set_number(Ipv4OptionNumber(0x94)) reads back as 20 | `C90_false`, `C90_round_trip_partial`, `C90_reads_back_iff`, `C90_narrow` |
| C96 | `ExtensionIterable` never looks at `next_header`: it goes on into the data after the chain and takes a UDP header for an extension header. It counts authentication headers in units of 8 bytes (RFC 4302: 4 bytes) and takes the reserved byte of a fragment header for a size, so after such a header it goes on at the wrong place. | `C96_false`, `C96_more_failures`, `C96_exact` |
| C99 | `populate()` of a QUIC frame panics on a zeroed buffer as soon as one variable-length integer takes more than one byte (any value above 63): the length of the field is read from the old byte at its place. It works over the bytes of the frame itself. | `C99_false`, `C99_zeroed_partial`, `C99_over_frame` |
| C102 | a vector field `a` beside a field `a_raw` (or `a_iter`, `a_raw_mut`) is accepted and makes two methods with the same name; structs `X` and `MutableX` make two types `MutableXPacket` | `C102_false`, `C102_methods_partial`, `C102_types_partial` |
| C103 | the length of a QUIC integer field is in the field itself: a value that is not as many integers as before is read back with another length, and setting it again can panic | `C103_false`, `C103_again_false`, `C103_ints_partial` |
| C104 | `#[length_fn]`, documented, is always refused; a packet needs no payload; any field can be marked `#[payload]` (the payload then begins with the field itself) or have a `#[length]` (which moves the fields behind it beyond the minimum size, so their getters panic on packets `new` accepts) | `C104_false`, `C104_length_fn`, `C104_payload_optional`, `C104_payload_anywhere`, `C104_length_anywhere`, `C104_payload_overlaps`, `C104_length_moves` |
| C105 | setting a QUIC integer to a shorter encoding moves the fields behind it; in a release build, with a Length less than the packet number, setting the packet number changes `remaining` | `C105_false`, `C105_release_false`, `C105_bytes_partial`, `C105_ints_partial` |
| C106 | in a release build, with a Length less than the packet number, rewriting the packet number changes or destroys the next packet | `C106_false`, `C106_packets_partial` |
| C109 | A method, function or type in a length expression that has the name of a field is replaced too: beside a field `len`, `data.len()` becomes `self.get_data().self.get_len()()`, which is no expression, and the error is reported by the compiler for generated code. | `C109_false` (holds without such names: `C109_value_partial`, and for documented expressions: `C109_documented`) |
| C111 | after a field with the length `....len()` the position is no sum of lengths (see C112) | `C111_false`, `C111_position_partial` |
| C112 | `....len()` becomes `&self.packet[..].len()`, a reference to the length instead of the length of the slice | `C112_false`, `C112_rest_partial` |
| C115 | The loop of a vector getter runs `vec.capacity()` times instead of `packet.len()` times. With a library that reserves more than requested, which its documentation allows, every getter of a vector of integers and every `from_packet` panics. | `C115_false`, `C115_returns_partial` |
| C119 | A `construct_with` field after a field whose length names a field (or `...`) is accepted by the macro, but the generated code does not compile: `get_argN` and `set_argN` are functions with a parameter `_self`, and their position mentions `self` (`gen.rs:318-327`). No struct of the crate has such a field. | `C119_false`, `C119_self_iff`, `C119_crate_partial` |
| C122 | The setter of a list of packets checks after each packet that it ended inside the field: `set_options` of a TCP (or IPv4) packet with too little room for options panics with the option already written over the payload. | `C122_false`, `C122_before_partial`, `C122_options_partial`, `C122_bytes_partial` |
| C126 | Positions are not remembered, each getter computes its own from the getters of all fields before it. After `n` pairs of a length and a vector of this length, reading the next field calls `2^n - 1` getters. In the crate `get_frames` of an `Initial` packet is the worst, it calls 82. | `C126_false`, `C126_pairs`, `C126_crate`, `C126_initial`, `C126_running_partial` |
| C127 | Each `...` in a length is replaced by the whole expression for the position so far, so every field that uses it doubles the next expression: after `n` of them it has at least `2^n` tokens, 978 in `Ack`. | `C127_false`, `C127_growth`, `C127_doubles`, `C127_ack`, `C127_linear_partial`, `C127_crate_partial` |
| C128 | In a release build, with a Length smaller than the packet number, the packet number is read from the next packet, so other bytes there change it. | `C128_false`, `C128_tail_partial`, `C128_rewrite_partial` |
| C133 | Right checksums do not keep a receiver from panicking: on UDP datagrams with an Initial packet that is cut off before its token length (35 bytes over IPv4, 55 over IPv6), `QuicPacket::new` panics in every build. | `C133_crash`, `C133_v4_outcome`, `C133_v6_outcome` |

## Checks against wrong programs

`seeded/LOG.jsonl` records edits of the model that imitate realistic bugs (one per line: definition,
edit, claim broken, theorems that stopped proving, theorems tightened as a consequence). Edits that
survived at first are kept in the log with the theorems that were added or tightened because of them.

## Plan per property

* **C01 Big-endian getter reads exactly its bits** - Model `operations` and the generated getter text; closed form of the operation table over all 8x64 (offset,width) pairs by kernel evaluation, then a symbolic-byte argument. Spec: bit list of the buffer.
* **C02 Setter writes the value and truncates to the field width** - Same model for the mutator; corollary of the exact effect of the setter on the bit list.
* **C03 Setter leaves every other bit alone** - Same; frame part of the setter theorem.
* **C04 Little-endian fields round-trip** - False of the code for widths that are not whole bytes (u9le): negation with witness; `_partial` for the (offset,width) pairs where it holds.
* **C05 Every sequence of field widths is accepted** - False of the code (u4 starting at bit 5): negation with witness; `_partial`: exact characterisation of the accepted pairs.
* **C06 Construction succeeds exactly when the fixed part fits** - Model `new`/`owned`/`minimum_packet_size` for an arbitrary declaration.
* **C07 Fixed header getters never panic** - Generic theorem over declarations, from the getter bounds.
* **C08 payload() is total and returns a contiguous piece of the buffer** - Generic theorem over declarations.
* **C09 Protocol payload() never panics on hostile input** - Instances of C08 for the crate's declarations (length expressions modelled).
* **C10 Variable-length getters never panic** - False (GRE offset on 4 bytes, TCP, options): negations with witnesses; `_partial`: exact condition offset <= buffer length.
* **C11 from_packet never panics** - False for TCP/IPv4 with oversized header length: witness; theorem for the fixed-header types and exact condition for TCP/IPv4.
* **C12 populate then from_packet is the identity** - Generic: lawful-codec theorem for declarations, with an encoder as the spec.
* **C13 populate writes exactly the serialised packet** - Generic: populate writes the spec encoding and nothing else.
* **C14 Static packet_size equals the serialised size** - False for Vec<TcpOption>: witness; `_partial` for declarations whose vectors are Vec<u8>.
* **C15 Iterators terminate** - Iterator model with explicit `hang` outcome; theorem for min size >= 1 byte.
* **C16 Iterators tile the buffer** - Same model; tiling by induction.
* **C17 get_options never panics on hostile options** - False (options area [1,1,1,2]): witness; `_partial` for well-formed option areas.
* **C18 Options set are options got** - Corollary of the lawful-codec theorem for TCP and IPv4 options.
* **C19 Vectors of multi-byte integers can be read back** - False: witness and general failure for every non-empty field.
* **C20 Vector setters never write outside their field** - False for Vec<u16be> (element count compared with byte count): witness; `_partial` for Vec<u8> and Vec<packet>.
* **C21 clone_from copies a prefix** - Direct model of clone_from.
* **C22 Checksum ignores the checksum field** - Model of sum_be_words with u32 arithmetic.
* **C23 Checksum is the RFC 1071 Internet checksum** - Spec: RFC 1071 sum as end-around-carry fold over 16-bit words.
* **C24 A stored checksum verifies** - From C23 by modulo-65535 arithmetic.
* **C25 Carry folding terminates with the one's complement value** - Loop modelled with well-founded recursion; bound on rounds.
* **C26 Pseudo-header checksums match RFC 793/768/8200** - Spec: pseudo header byte list ++ message.
* **C27 Extra data is included in the advanced checksum** - False for odd-length extra data: witness; `_partial` for even.
* **C28 Checksumming never panics** - False for about 128 KiB of 0xFF: witness (proved by induction, not evaluation); `_partial` bound.
* **C29 IPv4 header checksum is total and covers the header** - Model of ipv4::checksum with clamping.
* **C30 IPv4 payload stays within total_length** - False for header_length < 5: witness; `_partial` otherwise.
* **C31 TCP options area and payload partition the segment** - Instance of the generic getters for Tcp.
* **C32 TCP option constructors produce well-formed options** - False for 64 or more acknowledgements: witness; `_partial` below.
* **C33 IPv6 fragment offset and flag accessors are independent** - u16 mask arithmetic on the modelled header.
* **C34 IPv6 fragment offset excludes the reserved bits** - False (mask is 0x03): witness; `_partial` when bit 2 is zero.
* **C35 IPv6 extension header sizes follow the RFC** - Instance for Extension/Routing.
* **C36 NDP option sizes follow the RFC** - False for length >= 32 (u8 multiplication): witnesses for both build modes; `_partial` for 1..31.
* **C37 GRE optional fields sit where RFC 2890 puts them** - Instance for Gre; the routing bit panics by `unimplemented!` (also stated).
* **C38 MAC address text round-trips** - Model of Display/FromStr on character lists.
* **C39 MAC address parser accepts only six hex components** - Spec: predicate on component lists.
* **C40 MAC address classification** - Direct.
* **C41 Octets is big-endian and lossless** - Direct.
* **C42 QUIC varints decode** - Encoder of RFC 9000 varints as spec.
* **C43 QuicPacket::new never panics** - False on truncated input: witnesses; `_partial`: totality on well-formed datagrams (C44) and exact no-panic facts.
* **C44 Well-formed QUIC datagrams parse** - Spec encoder of datagrams; theorem by induction over the packet list.
* **C45 QUIC packet kinds follow the header bits** - Second half false (zero bytes with header form 0): witness; first half proved.
* **C46 QUIC parsing terminates and packets are consecutive** - Well-founded model; structure of the result by induction.
* **C47 Padding frames are merged** - Induction over Frame::new.
* **C48 ACK frames are delimited per RFC 9000** - False for one extra range: witness; `_partial` for zero ranges.
* **C49 Frame::new never panics** - False on truncated frames: witness; `_partial` for well-formed frame sequences.
* **C50 QUIC packets can be populated** - False: witness with a two-byte token length; `_partial`.
* **C51 Names of protocol numbers** - Tables copied from the source, checked against the constants for all values.
* **C52 Type names recognised by the macro** - Model of the regex match as a character-level recogniser; spec by concatenation.
* **C53 Converting to immutable keeps the bytes** - Direct over the packet data model.
* **C54 Setters of different fields commute** - Corollary of C01/C03.
* **C55 Header layouts match the RFCs** - Instances of C01 with byte/bit positions written from the RFCs.
* **C56 Variable-length fields do not overlap earlier fields** - False for a u4 followed by Vec<u8>: witness; `_partial` for byte-aligned vectors.
* **C57 Packet equality is byte equality** - False for mixed storage: witness; `_partial` for same storage.
* **C58 UDP checksum is never transmitted as zero** - False: witness datagram whose checksum is 0; exact condition and frequency of the bad value.
* **C59 Doc comments on packet fields are accepted** - False (`#[doc]` is an unknown name-value attribute): witness; every documented field is rejected; `_partial` for bare-word attributes.
* **C60 Accepted declarations are the documented ones** - Model of the attribute and field loops; acceptance as an iff with the documented rules.
* **C61 Nested vectors are recognised in every spacing** - Model of str::replace and of the recursion; induction on the depth.
* **C62 MAC address text format** - Model of `{:02x}`; spec by digit lookup.
* **C63 payload_mut is the payload** - Generic over declarations.
* **C64 QUIC frame accessors return the frame's parts** - Spec: bytes and field values of each RFC 9000 frame; left-to-right scan of the generated getters.
* **C65 Which declarations become packet types** - Model of gen.rs' acceptance (`deriveMacro`) on the parser's output; sources of all 53 structs copied as token text (`Model/Sources`).
* **C66 Bad declarations are compile errors, not macro panics** - False: witnesses; `_partial` gives the exact panics for public structs that pass the parser.
* **C67 Length expressions are the documented ones** - Token trees; acceptance and substitution by mutual induction. The documented restriction is not enforced: witness; `_partial`.
* **C68 Evaluating a getter ends** - False (length naming a later field): witness; `_partial` and all structs of the crate.
* **C69 Integer type names** - Alias table generated from types.rs; complete evaluation of the finite table by the kernel.
* **C70 MAC address serialisation** - A data format is the value presented to the visitor; round trip from C38.
* **C71 The fuzz targets find nothing** - Each target calls getters already shown total (C07, C09, C17); GRE gets an exact condition (C71_false: it panics on 80 00 00 00).
* **C72 Address fields** - Table of the fourteen address fields with byte offsets; setter bits (C03) turned into bytes, `new`/`to_primitive_values` shown inverse; the table is complete (C72_complete).
* **C73 Release builds return what debug builds return** - A refinement relation between results (debug value implies the same release value), shown to be preserved by bind and by every step of the generated code, the checksum loops and the QUIC loops.
* **C74 Debug and release builds agree** - Both runs of the field loop are shown equal by induction: length expressions that ignore the mode, lengths below 2^40, at most 2^20 fields, so no offset wraps. For QUIC, sums of variable-length integers stay below 2^64 because each length counts only while the buffer goes on (`FitsAt`, `Going`).
* **C75 The text of a QUIC packet** - Accessor values (C44) fed to the model of the format strings; decimal and hexadecimal formats characterised by induction on the digits.
* **C76 Printing QUIC packets and frames does not panic** - Exact condition for a panic per packet type by the scan lemmas (C43); frames by C64 and C51.
* **C77 Lengths are what #[length] says** - A lexer, parser and evaluator for the fragment of Rust the texts use; one lemma per form of expression; the texts by evaluation of all 53 structs.
* **C78 The text of the generated integer accessors** - Scanner and parser lemmas for each piece of the texts, symbolic in numbers and names; the facts about masks and shifts from the complete table of operations; running the parsed block by induction over the operations.
* **C79 What {:?} prints for a packet** - Induction over the fields with the format engine of `write!` modelled for `{:?}`, `{{` and `}}`.
* **C80 The unsafe blocks are sound** - A second, address-level model of the three functions in which objects can be freed; refinement to the byte-level model by induction on the loops, with the invariant that every slice lies in the caller's.
* **C81 Bytes after the end of a packet are ignored** - The state of the accessors' offset computation is equal on two buffers with the same first bits (run_stable, induction over the fields), hence every accessor with a declared length; instances by GoodDecl. C81_false: the payload of UdpPacket is the rest of the buffer whatever the length field says.
* **C82 Packets inside packets** - Induction on the list of layers, from C12/C13 for one layer; a layer without a length turns padding into part of its payload, one with a length drops it. Instance with all field values for UDP in IPv4 in Ethernet.
* **C83 Exactly which QUIC datagrams are accepted** - Case distinction on what a datagram starts with (`datagram_cases`), then induction on its length; the three outcomes exclude each other, so each implication is an equivalence.
* **C84 Packets returned by QuicPacket::new are complete** - From C83: all packets with a Length field are complete and show their content; for 1-RTT, Version Negotiation and Retry packets the value of every accessor is given for every length, panics included.
* **C85 Corrupted packets do not pass the checksum** - The words of a message add up to the message as a number modulo 65535, because 65536 is 1 modulo 65535; a short burst changes that number by a multiple of a power of two that 65535 does not divide.
* **C86 Writing back what was read changes nothing** - A setter given the value its getter returns writes the bits that are there (`C86_field_partial`), hence whole packets without lists (`C86_flat_partial`, `C86_quic`, `C86_frames`). For lists of packets the result is determined exactly: a panic if and only if a packet of the list ends too late (`C86_crate_partial`), which cannot happen for GRE (`C86_no_options_partial`) or with whole options (`C86_tcp_partial`, `C86_ipv4_partial`).
* **C87 Outcome of QuicPacket::new in release builds, exactly** - `C87_outcome` gives the outcome by the relations `ReleaseReports`, `ReleaseThen` (Spec/QuicRelease.lean), by induction on the datagram; `C87_accessors` the accessors for any Length value; `C87_differs_iff` and `C87_short_length` compare with debug builds; `C84_release_partial` adds the release case to C84.
* **C88 The derive macro reports the first thing wrong with a declaration** - The parser and generator once more with message and place in every error (Model/Diagnostics.lean), proved equal to the message-free model after forgetting the messages. `Reported` (Spec/Diagnostics.lean) describes the first defect of a declaration by cutting the list of fields and of attributes in two; equivalence by induction over types, items, attributes, fields.
* **C89 What the options of a neighbour discovery message are** - `NdpOptions` (Spec/Ndp.lean) relates bytes to options, independently of the iterator. Collecting the iterator is shown to produce exactly that reading, or to panic when there is none, by induction over the relation and over the fuel; writing goes through the lawful encoding of `NdpOption`.
* **C90 Fields with user-defined types** - The types are a table taken from the source (Model/Constants.lean); the comparison with the field declarations is a computation over all structs. The round trip is C02 for a declared field, lifted to the type. False for fields narrower than their type; C90_reads_back_iff says exactly when it holds, C90_narrow lists the fields, C90_constants shows that the named constants always survive.
* **C91 Protocol constants** - Registries and flag positions are written down in Spec/Constants.lean and compared with the table of constants. For flags, C07 and C03 give the value read and the bits written; testBit lemmas do the rest.
* **C92 Writing succeeds exactly when the bytes fit** - C13 gives success when there is space. Conversely the fields of fixed size lie within the minimum size, so the first field that does not fit is a vector; for bytes the copy panics, for packets induction over the list (the first packet that does not fit is either shorter than its minimum size, or its own populate panics, by the same theorem for the inner type, or the assertion on the end offset fails).
* **C93 The header of a mutable packet is a record** - Induction over the sequence. A setter of a header field: C02 for its own getter, C54 for the others. A setter of a vector or a write of the payload changes only bytes after the fixed part because vectors come last. Determination: by C86 writing back the value read keeps the packet, so with C03 the bits of the field are a function of the value; induction over the fields.
* **C94 Index arithmetic in accessors never selects a wrong byte** - The operation with index 0 comes first and reads or writes packet[co]. If co is outside the slice this panics in both models; otherwise co < 2^63 and no later sum overflows. Induction over the operations and the loops.
* **C95 The text of {:?} on a packet is unambiguous** - Each printed value can be read back with what follows it if that starts with a comma, space, bracket or parenthesis: decimal digits end at the first other character, vectors and structs by induction over their elements. Then induction over the fields. The types of fields come from the declarations as written; a finite check compares them with the modelled types.
* **C96 ExtensionIterable walks the IPv6 extension headers** - Induction over the chain with the walk of C35; the exact condition follows because a walk that is at the wrong place after a header never yields the next one.
* **C97 A packet whose end is cut off keeps its header, size and the start of its payload** - The length expressions of these types use only fields of fixed size, and those come first; so the offsets of all fields are the same for two buffers with the same header (induction over the fields). Slices of a prefix are cut at its end.
* **C98 Writing the same thing twice is writing it once** - After the setter of a field has run, later setters leave the field and all before it alone, so on the result its place and length are the same; setting an integer or copying bytes twice is doing it once; elements of a list of packets by induction over the list, with the claim for the element type.
* **C99 QUIC frames can be populated** - A left-to-right description of the setters of the frame types on any old bytes (induction over the fields), and for each frame type the lengths that the expressions give on zeroes and on the frame itself.
* **C100 Indexing packet storage selects exactly the named bytes** - Direct model of the impls over the slice operations; the specification compares byte by byte (`StandsAt`, `ReplacedAt` in Spec/Storage.lean).
* **C101 The message of a failed MAC address parse tells the reason** - From C39 by cases; the three texts differ.
* **C102 Generated names do not collide** - The names as lists of characters; suffixes are told apart by their last character, so two names agree only if one field is called like another with a suffix. Pairwise comparison over the fields.
* **C103 A QUIC field that was set is read back** - The state of the generated code before a field depends only on the bytes before it (induction over the fields; length expressions look only at the bytes they cover). So a setter leaves it alone, and only the field's own length expression is evaluated again: unchanged for fields of bytes, the number of integers in the new bytes otherwise.
* **C104 The documented attributes are accepted and mean what is documented** - From the exact condition of C65: adding or removing an attribute keeps every field legal and the layout as it is (induction over the layout), so the macro's answer changes only in the mark concerned.
* **C105 Setting a QUIC field leaves the other fields alone** - Earlier fields: the state before the field is the same. Later fields: induction over the fields behind it, with the invariant that the two states differ in the value of that field only and that the next offset is not before the end of the field; each length expression uses the field at most through its number of bytes.
* **C106 A rewritten QUIC datagram is parsed into the same packets** - The choice of the packet type looks only at bytes before the first field with a length; `remaining` is one of the other fields, which are unchanged by C105.
* **C107 MAC addresses are ordered as numbers, as bytes and as text** - Comparison byte by byte is comparison of numbers, from the last byte to the first; two hexadecimal digits are ordered as the byte.
* **C108 Checksums can be updated incrementally** - Both sides are representatives of the same class modulo 65535; they differ only if the new sum is zero.
* **C109 Length expressions keep their structure** - A declarative grammar of the expressions with precedence levels is shown to be unambiguous; substitution is shown to preserve derivations.
* **C110 Byte order only changes how an integer is stored** - The operations are brought into a closed form (kernel-checked over the complete finite table of widths and positions); getter and setter loops are proved by induction; the reduction of declarations to big-endian ones by induction over the fields.
* **C111 Positions are sums of lengths** - Tokens of the position are read with the grammar of C109 (proved unambiguous); induction over the fields.
* **C112 What ... stands for in a length expression** - Replacement of the placeholder on token trees, read with the grammar of C109; induction over the reading.
* **C113 What is sent with the crate arrives** - Composition of C02, C09, C23, C26, C29, C72, C82; the bursts with the argument of C85, restricted to the parts of the packet.
* **C114 The generated code computes the positions that the accessors use** - C111 for the structs of the crate, with the meaning of expressions in a packet; the lengths by C77 after both readings of each text were shown to agree.
* **C115 Vector getters do not depend on how much the allocator reserves** - The capacity as a parameter of the getters; equality by unfolding if it is exact, an invariant of the loop otherwise.
* **C116 The generated methods, run statement by statement, do what the accessors are described to do** - The quote! blocks as statements, an interpreter for them, invariants of the three loops; index arithmetic by C94.
* **C117 Loops end as described, or run forever as described** - A loop is the iteration of its round; induction on the model's bound, and an invariant for loops that do not end.
* **C118 Integer accessors, from the struct as written to the value** - Positions as in C114 with the widths written in the struct; blocks as in C78, extended to positions beyond the buffer; induction over the arguments.
* **C119 Helper functions use only what they are given** - The identifiers in the generated position, by induction over the fields and the token trees.
* **C120 Whole generated methods, from the struct as written to the result** - Any parameters of the method that are what the generated tokens and texts evaluate to are determined (readings are unique), and equal to those of C116 on slices and usize positions; then the lemmas about the bodies.
* **C121 populate, from_packet and the sizes, from the struct as written to the result** - Names as written are those of the declaration and differ, so a call by name reaches its own field; then C120 for each call, and induction over the fields; setters keep the length of the buffer.
* **C122 A call that panics changes nothing outside its field** - The writes as steps that keep the buffer when they fail (Model/Unwind), shown to be the setters of the other properties; induction over operations, elements, packets and fields.
* **C123 The header survives caught panics** - One call: a call that returns is C93; a setter that fails is that of a list, and the bytes before the list are kept (C122); then induction over the calls.
* **C124 What the generated statements leave behind when they panic** - An interpreter of the statements that keeps the buffer at a panic (Spec/MiniLeft), run on the bodies of Model/Template; induction over the loops and the calls.
* **C125 The structs of the documentation** - The two structs as declarations; the general theorems about getters, setters and populate instantiated and brought to bytes.
* **C126 How many getters a getter calls** - Two meanings of the generated expressions, one that counts while it evaluates and one that counts without a packet; both agree unless an evaluation ends early. A family of structs gives the exact numbers, a table those of the crate.
* **C127 The size of the generated positions** - Exact growth of the number of tokens from one field to the next, by induction over tokens; lower bound 2^n and linear case by induction over fields; evaluation for the crate.
* **C128 The packets of a datagram do not depend on those behind them** - Induction over the reported packets (C83), each packet being a wire-format packet whose accessors are determined by its own bytes.
* **C129 The frames of joined payloads** - The loop pushes the frames of a sequence one by one (C47); sequences are joined and split by induction, pushing commutes with merging.
* **C130 Iterating over packets behind each other** - Induction over the packets; each step is the generated `next` on a packet that reads the same with more bytes behind it (C81).
* **C131 QUIC packets and frames written with the crate are found again** - Induction over the frames with C99 for the frame written in each step; C17 and C64 for reading them; C50 and C45 for the packet around them.
* **C132 Whole QUIC datagrams written with the crate are read again** - Induction over the packets; each step is C50 for the writer and the step of C44 for the reader, with C131 for the frames.
* **C133 QUIC datagrams sent over UDP and IP with the crate arrive** - C132 for the datagram, C104 for the layers, C113 for transfer, damage and acceptance, C46 for the outcome.
* **C134 Readers of nested headers never panic** - Induction over the rounds; each round is C07 for the fields and C09 for the payload, which is a shorter piece of the buffer.
* **C135 Routers written with the crate** - The effect of the two setters from C93 and C54, the checksum from C29, acceptance from C113, induction over the routers.
* **C136 Address translation written with the crate** - The exact place of payload_mut() of an IPv4 packet, the bytes of the setters (C72, C54), the checksums (C26, C29), acceptance (C113), comparing packets byte by byte.
* **C137 Packets sent back keep their checksums** - The packet in pieces; the sums of words before and after (C26, C29), the bytes of the setters (C72, C54), acceptance (C113).
* **C138 Answers to echo requests** - The pieces and sums of C137, the bytes of the type's setter (C03), the checksum (C23), acceptance (C113).
* **C139 Answers to ARP requests** - Getters and setters of addresses (C72), the payload (C09), the fields as registers (C93).
* **C140 VLAN tags put on and taken off** - The layouts of Ethernet and VLAN headers (C55), the payload (C09), the bytes that populate writes (C13); induction on the tags.
* **C141 IPv4 fragments** - The setters (C03) and the fields as registers (C93) for each fragment, the payload (C09, C30), the header checksum (C29); induction on the fragments, and for the second program on the pieces with the invariant that covered bytes are those of the payload.
* **C142 Traceroute** - Induction on the routers with the one-router theorems of C135; the answer by populate (C03) and delivery (C113), the quoted bytes by the payload (C09).
* **C143 GRE tunnels** - The getters by C37; populate by the encoding theorem of C12 with the vectors' elements as lawful inner packets; induction on the tunnels.
