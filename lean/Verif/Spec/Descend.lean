import Verif.Model.Packet
import Verif.Model.Protocols
import Verif.Spec.Encode

/-!
# A reader of nested headers

Not code of the crate: a program that uses it, for C134. Such are firewalls and packet monitors.
-/

namespace Verif.Spec

/-- A header that was read: its packet type, its bytes (with all that follows) and its fields. -/
structure Level where
  d : Decl
  bytes : Buf
  header : List Val

/-- The fields of fixed size at the start of a packet. -/
def headerFields (d : Decl) : List Field := d.fields.takeWhile fun f => !f.ty.isVec && f.len.isNone

/-- Calls the getters of the fields from the `k`-th on, `n` of them. -/
def readHeader (m : Mode) (d : Decl) (buf : Buf) : (n k : Nat) → Res (List Val)
  | 0, _ => .ok []
  | n + 1, k => do
    let v ← d.get m buf k
    let vs ← readHeader m d buf n (k + 1)
    .ok (v :: vs)

/-- Goes down through headers. `pick` decides from all headers so far what the payload of the last one is, if anything
to look into. Bytes too short for this packet type end it, too. `fuel` bounds the number of rounds. -/
def descend (m : Mode) (pick : List Level → Option Decl) : (fuel : Nat) → List Level → Buf → Res (List Level)
  | 0, _, _ => .error .hang
  | fuel + 1, seen, buf =>
    match pick seen with
    | none => .ok seen
    | some d =>
      match d.newPacket buf with
      | none => .ok seen
      | some _ => do
        let header ← readHeader m d buf (headerFields d).length 0
        let inner ← d.payload m buf
        descend m pick fuel (seen ++ [⟨d, buf, header⟩]) inner

/-- Reads the headers of a frame. -/
def readFrame (m : Mode) (pick : List Level → Option Decl) (frame : Buf) : Res (List Level) :=
  descend m pick (frame.length + 1) [] frame

/-- The packet types the reader may look for. -/
def readable : List Decl := [
  ethernet, vlan, arp, ipv4, ipv6, extension, routing, fragment, udp, tcp, icmp, echoReply,
  echoRequest, destinationUnreachable, timeExceeded, icmpv6, routerSolicit, routerAdvert,
  neighborSolicit, neighborAdvert, redirect]

/-- `buf` lies in `outer`, behind at least `n` bytes. -/
def Inside (n : Nat) (outer buf : Buf) : Prop := ∃ pre post, outer = pre ++ buf ++ post ∧ n ≤ pre.length

/-- Headers inside each other: each has room for the fields of its type, its fields are the numbers at their bits, and
the next one lies behind them; `rest` is inside the last one. -/
def Nested : Buf → List Level → Buf → Prop
  | frame, [], rest => rest = frame
  | frame, l :: ls, rest => l.bytes = frame ∧ fixedBits l.d.fields ≤ 8 * frame.length ∧
    l.header.length = (headerFields l.d).length ∧
    (∀ (k : Nat) (f : Field), (headerFields l.d)[k]? = some f →
      l.header[k]? = some (decodeFixed (bitsOf frame) (fixedBits (l.d.fields.take k)) f.ty)) ∧
    ∃ inner, Inside (fixedBits l.d.fields / 8) frame inner ∧ Nested inner ls rest

/-- The value of the field with this name in a header. -/
def Level.named (l : Level) (name : String) : Option Val :=
  (l.d.fields.findIdx? (·.name == name)).bind fun k => l.header[k]?

/-- A monitor: Ethernet, any number of VLAN tags, IPv4 or IPv6 by the EtherType, then TCP, UDP or ICMP by the
protocol number. -/
def monitor (seen : List Level) : Option Decl :=
  match seen.getLast? with
  | none => some ethernet
  | some l =>
    match l.named "ethertype" with
    | some (.nums [t]) => if t = 0x8100 then some vlan else if t = 0x0800 then some ipv4 else
      if t = 0x86dd then some ipv6 else none
    | _ =>
      match (l.named "next_level_protocol").or (l.named "next_header") with
      | some (.nums [p]) => if p = 1 then some icmp else if p = 6 then some tcp else if p = 17 then some udp else
        if p = 58 then some icmpv6 else none
      | _ => none

end Verif.Spec
