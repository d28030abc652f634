import Verif.Model.Packet
import Verif.Spec.Sizes

/-!
# Specification: packets inside packets

A stack of protocol layers is what a network packet is made of: each layer is a header whose payload
is the next layer. Reading and writing it is done by the user of the crate with `populate`, `new`, the
getters and `payload()`, one layer after the other.
-/

namespace Verif.Spec

/-- One protocol layer: a packet type, the wire formats of the elements of its vectors of packets (if
it has any), and the values of all its fields but the last one, which is the payload. -/
structure Layer where
  d : Decl
  E : Nat → Wire
  header : List Val

/-- Bytes as the value of a byte vector. -/
def bytesVal (b : Buf) : Val := .nums (b.map (·.toNat))

/-- All field values of a layer around `inner`. -/
def Layer.fields (l : Layer) (inner : Buf) : List Val := l.header ++ [bytesVal inner]

/-- The bytes of a layer around `inner`: the fields one after the other. -/
def Layer.wire (l : Layer) (inner : Buf) : Buf := packBits (encFields l.E 0 l.d.fields (l.fields inner))

/-- The header values as the getters return them (integers reduced to their field widths). -/
def Layer.read (l : Layer) : List Val := normFields l.E 0 l.d.fields l.header

/-- A packet type that can carry another one: its last field is its payload, and it is a byte
vector. -/
def carrier (d : Decl) : Bool :=
  regular d && fixedBits d.fields % 8 == 0 && (0 < d.fields.length) &&
    d.payloadIdx == some (d.fields.length - 1) &&
    match d.fields[d.fields.length - 1]? with
    | some { ty := .vecPrim p, .. } => p.size == 8
    | _ => false

/-- The header values have the types of the fields, and the length fields among them are right for a
payload `inner`. -/
structure Layer.Fits (m : Mode) (l : Layer) (inner : Buf) : Prop where
  carrier : carrier l.d = true
  lawful : LawfulElems m l.E l.d
  typed : typedFields l.E 0 l.d.fields (l.fields inner)
  lens : lensAgree m l.E 0 [] l.d.fields (l.fields inner)

/-- The bytes of a stack of layers around `data`. -/
def stackWire : List Layer → Buf → Buf
  | [], data => data
  | l :: ls, data => l.wire (stackWire ls data)

/-- Every layer fits the bytes inside it. -/
def StackFits (m : Mode) : List Layer → Buf → Prop
  | [], _ => True
  | l :: ls, data => l.Fits m (stackWire ls data) ∧ StackFits m ls data

/-- Writing a stack: the inner layers first; then `populate` on a zeroed buffer of the right size. -/
def writeStack (m : Mode) : List Layer → Buf → Res Buf
  | [], data => .ok data
  | l :: ls, data => do
    let inner ← writeStack m ls data
    l.d.populate m (List.replicate (l.wire inner).length 0) (.list (l.fields inner))

/-- Reading a stack of packet types: `new(..).unwrap()`, the getters of all fields but the payload, then
the same with `payload()`. -/
def readStack (m : Mode) : List Decl → Buf → Res (List (List Val) × Buf)
  | [], buf => .ok ([], buf)
  | d :: ds, buf =>
    match d.newPacket buf with
    | none => panic
    | some _ => do
      let header ← (List.range (d.fields.length - 1)).mapM (d.get m buf)
      let inner ← d.payload m buf
      let (headers, data) ← readStack m ds inner
      .ok (header :: headers, data)

end Verif.Spec
