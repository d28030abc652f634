import Verif.Model.Packet
import Verif.Model.Primitive
import Verif.Spec.Stack

/-!
# VLAN tags

Not code of the crate: a program that uses it, for C140.
-/

namespace Verif.Spec

/-- What a VLAN tag holds: priority, drop eligible indicator, identifier. -/
structure Tag where
  pcp : Nat
  dei : Nat
  vid : Nat
deriving DecidableEq

/-- The values fit the fields. -/
def Tag.Fits (t : Tag) : Prop := t.pcp < 8 ∧ t.dei < 2 ∧ t.vid < 4096

/-- Tags a frame: a VLAN packet with the frame's type and payload is the payload of a new frame of type 0x8100. Both are
written with `populate`. -/
def tag (m : Mode) (t : Tag) (frame : Buf) : Res (Option Buf) :=
  match ethernet.newPacket frame with
  | none => .ok none
  | some _ => do
    let dst ← ethernet.get m frame 0
    let src ← ethernet.get m frame 1
    let ty ← ethernet.get m frame 2
    let rest ← ethernet.payload m frame
    let inner ← vlan.populate m (List.replicate (4 + rest.length) 0)
      (.list [.nums [t.pcp], .num t.dei, .num t.vid, ty, bytesVal rest])
    let out ← ethernet.populate m (List.replicate (14 + inner.length) 0)
      (.list [dst, src, .nums [0x8100], bytesVal inner])
    return some out

/-- Takes the tag off a frame; `none` if there is none. -/
def untag (m : Mode) (frame : Buf) : Res (Option (Tag × Buf)) :=
  match ethernet.newPacket frame with
  | none => .ok none
  | some _ => do
    if (← ethernet.get m frame 2) ≠ .nums [0x8100] then return none
    let inner ← ethernet.payload m frame
    match vlan.newPacket inner with
    | none => return none
    | some _ =>
      let dst ← ethernet.get m frame 0
      let src ← ethernet.get m frame 1
      let pcp ← (← vlan.get m inner 0).asNums
      let dei ← (← vlan.get m inner 1).asNum
      let vid ← (← vlan.get m inner 2).asNum
      let ty ← vlan.get m inner 3
      let rest ← vlan.payload m inner
      let out ← ethernet.populate m (List.replicate (14 + rest.length) 0) (.list [dst, src, ty, bytesVal rest])
      return some (⟨pcp.headD 0, dei, vid⟩, out)

/-- Several tags, the first outermost. -/
def tagAll (m : Mode) : List Tag → Buf → Res (Option Buf)
  | [], frame => .ok (some frame)
  | t :: ts, frame => do
    match ← tagAll m ts frame with
    | none => return none
    | some f => tag m t f

/-- Takes off `n` tags. -/
def untagAll (m : Mode) : Nat → Buf → Res (Option (List Tag × Buf))
  | 0, frame => .ok (some ([], frame))
  | n + 1, frame => do
    match ← untag m frame with
    | none => return none
    | some (t, f) =>
      match ← untagAll m n f with
      | none => return none
      | some (ts, f) => return some (t :: ts, f)

/-- The two bytes of the tag control information. -/
def Tag.bytes (t : Tag) : Buf :=
  let n := t.pcp % 8 * 8192 + t.dei % 2 * 4096 + t.vid % 4096
  [UInt8.ofNat (n / 256), UInt8.ofNat (n % 256)]

end Verif.Spec
