import Verif.Spec.SourceWorld
import Verif.Spec.Loops
import Verif.Model.Loops

/-!
# Calls between the generated methods, read off the struct

`populate` and `from_packet` call the other methods by name and use the fields of the plain struct by name. The
bodies of the methods called are those of `Model/Methods`, run as Rust.
-/

set_option autoImplicit false

namespace Verif.Spec

/-- The plain struct with these values of its fields, in the order in which they are written. -/
def plainStruct (fields : List RawField) (vs : List Val) (x : String) : Option Val :=
  ((fields.map (·.name)).zip vs).lookup (some x)

/-- The method of this name among `<prefix><field>`: the field it belongs to. -/
def methodNamed (fields : List RawField) (pre name : String) : Option Nat :=
  fields.findIdx? fun rf => rf.name.map (pre ++ ·) == some name

/-- A value as the argument of the setter of a field of this type: the name of the parameter, and the value. -/
def setterArg (rf : RawField) (v : Val) : Option (String × RustVal) :=
  match sourceType rf, v with
  | some (.primitive _ _ _), .num n => some ("val", .int n)
  | some (.misc _), .nums ns => some ("val", .given (.nums ns))
  | some (.vector (.primitive _ _ _)), .nums ns => some ("vals", .given (.nums ns))
  | some (.vector (.misc _)), .list vs => some ("vals", .given (.list vs))
  | _, _ => none

/-- A call `self.<method>(packet.<field>)`; `W k` is what is interpolated into the methods of field `k` and
`len k` says whether it has a length. What does not compile (no such method or field, argument of a wrong type)
is a panic here. -/
def callSource (fields : List RawField) (len : Nat → Bool) (W : Nat → RustWorld) (s : String → Option Val)
    (call : String × String) (buf : Buf) : Res Buf :=
  match methodNamed fields "set_" call.1, s call.2 with
  | some k, some v =>
    match fields[k]? with
    | some rf =>
      match sourceSetBody rf (len k) (constructTexts rf.attrs).length, setterArg rf v with
      | some body, some arg => (runMethod (W k) body buf (some arg)).map (·.2)
      | _, _ => panic
    | none => panic
  | _, _ => panic

/-- Such calls, one after another. -/
def runSource (fields : List RawField) (len : Nat → Bool) (W : Nat → RustWorld) (s : String → Option Val) :
    List (String × String) → Buf → Res Buf
  | [], buf => .ok buf
  | c :: cs, buf => do
    let buf ← callSource fields len W s c buf
    runSource fields len W s cs buf

/-- What a getter returned, as a field of the plain struct. -/
def fieldValue : RustVal → Res Val
  | .int n => .ok (.num n)
  | .given v => .ok v
  | .vec ns _ => .ok (.nums ns)
  | _ => panic

/-- `get_<field>` gives `r`: the body, run as Rust; for a vector of packets the slice of `get_<field>_iter`, and then
the loop of `collect`. -/
def SourceGets (W : RustWorld) (rf : RawField) (buf : Buf) (r : Res Val) : Prop :=
  match sourceType rf with
  | some (.vector (.misc _)) =>
    (∃ raw vals, runMethod W rawBody buf none = .ok (.bytes raw, buf) ∧
      LoopGives (collectRound W) ([], raw) vals ∧ r = vals.map .list) ∨
    (∃ x, runMethod W rawBody buf none = .error x ∧ r = .error x)
  | _ => ∃ body, sourceGetBody rf = some body ∧ r = runMethod W body buf none >>= fun x => fieldValue x.1

/-- A part `<field>: self.<getter>()` of a struct expression, where `r k` is what the getter of field `k` gives. -/
def callPart (fields : List RawField) (r : Nat → Res Val) (part : String × String) : Res (String × Val) :=
  match methodNamed fields "get_" part.2 with
  | some k => (r k).map fun v => (part.1, v)
  | none => panic

/-- `_packet.<field>.len()`, added up from left to right in `usize`. -/
def addLengths (m : Mode) (s : String → Option Val) : List String → Nat → Res Nat
  | [], n => .ok n
  | x :: xs, n => do
    let k ← match s x with
      | some (.nums ns) => .ok ns.length
      | some (.list vs) => .ok vs.length
      | _ => panic
    let n ← uadd m n k
    addLengths m s xs n

end Verif.Spec
