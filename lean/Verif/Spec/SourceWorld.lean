import Verif.Model.Methods
import Verif.Model.Protocols
import Verif.Spec.WholeText
import Verif.Spec.Encode

/-!
# What the generated methods of a field interpolate, read off the struct

`SourceWorld` says of the parameters of a generated method (`RustWorld`) that they are the tokens and texts that
the macro writes for field `k` of a struct, read and run as Rust. It speaks only about buffers that a slice can
be, positions that are a `usize` and values of the Rust type of the field.
-/

set_option autoImplicit false

namespace Verif.Spec
open LengthText

/-- The blocks that read and write an integer of type `ty` (`n` bits, from bit `s` of a byte) are the generated
texts, in which the buffer has these names. -/
def BlocksAre (m : Mode) (ty : List Char) (s n : Nat) (en : Endianness) (getName setName : String)
    (W : RustWorld) : Prop :=
  ∃ ops, operations s n en = some ops ∧
    (∀ b co, SliceLen b.length → co < 2 ^ 64 →
      W.readOps b co = CodeText.runGetter m ty (CodeText.genGetOps getName.toList ty ops) b co) ∧
    (∀ b co v, SliceLen b.length → co < 2 ^ 64 → v < 2 ^ storageWidth n →
      W.writeOps b co v = CodeText.runSetter m ty (CodeText.genSetOps setName.toList (toMutator ops)) b co v)

/-- The functions `get_arg<i>` and `set_arg<i>` inside the methods of a field made with `construct_with`; the
arguments of types `tys` start `done` bits into the field, which starts `start` bits into the packet. -/
def ArgsAre (m : Mode) (I : Buf → Meaning RunVal) (at_ : Nat → List TT) (start : Nat) :
    (done : Nat) → List (List Char) → List (Buf → Res Nat) → List (Buf → Nat → Res Buf) → Prop
  | _, [], [], [] => True
  | done, ty :: tys, g :: gs, s :: ss =>
      (∀ b, SliceLen b.length → GetterGives m (I b) b (at_ done) "_self.packet" ty (start + done) (g b)) ∧
      (∀ b v, SliceLen b.length → v < 2 ^ storageWidth (tyBits ty) →
        SetterGives m (I b) b (at_ done) "_self.packet" ty (start + done) v (s b v)) ∧
      ArgsAre m I at_ start (done + tyBits ty) tys gs ss
  | _, _, _, _ => False

/-- What is interpolated into the methods of field `k`, written `rf`, of a struct written `fields`; `d` gives
the values of the getters that occur in lengths. -/
structure SourceWorld (fields : List RawField) (d : Decl) (m : Mode) (k : Nat) (rf : RawField) (W : RustWorld) :
    Prop where
  mode : W.mode = m
  co : ∀ b, SliceLen b.length → UsizeIs (packetMeaning m d b) (fieldOffset tokenise fields sourceWidth k) (W.co b)
  packetLength : ∀ b, SliceLen b.length →
    match fieldLength tokenise fields sourceWidth k with
    | some ts => UsizeIs (packetMeaning m d b) ts (W.packetLength b)
    | none => W.packetLength b = .ok b.length
  blocks :
    match sourceType rf with
    | some (.primitive ty n en) =>
      BlocksAre m ty (((fields.take k).map sourceWidth).sum % 8) n en "self.packet" "self.packet" W
    | some (.vector (.primitive ty n _)) => BlocksAre m ty 0 n .big "packet" "self.packet" W
    | some (.misc _) => ArgsAre m (packetMeaning m d) (argOffset tokenise fields sourceWidth k)
        ((fields.take k).map sourceWidth).sum 0 (constructTexts rf.attrs) W.getArgs W.setArgs
    | _ => True

/-- The value has the Rust type of the argument of the setter; a vector is not longer than a slice can be. -/
def RustTyped : Ty → Val → Prop
  | .prim p, .num n => n < 2 ^ storageWidth p.size
  | .misc args, .nums ns => ns.length = args.length ∧
      ∀ (i : Nat) (p : Prim) (v : Nat), args[i]? = some p → ns[i]? = some v → v < 2 ^ storageWidth p.size
  | .vecPrim p, .nums ns => SliceLen ns.length ∧ ∀ n ∈ ns, n < 2 ^ storageWidth p.size
  | .vecPkt _, .list _ => True
  | _, _ => False

end Verif.Spec
