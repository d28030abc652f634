import Verif.Spec.Running
import Verif.Spec.Decls
import Verif.Model.Offsets
import Verif.Model.CodeText

/-!
# What the accessors of a struct do, read off its source

The width of a field and the types of its arguments are those written in the struct. An accessor of an integer
is `{ let co = <position>; <block> }`: its position is read as Rust and evaluated, and its block is run.
-/

namespace Verif.Spec

/-- The number of bits of an integer type, 0 for other types. -/
def tyBits (ty : List Char) : Nat :=
  match parseTy ty with
  | some (n, _, _) => n
  | none => 0

/-- The number of bits of a field as written: those of its type, if that is an integer (`construct_with` is then
without effect), or of its arguments. -/
def sourceWidth (rf : RawField) : Nat :=
  match parseTy rf.ty with
  | some (n, _, _) => n
  | none => ((constructTexts rf.attrs).map tyBits).sum

/-- The tokens have exactly one reading as an expression, and its value is the `usize` `r`. -/
def UsizeIs (I : Meaning RunVal) (tokens : List TT) (r : Res Nat) : Prop :=
  ∃ ex, Reads 1 tokens ex ∧ (∀ ex', Reads 1 tokens ex' → ex' = ex) ∧ ex.value I = .usize r

/-- `{ let co = <tokens>; <block> }` for the getter of an integer of type `ty`, `bits` bits into the packet,
gives `r`; the buffer is called `name` in the text. -/
def GetterGives (m : Mode) (I : Meaning RunVal) (buf : Buf) (tokens : List TT) (name : String)
    (ty : List Char) (bits : Nat) (r : Res Nat) : Prop :=
  ∃ n e spec ops pos, parseTy ty = some (n, e, spec) ∧ operations (bits % 8) n e = some ops ∧
    UsizeIs I tokens pos ∧
    r = pos >>= fun co => CodeText.runGetter m ty (CodeText.genGetOps name.toList ty ops) buf co

/-- Likewise the setter, for the argument `v`, which has the Rust type of `ty`; it gives the new buffer. -/
def SetterGives (m : Mode) (I : Meaning RunVal) (buf : Buf) (tokens : List TT) (name : String)
    (ty : List Char) (bits v : Nat) (r : Res Buf) : Prop :=
  ∃ n e spec ops pos, parseTy ty = some (n, e, spec) ∧ operations (bits % 8) n e = some ops ∧
    UsizeIs I tokens pos ∧
    r = pos >>= fun co => CodeText.runSetter m ty (CodeText.genSetOps name.toList (toMutator ops)) buf co v

/-- `get_arg0(self)`, `get_arg1(self)`, ... from left to right, for arguments that start `done` bits into the
field, which starts `start` bits into the packet; `at_` are the tokens of the position after so many bits. -/
def ArgsGive (m : Mode) (I : Meaning RunVal) (buf : Buf) (at_ : Nat → List TT) (start : Nat) :
    (done : Nat) → List (List Char) → Res (List Nat) → Prop
  | _, [], r => r = .ok []
  | done, ty :: tys, r => ∃ r₁ rs, GetterGives m I buf (at_ done) "_self.packet" ty (start + done) r₁ ∧
      ArgsGive m I buf at_ start (done + tyBits ty) tys rs ∧
      r = r₁ >>= fun v => (v :: ·) <$> rs

/-- `set_arg0(self, vals.0); set_arg1(self, vals.1); ...`; `I` is the meaning of expressions in each buffer. -/
def SetArgsGive (m : Mode) (I : Buf → Meaning RunVal) (at_ : Nat → List TT) (start : Nat) :
    (done : Nat) → List (List Char) → List Nat → Buf → Res Buf → Prop
  | _, [], [], buf, r => r = .ok buf
  | done, ty :: tys, v :: vs, buf, r => ∃ r₁,
      SetterGives m (I buf) buf (at_ done) "_self.packet" ty (start + done) v r₁ ∧
      ((∃ x, r₁ = .error x ∧ r = .error x) ∨
       ∃ new, r₁ = .ok new ∧ SetArgsGive m I at_ start (done + tyBits ty) tys vs new r)
  | _, _, _, _, _ => False

end Verif.Spec
