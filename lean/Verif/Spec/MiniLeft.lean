import Verif.Spec.MiniRust
import Verif.Model.Unwind

/-!
# What the statements of the generated methods leave behind when they panic

The statements are those of `Spec/MiniRust`. A statement that ends with a panic has done nothing to the
buffer if it writes at most one thing, after its checks; the others are the loops, the blocks and the
calls of functions that write. Independent of the macro.
-/

namespace Verif.Spec

/-- What is called from the text and writes, with the bytes it leaves. -/
structure RustCalls where
  /-- the block that writes an integer at an index of the slice -/
  writeOps : Buf → (co val : Nat) → Left
  /-- `populate` of the packet type inside -/
  populate : PopulateLeft
  /-- the functions `set_arg0`, `set_arg1`, .. inside the method -/
  setArgs : List (Buf → (val : Nat) → Left)

/-- `for i in i..i + n`: the bytes of `self` when it ends; `left` for a turn that panics. -/
def loopLeft (body : Nat → RustEnv → Res RustFlow) (left : Nat → RustEnv → Buf) : (n i : Nat) → RustEnv → Buf
  | 0, _, env => env.self
  | n + 1, i, env =>
    match body i env with
    | .error _ => left i env
    | .ok (.ret _ self) => self
    | .ok (.next env) => loopLeft body left n (i + 1) env

/-- `for v in vs`. -/
def eachLeft (body : Val → RustEnv → Res RustFlow) (left : Val → RustEnv → Buf) : List Val → RustEnv → Buf
  | [], env => env.self
  | v :: vs, env =>
    match body v env with
    | .error _ => left v env
    | .ok (.ret _ self) => self
    | .ok (.next env) => eachLeft body left vs env

mutual
/-- The bytes of `self` when a statement has panicked. -/
def RustStmt.left (W : RustWorld) (C : RustCalls) (env : RustEnv) : RustStmt → Buf
  | .writeOps =>
    match (RustExp.var "co").eval W env, (RustExp.var "val").eval W env with
    | .ok co, .ok v => (C.writeOps env.self co v).1
    | _, _ => env.self
  | .callSet i x =>
    match env.get x, C.setArgs[i]? with
    | some (.given (.nums ns)), some set =>
      match ns[i]? with
      | some n => (set env.self n).1
      | none => env.self
    | _, _ => env.self
  | .populate x v =>
    match env.get x, env.get v with
    | some (.packetAt s), some (.given v) =>
      env.self.take s ++ (C.populate W.mode (env.self.drop s) v).1
    | _, _ => env.self
  | .forRange i e body =>
    match e.eval W env with
    | .ok n =>
      loopLeft (fun k env => execAll W (env.put i (.int k)) body)
        (fun k env => leftAll W C (env.put i (.int k)) body) n 0 env
    | .error _ => env.self
  | .forEach x y body =>
    match env.get y with
    | some (.given (.list vs)) =>
      eachLeft (fun v env => execAll W (env.put x (.given v)) body)
        (fun v env => leftAll W C (env.put x (.given v)) body) vs env
    | _ => env.self
  | .ifLe a b body =>
    match a.eval W env, b.eval W env with
    | .ok a, .ok b => if a ≤ b then leftAll W C env body else env.self
    | _, _ => env.self
  | .ifNew x body =>
    if W.inner.minSize ≤ env.self.length then leftAll W C (env.put x (.bytes env.self)) body else env.self
  | _ => env.self

/-- The bytes of `self` when a block ends, in whatever way. -/
def leftAll (W : RustWorld) (C : RustCalls) (env : RustEnv) : List RustStmt → Buf
  | [] => env.self
  | s :: ss =>
    match s.exec W env with
    | .error _ => s.left W C env
    | .ok (.ret _ self) => self
    | .ok (.next env) => leftAll W C env ss
end

/-- Calls a method: the bytes of `self` when it ends, and how it ended. -/
def runLeft (W : RustWorld) (C : RustCalls) (body : List RustStmt) (self : Buf)
    (arg : Option (String × RustVal)) : Left :=
  (leftAll W C (argEnv self arg) body, (runMethod W body self arg).map fun _ => ())

end Verif.Spec
