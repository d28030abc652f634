import Verif.Model.Capacity

/-!
# What the statements of the generated methods do

A small part of Rust, as far as the methods that `derive(Packet)` generates for vectors, packets and payloads
need it: local variables, `+`, `+=`, `min`, slices, `for`, `if`, `assert!`, `return`, vectors with a capacity,
and packets on a part of the buffer. Independent of the macro. A statement that does not type-check is a panic.
-/

namespace Verif.Spec

/-- Values of variables. -/
inductive RustVal
  | unit
  /-- a `usize` or an element of a vector of integers -/
  | int (n : Nat)
  /-- `&[u8]`, or an immutable packet on it -/
  | bytes (b : Buf)
  /-- `Vec` of integers, with its capacity -/
  | vec (ns : List Nat) (capacity : Nat)
  /-- what the caller passed: a slice of integers (`.nums`) or of structs (`.list`), or a struct -/
  | given (v : Val)
  /-- a mutable packet on `&mut self.packet[start..]` -/
  | packetAt (start : Nat)
  | none
  | some (v : RustVal)

/-- The buffer of `self`, and the variables. -/
structure RustEnv where
  self : Buf
  get : String → Option RustVal

/-- `let x = v;` or an assignment. -/
def RustEnv.put (env : RustEnv) (x : String) (v : RustVal) : RustEnv :=
  { env with get := fun y => if y = x then .some v else env.get y }

/-- What is interpolated into the text and what is called from it. -/
structure RustWorld where
  mode : Mode
  /-- what `Vec::with_capacity` reserves -/
  cap : Capacity
  /-- `#co` in a method of a packet with these bytes -/
  co : Buf → Res Nat
  /-- `#packet_length` -/
  packetLength : Buf → Res Nat
  /-- the block that reads an integer of the slice at an index -/
  readOps : Buf → Nat → Res Nat
  /-- the block that writes an integer at an index of the slice -/
  writeOps : Buf → (co val : Nat) → Res Buf
  /-- the packet type inside -/
  inner : Codec
  /-- the functions `get_arg0`, `get_arg1`, .. inside the method -/
  getArgs : List (Buf → Res Nat)
  /-- the functions `set_arg0`, `set_arg1`, .. inside the method -/
  setArgs : List (Buf → (val : Nat) → Res Buf)

/-- Expressions of type `usize`. -/
inductive RustExp
  | var (x : String)
  | num (n : Nat)
  /-- `#co` -/
  | co
  /-- `#packet_length` -/
  | packetLength
  | add (a b : RustExp)
  | min (a b : RustExp)
  /-- `self.packet.len()` (`self.buf.len()` in an iterator) -/
  | selfLen
  /-- `x.len()` -/
  | len (x : String)
  /-- `x.capacity()` -/
  | capacity (x : String)
  /-- `x.packet_size()` -/
  | packetSize (x : String)

/-- Statements. -/
inductive RustStmt
  /-- `let x = e;` and `let mut x = e;` -/
  | bind (x : String) (e : RustExp)
  /-- `let x = &self.packet[a..b];` -/
  | bindSlice (x : String) (a b : RustExp)
  /-- `let mut x: Vec<_> = Vec::with_capacity(e);` -/
  | bindVec (x : String) (e : RustExp)
  /-- `let x = y[i];` -/
  | bindElem (x y i : String)
  /-- `let mut x = MutableInnerPacket::new(&mut self.packet[a..]).unwrap();` -/
  | bindPacket (x : String) (a : RustExp)
  /-- `x += e;` -/
  | addAssign (x : String) (e : RustExp)
  /-- `x.push(<ops>);` where the ops read `y[co]` -/
  | pushOps (x y : String)
  /-- the ops that write `val` to `self.packet[co]` -/
  | writeOps
  /-- `let x = y.to_primitive_values();` -/
  | bindPrimitives (x y : String)
  /-- `set_arg<i>(self, x.<i>);` -/
  | callSet (i : Nat) (x : String)
  /-- `assert!(a <= b);` -/
  | assertLe (a b : RustExp)
  /-- `self.packet[a..b].copy_from_slice(x);` -/
  | copyFrom (a b : RustExp) (x : String)
  /-- `for i in 0..e { .. }` -/
  | forRange (i : String) (e : RustExp) (body : List RustStmt)
  /-- `for x in y.into_iter() { .. }` -/
  | forEach (x y : String) (body : List RustStmt)
  /-- `x.populate(v);` -/
  | populate (x v : String)
  /-- `if a <= b { .. }` -/
  | ifLe (a b : RustExp) (body : List RustStmt)
  /-- `if let Some(x) = InnerPacket::new(self.buf) { .. }` -/
  | ifNew (x : String) (body : List RustStmt)
  /-- `self.buf = &self.buf[a..];` -/
  | advance (a : RustExp)
  /-- `return x;`, or `x` at the end -/
  | retVar (x : String)
  /-- the ops that read `self.packet[co]`, at the end -/
  | retOps
  /-- `T::new(get_arg0(self), get_arg1(self), ..)` at the end -/
  | retNew
  /-- `return Some(x);` -/
  | retSome (x : String)
  /-- `None` at the end -/
  | retNone
  /-- `return &[];` -/
  | retEmpty
  /-- `&self.packet[a..b]` at the end -/
  | retSlice (a b : RustExp)

/-- The value of an expression. -/
def RustExp.eval (W : RustWorld) (env : RustEnv) : RustExp → Res Nat
  | .var x =>
    match env.get x with
    | some (.int n) => .ok n
    | _ => panic
  | .num n => .ok n
  | .co => W.co env.self
  | .packetLength => W.packetLength env.self
  | .add a b => do
    let x ← a.eval W env
    let y ← b.eval W env
    uadd W.mode x y
  | .min a b => do
    let x ← a.eval W env
    let y ← b.eval W env
    .ok (Min.min x y)
  | .selfLen => .ok env.self.length
  | .len x =>
    match env.get x with
    | some (.bytes b) => .ok b.length
    | some (.given (.nums ns)) => .ok ns.length
    | _ => panic
  | .capacity x =>
    match env.get x with
    | some (.vec _ c) => .ok c
    | _ => panic
  | .packetSize x =>
    match env.get x with
    | some (.bytes b) => W.inner.packetSize W.mode b
    | some (.packetAt s) => W.inner.packetSize W.mode (env.self.drop s)
    | _ => panic

/-- How a statement ends. -/
inductive RustFlow
  | next (env : RustEnv)
  /-- `return`: the value, and the bytes of `self` at that moment -/
  | ret (v : RustVal) (self : Buf)

/-- The rest of a block after a statement. -/
def RustFlow.andThen (r : Res RustFlow) (k : RustEnv → Res RustFlow) : Res RustFlow :=
  match r with
  | .error e => .error e
  | .ok (.ret v s) => .ok (.ret v s)
  | .ok (.next env) => k env

/-- `for i in i..i + n`. -/
def rustLoop (body : Nat → RustEnv → Res RustFlow) : (n i : Nat) → RustEnv → Res RustFlow
  | 0, _, env => .ok (.next env)
  | n + 1, i, env => RustFlow.andThen (body i env) (rustLoop body n (i + 1))

/-- `for v in vs`. -/
def rustEach (body : Val → RustEnv → Res RustFlow) : List Val → RustEnv → Res RustFlow
  | [], env => .ok (.next env)
  | v :: vs, env => RustFlow.andThen (body v env) (rustEach body vs)

mutual
/-- One statement. -/
def RustStmt.exec (W : RustWorld) (env : RustEnv) : RustStmt → Res RustFlow
  | .bind x e => do
    let n ← e.eval W env
    .ok (.next (env.put x (.int n)))
  | .bindSlice x a b => do
    let a ← a.eval W env
    let b ← b.eval W env
    let s ← slice env.self a b
    .ok (.next (env.put x (.bytes s)))
  | .bindVec x e => do
    let n ← e.eval W env
    .ok (.next (env.put x (.vec [] (W.cap n))))
  | .bindElem x y i =>
    match env.get y, env.get i with
    | some (.given (.nums ns)), some (.int i) =>
      match ns[i]? with
      | some n => .ok (.next (env.put x (.int n)))
      | none => panic
    | _, _ => panic
  | .bindPacket x a => do
    let a ← a.eval W env
    let sub ← sliceFrom env.self a
    if W.inner.minSize ≤ sub.length then .ok (.next (env.put x (.packetAt a))) else panic
  | .addAssign x e => do
    let n ← (RustExp.var x).eval W env
    let k ← e.eval W env
    let n ← uadd W.mode n k
    .ok (.next (env.put x (.int n)))
  | .pushOps x y => do
    let co ← (RustExp.var "co").eval W env
    match env.get x, env.get y with
    | some (.vec ns c), some (.bytes b) => do
      let n ← W.readOps b co
      .ok (.next (env.put x (.vec (ns ++ [n]) (if ns.length < c then c else W.cap (ns.length + 1)))))
    | _, _ => panic
  | .writeOps => do
    let co ← (RustExp.var "co").eval W env
    let v ← (RustExp.var "val").eval W env
    let self ← W.writeOps env.self co v
    .ok (.next { env with self := self })
  | .bindPrimitives x y =>
    match env.get y with
    | some (.given (.nums ns)) => .ok (.next (env.put x (.given (.nums ns))))
    | _ => panic
  | .callSet i x =>
    match env.get x, W.setArgs[i]? with
    | some (.given (.nums ns)), some set =>
      match ns[i]? with
      | some n => do
        let self ← set env.self n
        .ok (.next { env with self := self })
      | none => panic
    | _, _ => panic
  | .assertLe a b => do
    let a ← a.eval W env
    let b ← b.eval W env
    if a ≤ b then .ok (.next env) else panic
  | .copyFrom a b x => do
    let a ← a.eval W env
    let b ← b.eval W env
    let old ← slice env.self a b
    match env.get x with
    | some (.given (.nums ns)) =>
      if ns.length = old.length then
        .ok (.next { env with self := env.self.take a ++ ns.map UInt8.ofNat ++ env.self.drop b })
      else panic
    | _ => panic
  | .forRange i e body => do
    let n ← e.eval W env
    rustLoop (fun k env => execAll W (env.put i (.int k)) body) n 0 env
  | .forEach x y body =>
    match env.get y with
    | some (.given (.list vs)) => rustEach (fun v env => execAll W (env.put x (.given v)) body) vs env
    | _ => panic
  | .populate x v =>
    match env.get x, env.get v with
    | some (.packetAt s), some (.given v) => do
      let sub ← W.inner.populate W.mode (env.self.drop s) v
      .ok (.next { env with self := env.self.take s ++ sub })
    | _, _ => panic
  | .ifLe a b body => do
    let a ← a.eval W env
    let b ← b.eval W env
    if a ≤ b then execAll W env body else .ok (.next env)
  | .ifNew x body =>
    if W.inner.minSize ≤ env.self.length then execAll W (env.put x (.bytes env.self)) body
    else .ok (.next env)
  | .advance a => do
    let a ← a.eval W env
    let s ← sliceFrom env.self a
    .ok (.next { env with self := s })
  | .retVar x =>
    match env.get x with
    | some v => .ok (.ret v env.self)
    | none => panic
  | .retOps => do
    let co ← (RustExp.var "co").eval W env
    let n ← W.readOps env.self co
    .ok (.ret (.int n) env.self)
  | .retNew => do
    let ns ← W.getArgs.mapM fun get => get env.self
    .ok (.ret (.given (.nums ns)) env.self)
  | .retSome x =>
    match env.get x with
    | some v => .ok (.ret (.some v) env.self)
    | none => panic
  | .retNone => .ok (.ret .none env.self)
  | .retEmpty => .ok (.ret (.bytes []) env.self)
  | .retSlice a b => do
    let a ← a.eval W env
    let b ← b.eval W env
    let s ← slice env.self a b
    .ok (.ret (.bytes s) env.self)

/-- A block. -/
def execAll (W : RustWorld) (env : RustEnv) : List RustStmt → Res RustFlow
  | [] => .ok (.next env)
  | s :: ss => RustFlow.andThen (s.exec W env) (fun env => execAll W env ss)
end

/-- The end of a method: the value returned, and the bytes of `self`. -/
def RustFlow.finish : Res RustFlow → Res (RustVal × Buf)
  | .error e => .error e
  | .ok (.next env) => .ok (.unit, env.self)
  | .ok (.ret v s) => .ok (v, s)

/-- The variables of a method with at most one argument. -/
def argEnv (self : Buf) (arg : Option (String × RustVal)) : RustEnv :=
  match arg with
  | some (x, v) => (RustEnv.mk self fun _ => none).put x v
  | none => ⟨self, fun _ => none⟩

/-- Calls a method on `self` with one argument, if it has one: the value returned, and the bytes of `self`
afterwards. -/
def runMethod (W : RustWorld) (body : List RustStmt) (self : Buf) (arg : Option (String × RustVal)) :
    Res (RustVal × Buf) :=
  RustFlow.finish (execAll W (argEnv self arg) body)

end Verif.Spec
