/-!
# Basic vocabulary of the model

Bytes, buffers, Rust panics as values, slicing and `usize` arithmetic. These definitions model the
Rust language primitives used throughout `/repo` (no single source line): indexing `x[i]`,
slicing `x[a..b]`, `+`/`-` on `usize`.
-/

namespace Verif

/-- A `&[u8]`/`Vec<u8>`. A `&mut [u8]` is modelled by functions that return the new buffer. -/
abbrev Buf := List UInt8

/-- The ways a Rust call can fail to return a value. -/
inductive Fail where
  /-- a Rust panic (out-of-bounds index, failed assertion, checked overflow, `unwrap` on `None`) -/
  | panic
  /-- the call never returns -/
  | hang
  deriving DecidableEq, Repr

/-- The outcome of a Rust call. -/
abbrev Res (α : Type) := Except Fail α

instance {α : Type} [DecidableEq α] : DecidableEq (Res α) := fun a b =>
  match a, b with
  | .ok x, .ok y => if h : x = y then isTrue (h ▸ rfl) else isFalse fun e => h (by cases e; rfl)
  | .error x, .error y =>
    if h : x = y then isTrue (h ▸ rfl) else isFalse fun e => h (by cases e; rfl)
  | .ok _, .error _ => isFalse fun e => by cases e
  | .error _, .ok _ => isFalse fun e => by cases e

/-- A panic. -/
def panic {α : Type} : Res α := .error .panic

@[simp] theorem ok_bind {α β : Type} (a : α) (f : α → Res β) :
    (Except.ok a >>= f) = f a := rfl

@[simp] theorem pure_bind' {α β : Type} (a : α) (f : α → Res β) :
    ((pure a : Res α) >>= f) = f a := rfl

@[simp] theorem error_bind {α β : Type} (e : Fail) (f : α → Res β) :
    (Except.error e >>= f) = Except.error e := rfl

@[simp] theorem panic_bind {α β : Type} (f : α → Res β) :
    ((panic : Res α) >>= f) = panic := rfl

@[simp] theorem pure_eq_ok {α : Type} (a : α) : (pure a : Res α) = Except.ok a := rfl

@[simp] theorem ok_map {α β : Type} (a : α) (f : α → β) :
    (f <$> (Except.ok a : Res α)) = Except.ok (f a) := rfl

@[simp] theorem error_map {α β : Type} (e : Fail) (f : α → β) :
    (f <$> (Except.error e : Res α)) = Except.error e := rfl

@[simp] theorem panic_ne_ok {α : Type} (a : α) : (panic : Res α) ≠ .ok a := by
  simp [panic]

@[simp] theorem ok_ne_panic {α : Type} (a : α) : Except.ok a ≠ (panic : Res α) := by
  simp [panic]

theorem bind_eq_ok {α β : Type} {x : Res α} {f : α → Res β} {b : β} :
    (x >>= f) = .ok b ↔ ∃ a, x = .ok a ∧ f a = .ok b := by
  cases x with
  | error e => simp
  | ok a => simp

/-- Build mode: `debug` has overflow checks (panic), `release` wraps. -/
inductive Mode where
  | debug
  | release
  deriving DecidableEq, Repr

/-- Number of values of `usize` (64-bit target). -/
abbrev usizeCard : Nat := 2 ^ 64

/-- `a + b` on `usize`. -/
def uadd (m : Mode) (a b : Nat) : Res Nat :=
  if a + b < usizeCard then .ok (a + b)
  else match m with
    | .debug => panic
    | .release => .ok ((a + b) % usizeCard)

/-- `a - b` on `usize`. -/
def usub (m : Mode) (a b : Nat) : Res Nat :=
  if b ≤ a then .ok (a - b)
  else match m with
    | .debug => panic
    | .release => .ok ((a + usizeCard - b % usizeCard) % usizeCard)

/-- `buf[i]`. -/
def index (buf : Buf) (i : Nat) : Res UInt8 :=
  match buf[i]? with
  | some b => .ok b
  | none => panic

/-- `buf[i] = b`. -/
def setIndex (buf : Buf) (i : Nat) (b : UInt8) : Res Buf :=
  if i < buf.length then .ok (buf.set i b) else panic

/-- `&buf[a..b]`. -/
def slice (buf : Buf) (a b : Nat) : Res Buf :=
  if a ≤ b ∧ b ≤ buf.length then .ok ((buf.take b).drop a) else panic

/-- `&buf[a..]`. -/
def sliceFrom (buf : Buf) (a : Nat) : Res Buf :=
  if a ≤ buf.length then .ok (buf.drop a) else panic

/-- `buf[a..a + new.len()].copy_from_slice(new)`. -/
def copyInto (buf : Buf) (a : Nat) (new : Buf) : Res Buf :=
  if a + new.length ≤ buf.length then .ok (buf.take a ++ new ++ buf.drop (a + new.length))
  else panic

end Verif
