/-!
# Base vocabulary shared by all models

Bytes, the result type of Go code that may panic, and Go's slice primitives on immutable byte
sequences.  Nothing here models a polyglot function; these are the semantics of the Go language
constructs that the models use (Go language specification, "Index expressions" and
"Slice expressions").
-/

/-- A byte (`byte`, `uint8` in Go; `u8` in Rust). -/
abbrev Byte := BitVec 8

/-- A byte sequence: contents of a slice or of a string. -/
abbrev Bytes := List Byte

/-- Result of a Go expression that may panic at run time.  Error *values* are ordinary data. -/
inductive Go (α : Type) where
  | ok (a : α)
  | panic
deriving DecidableEq, Repr

namespace Go

@[inline] def bind {α β : Type} (x : Go α) (f : α → Go β) : Go β :=
  match x with
  | .ok a => f a
  | .panic => .panic

instance : Monad Go where
  pure := .ok
  bind := Go.bind

@[simp] theorem bind_ok {α β : Type} (a : α) (f : α → Go β) : (Go.ok a >>= f) = f a := rfl
@[simp] theorem bind_panic {α β : Type} (f : α → Go β) : ((Go.panic : Go α) >>= f) = .panic := rfl
@[simp] theorem pure_eq {α : Type} (a : α) : (pure a : Go α) = .ok a := rfl

instance : LawfulMonad Go := LawfulMonad.mk'
  (id_map := by intro α x; cases x <;> rfl)
  (pure_bind := by intros; rfl)
  (bind_assoc := by intro α β γ x f g; cases x <;> rfl)

/-- The computation terminates without a run-time panic. -/
def Returns {α : Type} (x : Go α) : Prop := x ≠ .panic

end Go

/-- `b[i]` for a non-negative constant or loop index: panics when out of range. -/
def Bytes.at (b : Bytes) (i : Nat) : Go Byte :=
  match b[i]? with
  | some x => .ok x
  | none => .panic

/-- `b[i:]`: panics when `i > len(b)`. -/
def Bytes.sliceFrom (b : Bytes) (i : Nat) : Go Bytes :=
  if i ≤ b.length then .ok (b.drop i) else .panic

/-- `b[i:j]`: panics unless `i ≤ j ≤ len(b)`.  (Go allows `j` up to `cap(b)`; every use in the
modelled code has checked `j ≤ len(b)` before.) -/
def Bytes.slice (b : Bytes) (i j : Nat) : Go Bytes :=
  if i ≤ j ∧ j ≤ b.length then .ok ((b.take j).drop i) else .panic
