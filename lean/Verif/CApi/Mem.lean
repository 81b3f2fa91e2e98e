import Verif.Rust.Safe

/-!
# Memory, pointers and undefined behaviour for the C bindings (/repo/c_bindings)

Not polyglot code: a memory with typed objects at addresses, as seen across the C boundary.  Reading or writing
through a null, dangling or wrongly typed pointer, reading past the end of an object and freeing what was not
allocated are undefined behaviour (`ub`).  A Rust panic in an `extern "C"` function aborts the process.
-/

namespace CApi

open Rust (Cursor Std Out)

/-- An address; 0 is the null pointer. -/
scoped notation "Ptr" => Nat

/-- c_bindings/types.rs 19-25, polyglot.h 51-54. -/
inductive Status where
  | Pass | Fail | NullPointer
deriving DecidableEq, Repr

/-- What lives at an address. -/
inductive Obj where
  /-- a `polyglot_status_t` variable -/
  | status (s : Status)
  /-- c_bindings/encoder.rs 26-30: `Encoder`, a `Cursor<Vec<u8>>` -/
  | encoder (c : Cursor)
  /-- c_bindings/decoder.rs 26-30: `Decoder`, a `Cursor<Vec<u8>>` -/
  | decoder (c : Cursor)
  /-- c_bindings/types.rs 81-86: `Buffer` -/
  | buffer (data : Ptr) (length : BitVec 32)
  /-- raw memory: `malloc`ed by C, or the content of a Rust box -/
  | block (data : Bytes)
deriving DecidableEq, Repr

/-- The objects that exist, and the next free address. -/
structure Mem where
  obj : Ptr → Option Obj
  next : Ptr

/-- Outcome of a call across the C boundary. -/
inductive Res (α : Type) where
  | ret (a : α) (m : Mem)
  /-- the process is aborted by a Rust panic -/
  | abort
  /-- undefined behaviour -/
  | ub

def C (α : Type) := Mem → Res α

instance : Monad C where
  pure a := fun m => .ret a m
  bind x f := fun m =>
    match x m with
    | .ret a m => f a m
    | .abort => .abort
    | .ub => .ub

def C.ub {α : Type} : C α := fun _ => .ub
def C.abort {α : Type} : C α := fun _ => .abort

/-- `m` with another object at `p`. -/
def Mem.set (m : Mem) (p : Ptr) (o : Option Obj) : Mem := { m with obj := fun q => if q = p then o else m.obj q }

/-- The object at `p`; undefined behaviour when there is none (also for null). -/
def load (p : Ptr) : C Obj := fun m =>
  match m.obj p with
  | some o => .ret o m
  | none => .ub

/-- Replace an object that exists. -/
def store (p : Ptr) (o : Obj) : C Unit := fun m =>
  match m.obj p with
  | some _ => .ret () (m.set p (some o))
  | none => .ub

/-- `Box::into_raw(Box::new(o))`, `malloc`: a fresh address. -/
def alloc (o : Obj) : C Ptr := fun m => .ret m.next { obj := fun q => if q = m.next then some o else m.obj q, next := m.next + 1 }

/-- The end of an object's life. -/
def release (p : Ptr) : C Unit := fun m =>
  match m.obj p with
  | some _ => .ret () (m.set p none)
  | none => .ub

/-- `std::ptr::NonNull::<u8>::dangling()`: where the data of an empty boxed slice is; nothing is allocated. -/
def dangling : Ptr := 1

/-- The memory allocator.  `strict`: `dealloc` must be called with the layout of the allocation, as
the contract of `GlobalAlloc` says; otherwise sizes are ignored as `malloc`/`free` do. -/
structure Allocator where
  strict : Bool

/-- `dealloc(p, Layout { size: n, align: 1 })`. -/
def dealloc (al : Allocator) (p : Ptr) (n : Nat) : C Unit := do
  match ← load p with
  | .block d => if al.strict ∧ d.length ≠ n then C.ub else release p
  | _ => C.ub

/-- `std::slice::from_raw_parts(p, n)`: `n` readable bytes at `p` (any non-null `p` will do for `n = 0`). -/
def rawSlice (p : Ptr) (n : Nat) : C Bytes :=
  if n = 0 then pure []
  else do
    match ← load p with
    | .block d => if n ≤ d.length then pure (d.take n) else C.ub
    | _ => C.ub

/-- `CStr::from_ptr(p).to_bytes()`: the bytes up to the first zero byte. -/
def cstr (p : Ptr) : C Bytes := do
  match ← load p with
  | .block d => if (0 : Byte) ∈ d then pure (d.takeWhile (· != 0)) else C.ub
  | _ => C.ub

end CApi
