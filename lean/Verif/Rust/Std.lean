import Verif.Spec.Wire
import Verif.Spec.Utf8

/-!
# The parts of Rust's standard library and of `byteorder` that /repo/encoder.rs and /repo/decoder.rs use

Not polyglot code: the semantics of `Result`, `?`, `panic!`, `std::io::Cursor` and `str::from_utf8`.
-/

namespace Rust

/-- What a Rust call can do: return `Ok`, return `Err`, or panic. -/
inductive Out (ε α : Type) where
  | ok (a : α)
  | err (e : ε)
  | panic
deriving DecidableEq, Repr

/-- `std::io::Cursor` over bytes. -/
structure Cursor where
  vec : Bytes
  pos : Nat
deriving DecidableEq, Repr

/-- The unread bytes. -/
def Cursor.rest (c : Cursor) : Bytes := c.vec.drop c.pos

/-- `set_position` to a position further on. -/
def Cursor.adv (c : Cursor) (n : Nat) : Cursor := { c with pos := c.pos + n }

/-- Which version of the standard library: since Rust 1.80 a failing `Cursor::read_exact` moves the
position to the end of the input, before that it left the position alone.  All theorems hold for both. -/
structure Std where
  eofMovesToEnd : Bool

/-- A fallible Rust function with a `&mut Cursor` argument. -/
def Rs (ε α : Type) := Cursor → Out ε α × Cursor

namespace Rs
variable {ε α β : Type}

def pure (a : α) : Rs ε α := fun c => (.ok a, c)
/-- Sequencing; `Err` returns early, as the `?` operator does, and a panic unwinds. -/
def bind (x : Rs ε α) (f : α → Rs ε β) : Rs ε β := fun c =>
  match x c with
  | (.ok a, c) => f a c
  | (.err e, c) => (.err e, c)
  | (.panic, c) => (.panic, c)

instance : Monad (Rs ε) where
  pure := Rs.pure
  bind := Rs.bind

/-- `return Err(e)`. -/
def throw (e : ε) : Rs ε α := fun c => (.err e, c)

/-- `panic!`. -/
def panic : Rs ε α := fun c => (.panic, c)

/-- `x.ok().ok_or(e)`: replace whatever error by `e`. -/
def ok_or (x : Rs Unit α) (e : ε) : Rs ε α := fun c =>
  match x c with
  | (.ok a, c) => (.ok a, c)
  | (.err _, c) => (.err e, c)
  | (.panic, c) => (.panic, c)

end Rs

/-- `Cursor::read_exact` into a buffer of length `n`. -/
def read_exact (std : Std) (n : Nat) : Rs Unit Bytes := fun c =>
  if n ≤ c.rest.length then (.ok (c.rest.take n), c.adv n)
  else (.err (), if std.eofMovesToEnd then { c with pos := c.vec.length } else c)

/-- `byteorder::ReadBytesExt::read_u8`: `read_exact` of one byte. -/
def read_u8 (std : Std) : Rs Unit Byte := fun c =>
  match read_exact std 1 c with
  | (.ok bs, c) => (.ok (bs.headD 0), c)
  | (.err e, c) => (.err e, c)
  | (.panic, c) => (.panic, c)

/-- `self.set_position(self.position() - n)`: `u64` subtraction, which panics on underflow (in debug
builds; in release builds it would wrap around). -/
def back {ε : Type} (n : Nat) : Rs ε Unit := fun c =>
  if n ≤ c.pos then (.ok (), { c with pos := c.pos - n }) else (.panic, c)

/-- `x << s` for `s : u32`, which panics when `s` is not below the width (in debug builds). -/
def shl {ε : Type} {w : Nat} (x : BitVec w) (s : Nat) : Rs ε (BitVec w) :=
  if s < w then Rs.pure (x <<< s) else Rs.panic

/-- Writing bytes into a vector at a position: pads with zeros up to the position, overwrites what is there
and extends the vector. -/
def writeAt (vec : Bytes) (pos : Nat) (bs : Bytes) : Bytes :=
  vec.take pos ++ List.replicate (pos - vec.length) 0 ++ bs ++ vec.drop (pos + bs.length)

/-- `Cursor<Vec<u8>>::write_all` (and `write_u8`).  Simplification: running out of memory and positions
beyond `usize` are not modelled, so it never fails. -/
def write_all {ε : Type} (bs : Bytes) : Rs ε Unit := fun c =>
  (.ok (), if bs = [] then c else { vec := writeAt c.vec c.pos bs, pos := c.pos + bs.length })

end Rust
