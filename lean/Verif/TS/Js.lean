import Verif.Spec.Wire

/-!
# The parts of JavaScript that /repo/encoder.ts and /repo/decoder.ts use

Not polyglot code: exceptions, `ArrayBuffer`/`Uint8Array`/`DataView` and the integer operators.
-/

namespace TS

/-- Exceptions: the built-in `RangeError`, and the `Invalid…Error` classes of decoder.ts 27-137. -/
inductive JsError where
  | RangeError
  | InvalidBoolean | InvalidUint8 | InvalidUint16 | InvalidUint32 | InvalidUint64 | InvalidInt32 | InvalidInt64
  | InvalidFloat32 | InvalidFloat64 | InvalidArray | InvalidMap | InvalidUint8Array | InvalidString | InvalidError
deriving DecidableEq, Repr

/-- A method on an object with state `σ`: returns a value or throws, and leaves the object in some state. -/
def Js (σ α : Type) := σ → Except JsError α × σ

namespace Js
variable {σ α β : Type}

def pure (a : α) : Js σ α := fun s => (.ok a, s)
def bind (x : Js σ α) (f : α → Js σ β) : Js σ β := fun s =>
  match x s with
  | (.ok a, s) => f a s
  | (.error e, s) => (.error e, s)

instance : Monad (Js σ) where
  pure := Js.pure
  bind := Js.bind

def throw (e : JsError) : Js σ α := fun s => (.error e, s)
def get : Js σ σ := fun s => (.ok s, s)
def modify (f : σ → σ) : Js σ Unit := fun s => (.ok (), f s)

end Js

/-- A `Uint8Array`: a window of `len` bytes at `off` into an `ArrayBuffer`. -/
structure View where
  buffer : Bytes
  off : Nat
  len : Nat
deriving DecidableEq, Repr

namespace View

/-- Windows lie inside their buffer; the constructors of `Uint8Array` enforce it. -/
def Ok (v : View) : Prop := v.off + v.len ≤ v.buffer.length

/-- The bytes seen through the window. -/
def contents (v : View) : Bytes := (v.buffer.drop v.off).take v.len

/-- A window onto a whole buffer. -/
def ofBytes (bs : Bytes) : View := ⟨bs, 0, bs.length⟩

/-- `new Uint8Array(n)`. -/
def zeros (n : Nat) : View := ofBytes (List.replicate n 0)

/-- `arr[i]`: `undefined` out of range. -/
def get? (v : View) (i : Nat) : Option Byte := if i < v.len then v.buffer[v.off + i]? else none

/-- `arr[i] = b`: ignored out of range. -/
def store (v : View) (i : Nat) (b : Byte) : View :=
  if i < v.len then { v with buffer := v.buffer.set (v.off + i) b } else v

/-- `arr.set(bs, i)`: throws a `RangeError` (here `none`) when it does not fit. -/
def set (v : View) (bs : Bytes) (i : Nat) : Option View :=
  if i + bs.length ≤ v.len then
    some { v with buffer := v.buffer.take (v.off + i) ++ bs ++ v.buffer.drop (v.off + i + bs.length) }
  else none

/-- `arr.slice(i, j)`: a copy, clamped to the array. -/
def slice (v : View) (i j : Nat) : Bytes := (v.contents.take j).drop i

end View

/-- `new DataView(buffer, at, n)` followed by reading all `n` bytes: throws a `RangeError` (here `none`) when
it does not fit into the buffer. -/
def dataView (buffer : Bytes) (pos n : Nat) : Option Bytes :=
  if pos + n ≤ buffer.length then some ((buffer.drop pos).take n) else none

/-- `ToUint8`, the conversion of a number stored into a `Uint8Array`. -/
def toUint8 (n : Int) : Byte := BitVec.ofInt 8 n

/-- `ToUint32`. -/
def toUint32 (n : Int) : Nat := (n % 2 ^ 32).toNat

end TS
