import Verif.GoV2.Buffer

/-!
# Model of /repo/buffer.go (v1)

A v1 `Buffer` *is* a `[]byte`: backing array `arr` from the slice's first element to its capacity, and
the slice length `len`.  `Runtime` (allocation slack of `append`), `mk0`, `overwrite` and `copyInto`
are the Go primitives defined in `GoV2/Buffer.lean`.
-/

namespace GoV1

open GoV2 (Runtime mk0 overwrite copyInto)

/-- buffer.go 23: `type Buffer []byte`. -/
structure Buffer where
  /-- the backing array, up to its capacity -/
  arr : Bytes
  /-- `len(*buf)` -/
  len : Nat
deriving DecidableEq, Repr

/-- buffer.go 19-21. -/
def defaultSize : Nat := 512

/-- `cap(*buf)`. -/
def Buffer.cap (b : Buffer) : Nat := b.arr.length

/-- buffer.go 38-41. -/
def NewBuffer : Buffer := { arr := mk0 defaultSize, len := 0 }

/-- The Go builtin `append(b, v...)`: in place while the capacity suffices, otherwise into a new array
with arbitrary slack (zeroed). -/
def Buffer.append (rt : Runtime) (b : Buffer) (v : Bytes) : Buffer :=
  if b.len + v.length ≤ b.cap then
    { arr := overwrite b.arr b.len v, len := b.len + v.length }
  else
    { arr := b.arr.take b.len ++ v ++ mk0 (rt.slack b.cap (b.len + v.length)), len := b.len + v.length }

/-- `(*buf)[:hi]`: panics unless `0 ≤ hi ≤ cap`. -/
def Buffer.reslice (b : Buffer) (hi : Nat) : Go Buffer :=
  if hi ≤ b.cap then .ok { b with len := hi } else .panic

/-- buffer.go 25-27. -/
def Buffer.Reset (b : Buffer) : Go Buffer := b.reslice 0

/-- buffer.go 29-36. -/
def Buffer.Write (rt : Runtime) (b : Buffer) (v : Bytes) : Go (Buffer × Nat) := do
  if (b.cap : Int) - b.len < v.length then
    let b0 ← b.reslice b.len
    return (b0.append rt v, v.length)
  else
    let (arr, n) ← copyInto b.arr b.len b.cap v
    let b ← Buffer.reslice { b with arr := arr } (b.len + n)
    return (b, v.length)

/-- buffer.go 43-45. -/
def Buffer.Bytes (b : Buffer) : _root_.Bytes := b.arr.take b.len

/-- buffer.go 47-49. -/
def Buffer.Len (b : Buffer) : Nat := b.len

end GoV1
