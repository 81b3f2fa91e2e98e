import Verif.Base

/-!
# Model of /repo/v2/buffer.go

A Go slice value `buf.b` is modelled by its whole backing array `arr` (so `cap = arr.length`) and its
length `len ≤ cap`; the array starts at the slice's first element, so elements before it do not exist
for this slice.  `offset` is an `int` and may become negative through `MoveOffset`.
-/

namespace GoV2

/-- The Go run time's allocation policy: when `append` has to reallocate a slice with capacity
`oldCap` to hold `newLen` elements it may add any number of spare elements. -/
structure Runtime where
  slack : (oldCap newLen : Nat) → Nat

/-- v2/buffer.go 23-26: `type Buffer struct { b []byte; offset int }`. -/
structure Buffer where
  /-- the backing array of `buf.b`, up to its capacity -/
  arr : Bytes
  /-- `len(buf.b)` -/
  len : Nat
  offset : Int
deriving DecidableEq, Repr

/-- v2/buffer.go 19-21. -/
def defaultSize : Nat := 512

/-- `make([]byte, n)`: zeroed, length and capacity `n`. -/
def mk0 (n : Nat) : Bytes := List.replicate n 0

/-- v2/buffer.go 28-33. -/
def NewBuffer : Buffer := { arr := mk0 defaultSize, len := defaultSize, offset := 0 }

/-- v2/buffer.go 35-40: `make([]byte, size)` panics for a negative size. -/
def NewBufferSize (size : Int) : Go Buffer :=
  if size < 0 then .panic
  else .ok { arr := mk0 size.toNat, len := size.toNat, offset := 0 }

/-- v2/buffer.go 42-47.  The argument is a slice of length `len` whose backing array from its first
element to its capacity is `arr`. -/
def NewBufferFromBytes (arr : Bytes) (len : Nat) : Buffer := { arr, len, offset := 0 }

/-- `cap(buf.b)`. -/
def Buffer.cap (b : Buffer) : Nat := b.arr.length

/-- v2/buffer.go 49-51. -/
def Buffer.Reset (b : Buffer) : Buffer := { b with offset := 0 }

/-- v2/buffer.go 53-55. -/
def Buffer.MoveOffset (b : Buffer) (offset : Int) : Buffer := { b with offset := b.offset + offset }

/-- `append(buf.b[:hi], make([]byte, n)...)`.  `buf.b[:hi]` panics unless `0 ≤ hi ≤ cap`;
`make` panics if `n < 0`.  With room in the array the zeros are written in place, otherwise a new,
zero-initialised array with arbitrary slack is allocated. -/
def appendZeros (rt : Runtime) (b : Buffer) (hi n : Int) : Go (Bytes × Nat) :=
  if hi < 0 ∨ (b.cap : Int) < hi ∨ n < 0 then .panic
  else
    let h := hi.toNat
    let k := n.toNat
    if h + k ≤ b.cap then
      .ok (b.arr.take h ++ mk0 k ++ b.arr.drop (h + k), h + k)
    else
      .ok (b.arr.take h ++ mk0 k ++ mk0 (rt.slack b.cap (h + k)), h + k)

/-- v2/buffer.go 57-67. -/
def Buffer.Grow (rt : Runtime) (b : Buffer) (n : Int) : Go Buffer :=
  if (b.cap : Int) - b.offset < n then do
    let (arr, _) ←
      if (b.cap : Int) < n then
        appendZeros rt b b.offset (n + b.cap - b.offset)
      else
        appendZeros rt b b.offset (b.cap * 2 - b.offset)
    -- buf.b = buf.b[:cap(buf.b)]
    return { b with arr := arr, len := arr.length }
  else
    return b

/-- Overwrite the elements of `arr` from index `i` on with `v` (Go's `copy` into `arr[i:]`, for
`i + v.length ≤ arr.length`). -/
def overwrite (arr : Bytes) (i : Nat) (v : Bytes) : Bytes :=
  arr.take i ++ v ++ arr.drop (i + v.length)

/-- `copy(dst[lo:hi], src)` where `hi ≤ cap` is given: panics unless `0 ≤ lo ≤ hi`; copies
`min (hi - lo) (len src)` bytes and returns the new array and that count. -/
def copyInto (arr : Bytes) (lo : Int) (hi : Nat) (src : Bytes) : Go (Bytes × Nat) :=
  if lo < 0 ∨ (hi : Int) < lo then .panic
  else
    let n := min (hi - lo.toNat) src.length
    .ok (overwrite arr lo.toNat (src.take n), n)

/-- v2/buffer.go 69-73. -/
def Buffer.Write (rt : Runtime) (b : Buffer) (v : Bytes) : Go (Buffer × Nat) := do
  let b ← b.Grow rt v.length
  -- buf.offset += copy(buf.b[buf.offset:cap(buf.b)], b)
  let (arr, n) ← copyInto b.arr b.offset b.cap v
  return ({ b with arr := arr, offset := b.offset + n }, v.length)

/-- v2/buffer.go 75-77: `buf.b[:buf.offset]`, which panics unless `0 ≤ offset ≤ cap`. -/
def Buffer.Bytes (b : Buffer) : Go Bytes :=
  if b.offset < 0 ∨ (b.cap : Int) < b.offset then .panic else .ok (b.arr.take b.offset.toNat)

/-- v2/buffer.go 79-81. -/
def Buffer.Len (b : Buffer) : Int := b.offset

/-- v2/buffer.go 83-85. -/
def Buffer.Cap (b : Buffer) : Nat := b.cap

/-- `b.b[i] = v`: panics unless `0 ≤ i < len(b.b)`. -/
def Buffer.store (b : Buffer) (i : Int) (v : Byte) : Go Buffer :=
  if i < 0 ∨ (b.len : Int) ≤ i then .panic
  else .ok { b with arr := b.arr.set i.toNat v }

end GoV2
