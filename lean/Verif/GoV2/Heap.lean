import Verif.GoV2.Buffer

/-!
# Memory: Go slices as references

The other modules of `GoV2` describe a slice by its contents.  Here a slice is what it is in Go, a reference into a
backing array shared with other slices, so that statements about aliasing can be made.  The functions of
/repo/v2/buffer.go, encode.go and decode.go are transcribed again over this memory (`HeapBuffer`, `HeapEncode`,
`HeapDecode`) and proved to agree with the transcriptions by contents.

Only byte arrays are memory here; strings are immutable in Go and stay values.
-/

namespace GoV2.Heap

/-- The byte arrays of a program.  Arrays from `next` on have not been allocated. -/
structure Heap where
  mem : Nat → Bytes
  next : Nat

/-- A Go slice: an array, the index of the first element, length and capacity.  The nil slice is `⟨0, 0, 0, 0⟩`. -/
structure Slice where
  arr : Nat
  off : Nat
  len : Nat
  cap : Nat
deriving DecidableEq, Repr

/-- The elements of the slice. -/
def Slice.bytes (s : Slice) (h : Heap) : Bytes := ((h.mem s.arr).drop s.off).take s.len

/-- The elements up to the capacity. -/
def Slice.full (s : Slice) (h : Heap) : Bytes := ((h.mem s.arr).drop s.off).take s.cap

/-- The slice is one that can exist. -/
structure Slice.Ok (s : Slice) (h : Heap) : Prop where
  len : s.len ≤ s.cap
  arr : s.arr < h.next
  fits : s.off + s.cap ≤ (h.mem s.arr).length

/-- A computation on the memory that may panic. -/
def H (α : Type) := Heap → Go (α × Heap)

def H.pure {α : Type} (a : α) : H α := fun h => .ok (a, h)

def H.bind {α β : Type} (x : H α) (f : α → H β) : H β := fun h =>
  match x h with
  | .ok (a, h) => f a h
  | .panic => .panic

instance : Monad H where
  pure := H.pure
  bind := H.bind

instance : LawfulMonad H := LawfulMonad.mk'
  (id_map := by
    intro α x; funext h
    show H.bind x (fun a => H.pure (id a)) h = x h
    simp only [H.bind]; cases x h <;> rfl)
  (pure_bind := by intros; rfl)
  (bind_assoc := by
    intro α β γ x f g; funext h
    show H.bind (H.bind x f) g h = H.bind x (fun a => H.bind (f a) g) h
    simp only [H.bind]; cases x h <;> rfl)

def H.panic {α : Type} : H α := fun _ => .panic

/-- Replace the contents of one array. -/
def Heap.set (h : Heap) (a : Nat) (bs : Bytes) : Heap := { h with mem := fun i => if i = a then bs else h.mem i }

/-- A new array with these contents. -/
def Heap.alloc (h : Heap) (bs : Bytes) : Heap := { mem := fun i => if i = h.next then bs else h.mem i, next := h.next + 1 }

/-- `make([]byte, n)` -/
def make (n : Int) : H Slice := fun h =>
  if n < 0 then .panic else .ok (⟨h.next, 0, n.toNat, n.toNat⟩, h.alloc (mk0 n.toNat))

/-- `s[lo:hi]`: panics unless `0 ≤ lo ≤ hi ≤ cap(s)`. -/
def Slice.slice (s : Slice) (lo hi : Int) : H Slice :=
  if 0 ≤ lo ∧ lo ≤ hi ∧ hi ≤ s.cap then pure ⟨s.arr, s.off + lo.toNat, hi.toNat - lo.toNat, s.cap - lo.toNat⟩ else H.panic

/-- `s[i]`: panics unless `i < len(s)`. -/
def Slice.at (s : Slice) (i : Nat) : H Byte := fun h =>
  match (s.bytes h)[i]? with
  | some x => .ok (x, h)
  | none => .panic

/-- `s[i] = v`: panics unless `0 ≤ i < len(s)`. -/
def Slice.store (s : Slice) (i : Int) (v : Byte) : H Unit := fun h =>
  if i < 0 ∨ (s.len : Int) ≤ i then .panic
  else .ok ((), h.set s.arr ((h.mem s.arr).set (s.off + i.toNat) v))

/-- The contents of a slice, read at this moment. -/
def Slice.read (s : Slice) : H Bytes := fun h => .ok (s.bytes h, h)

/-- `copy(s, src)` where `src` has these contents; returns the number of bytes copied. -/
def Slice.copy (s : Slice) (src : Bytes) : H Nat := fun h =>
  let n := min s.len src.length
  .ok (n, h.set s.arr (overwrite (h.mem s.arr) s.off (src.take n)))

/-- `append(s, src...)` where `src` has these contents: in place if the capacity suffices, otherwise in a new array with
any number of spare elements. -/
def Slice.append (rt : Runtime) (s : Slice) (src : Bytes) : H Slice := fun h =>
  if s.len + src.length ≤ s.cap then
    .ok ({ s with len := s.len + src.length }, h.set s.arr (overwrite (h.mem s.arr) (s.off + s.len) src))
  else
    let bs := s.bytes h ++ src ++ mk0 (rt.slack s.cap (s.len + src.length))
    .ok (⟨h.next, 0, s.len + src.length, bs.length⟩, h.alloc bs)

/-! ## v2/buffer.go -/

/-- v2/buffer.go 23-26: `type Buffer struct { b []byte; offset int }`. -/
structure HBuffer where
  b : Slice
  offset : Int
deriving DecidableEq, Repr

/-- v2/buffer.go 28-33. -/
def NewBuffer : H HBuffer := do
  let b ← make defaultSize
  return { b, offset := 0 }

/-- v2/buffer.go 35-40. -/
def NewBufferSize (size : Int) : H HBuffer := do
  let b ← make size
  return { b, offset := 0 }

/-- v2/buffer.go 42-47. -/
def NewBufferFromBytes (b : Slice) : HBuffer := { b, offset := 0 }

/-- v2/buffer.go 49-51. -/
def HBuffer.Reset (b : HBuffer) : HBuffer := { b with offset := 0 }

/-- v2/buffer.go 53-55. -/
def HBuffer.MoveOffset (b : HBuffer) (offset : Int) : HBuffer := { b with offset := b.offset + offset }

/-- v2/buffer.go 57-67.  (`make` allocates a temporary array that is not modelled; its negative argument is.) -/
def HBuffer.Grow (rt : Runtime) (buf : HBuffer) (n : Int) : H HBuffer := do
  if (buf.b.cap : Int) - buf.offset < n then
    let s ← buf.b.slice 0 buf.offset
    let k := if (buf.b.cap : Int) < n then n + buf.b.cap - buf.offset else buf.b.cap * 2 - buf.offset
    if k < 0 then H.panic
    let s ← s.append rt (mk0 k.toNat)
    let s ← s.slice 0 s.cap
    return { buf with b := s }
  else
    return buf

/-- v2/buffer.go 69-73. -/
def HBuffer.Write (rt : Runtime) (buf : HBuffer) (b : Slice) : H (HBuffer × Nat) := do
  let buf ← buf.Grow rt b.len
  let dst ← buf.b.slice buf.offset buf.b.cap
  let n ← dst.copy (← b.read)
  return ({ buf with offset := buf.offset + n }, b.len)

/-- v2/buffer.go 75-77: the result shares the buffer's memory. -/
def HBuffer.Bytes (buf : HBuffer) : H Slice := buf.b.slice 0 buf.offset

/-- `b.b[i] = v` -/
def HBuffer.store (buf : HBuffer) (i : Int) (v : Byte) : H HBuffer := do
  buf.b.store i v
  return buf

/-- `b.offset = offset + copy(b.b[offset:], value)` for a string's bytes (v2/encode.go 298, 354). -/
def HBuffer.copyString (buf : HBuffer) (offset : Int) (value : _root_.Bytes) : H HBuffer := do
  let dst ← buf.b.slice offset buf.b.len
  let n ← dst.copy value
  return { buf with offset := offset + n }

/-- `b.offset = offset + copy(b.b[offset:], value)` for a slice, which is read now (v2/encode.go 245). -/
def HBuffer.copySlice (buf : HBuffer) (offset : Int) (value : Slice) : H HBuffer := do
  let dst ← buf.b.slice offset buf.b.len
  let n ← dst.copy (← value.read)
  return { buf with offset := offset + n }

end GoV2.Heap
