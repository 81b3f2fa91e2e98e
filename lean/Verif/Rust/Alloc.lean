import Verif.Rust.Decode

/-!
# What /repo/decoder.rs allocates

`decode_bytes`, `decode_string` and `decode_error` again, with the `vec![0u8; size]` of decoder.rs 124, 139 and 158 recorded.  The
other decoders allocate nothing.  `*_counts` below: with the record removed these are the functions of `Decode.lean`.
-/

namespace Rust

open DecodingError

/-- A decoder function together with the number of bytes it has asked the allocator for. -/
def Counted (α : Type) := Cursor → (Out DecodingError α × Cursor) × Nat

namespace Counted
variable {α β : Type}

/-- Code that allocates nothing. -/
def free (x : Dec α) : Counted α := fun c => (x c, 0)

/-- `vec![0u8; n]`. -/
def vec (n : Nat) : Counted Unit := fun c => ((.ok (), c), n)

def bind (x : Counted α) (f : α → Counted β) : Counted β := fun c =>
  match x c with
  | ((.ok a, c), n) => ((f a c).1, n + (f a c).2)
  | ((.err e, c), n) => ((.err e, c), n)
  | ((.panic, c), n) => ((.panic, c), n)

instance : Monad Counted where
  pure a := free (Rs.pure a)
  bind := bind

end Counted

open Counted

/-- decoder.rs 120-132. -/
def decode_bytes_counted (std : Std) : Counted _root_.Bytes := do
  let kind ← free (read_u8_or std InvalidBytes)
  if kind = Kind.Bytes.toU8 then
    let size ← free (decode_u32 std)
    vec size.toNat
    let buf ← free (Rs.ok_or (read_exact std size.toNat) InvalidBytes)
    return buf
  free (back 1)
  free (Rs.throw InvalidBytes)

/-- decoder.rs 134-151. -/
def decode_string_counted (std : Std) : Counted _root_.Bytes := do
  let kind ← free (read_u8_or std InvalidString)
  if kind = Kind.String.toU8 then
    let size ← free (decode_u32 std)
    vec size.toNat
    let str_buf ← free (Rs.ok_or (read_exact std size.toNat) InvalidString)
    if Spec.utf8 str_buf then
      return str_buf
    else
      free (Rs.throw InvalidString)
  else
    free (back 1)
    free (Rs.throw InvalidString)

/-- decoder.rs 153-170. -/
def decode_error_counted (std : Std) : Counted _root_.Bytes := do
  let kind ← free (read_u8_or std InvalidError)
  let nested_kind ← free (read_u8_or std InvalidError)
  if kind = Kind.Error.toU8 ∧ nested_kind = Kind.String.toU8 then
    let size ← free (decode_u32 std)
    vec size.toNat
    let str_buf ← free (Rs.ok_or (read_exact std size.toNat) InvalidError)
    if Spec.utf8 str_buf then
      return str_buf
    else
      free (Rs.throw InvalidError)
  else
    free (back 2)
    free (Rs.throw InvalidError)

/-- One decoder call, with what it allocates (see `readItem`). -/
def readItem_counted (std : Std) : Req → Counted Spec.Item
  | .bytes => do return .bytes (← decode_bytes_counted std)
  | .string => do return .string (← decode_string_counted std)
  | .error => do return .error (← decode_error_counted std)
  | q => free (readItem std q)

/-! ## The record is only a record -/

variable {α β : Type}

theorem Counted.bind_fst (x : Counted α) (f : α → Counted β) (y : Dec α) (g : α → Dec β) (c : Cursor)
    (h1 : (x c).1 = y c) (h2 : ∀ a c', (f a c').1 = g a c') : ((x >>= f) c).1 = (y >>= g) c := by
  show (Counted.bind x f c).1 = Rs.bind y g c
  unfold Counted.bind Rs.bind
  rw [← h1]
  obtain ⟨⟨o, c'⟩, n⟩ := x c
  cases o with
  | ok a => exact h2 a c'
  | err e => rfl
  | panic => rfl

theorem Counted.vec_fst (n : Nat) (f : Unit → Counted β) (g : Dec β) (c : Cursor) (h : (f () c).1 = g c) : ((Counted.vec n >>= f) c).1 = g c := h

theorem decode_bytes_counts (std : Std) (c : Cursor) : (decode_bytes_counted std c).1 = decode_bytes std c := by
  unfold decode_bytes_counted decode_bytes
  refine Counted.bind_fst _ _ _ _ c rfl ?_
  intro kind c1
  split
  · refine Counted.bind_fst _ _ _ _ c1 rfl ?_
    intro size c2
    refine Counted.vec_fst _ _ _ c2 ?_
    rfl
  · exact Counted.bind_fst _ _ _ _ c1 rfl fun _ _ => rfl

theorem decode_string_counts (std : Std) (c : Cursor) : (decode_string_counted std c).1 = decode_string std c := by
  unfold decode_string_counted decode_string
  refine Counted.bind_fst _ _ _ _ c rfl ?_
  intro kind c1
  split
  · refine Counted.bind_fst _ _ _ _ c1 rfl ?_
    intro size c2
    refine Counted.vec_fst _ _ _ c2 ?_
    refine Counted.bind_fst _ _ _ _ c2 rfl ?_
    intro s c3
    split <;> rfl
  · exact Counted.bind_fst _ _ _ _ c1 rfl fun _ _ => rfl

theorem decode_error_counts (std : Std) (c : Cursor) : (decode_error_counted std c).1 = decode_error std c := by
  unfold decode_error_counted decode_error
  refine Counted.bind_fst _ _ _ _ c rfl ?_
  intro kind c0
  refine Counted.bind_fst _ _ _ _ c0 rfl ?_
  intro nested c1
  split
  · refine Counted.bind_fst _ _ _ _ c1 rfl ?_
    intro size c2
    refine Counted.vec_fst _ _ _ c2 ?_
    refine Counted.bind_fst _ _ _ _ c2 rfl ?_
    intro s c3
    split <;> rfl
  · exact Counted.bind_fst _ _ _ _ c1 rfl fun _ _ => rfl

theorem readItem_counts (std : Std) (q : Req) (c : Cursor) : (readItem_counted std q c).1 = readItem std q c := by
  cases q with
  | bytes => exact Counted.bind_fst _ _ _ _ c (decode_bytes_counts std c) fun _ _ => rfl
  | string => exact Counted.bind_fst _ _ _ _ c (decode_string_counts std c) fun _ _ => rfl
  | error => exact Counted.bind_fst _ _ _ _ c (decode_error_counts std c) fun _ _ => rfl
  | _ => rfl

/-! ## How much is allocated -/

/-- `m` allocates at most `N` bytes, and when it succeeds exactly as many as `len` says of its result. -/
def Alloc (len : α → Nat) (N : Nat) (r : (Out DecodingError α × Cursor) × Nat) : Prop :=
  r.2 ≤ N ∧ ∀ a c, r.1 = (.ok a, c) → r.2 = len a

theorem alloc_free (len : α → Nat) {N : Nat} (x : Dec α) (c : Cursor) (h : ∀ a c', x c = (.ok a, c') → len a = 0) : Alloc len N (free x c) :=
  ⟨Nat.zero_le _, fun a c' e => (h a c' e).symm⟩

theorem alloc_skip {len : β → Nat} {N : Nat} {x : Dec α} {f : α → Counted β} {c : Cursor} (h : ∀ a c', Alloc len N (f a c')) :
    Alloc len N ((free x >>= f) c) := by
  show Alloc len N (Counted.bind (free x) f c)
  unfold Counted.bind free
  rcases hx : x c with ⟨o, c'⟩
  cases o with
  | ok a =>
    obtain ⟨h1, h2⟩ := h a c'
    exact ⟨by simpa using h1, fun b c'' e => by simpa using h2 b c'' e⟩
  | err e => exact ⟨Nat.zero_le _, by intro a c e; cases e⟩
  | panic => exact ⟨Nat.zero_le _, by intro a c e; cases e⟩

theorem read_exact_length {std : Std} {n : Nat} {e : DecodingError} {c c' : Cursor} {bs : _root_.Bytes} (h : Rs.ok_or (read_exact std n) e c = (.ok bs, c')) :
    bs.length = n := by
  unfold Rs.ok_or read_exact at h
  split at h
  · rename_i a c'' heq
    split at heq
    · cases heq; cases h; rw [List.length_take]; omega
    · cases heq
  · cases h
  · cases h

/-- The three statements around the allocation. -/
theorem alloc_payload {std : Std} {e : DecodingError} {size : BitVec 32} {f : _root_.Bytes → Counted _root_.Bytes}
    (hf : ∀ bs, f bs = pure bs ∨ ∃ x, f bs = free (Rs.throw x)) (c : Cursor) :
    Alloc List.length (2 ^ 32 - 1) ((vec size.toNat >>= fun _ => free (Rs.ok_or (read_exact std size.toNat) e) >>= f) c) := by
  have hs := size.isLt
  show Alloc List.length (2 ^ 32 - 1) (Counted.bind (vec size.toNat) (fun _ => Counted.bind (free (Rs.ok_or (read_exact std size.toNat) e)) f) c)
  unfold Counted.bind vec free
  simp only
  rcases hx : Rs.ok_or (read_exact std size.toNat) e c with ⟨o, c'⟩
  cases o with
  | ok bs =>
    have := read_exact_length hx
    simp only
    rcases hf bs with h | ⟨x, h⟩
    · rw [h]
      refine ⟨?_, ?_⟩
      · show size.toNat + (0 + 0) ≤ _; omega
      · intro a c'' e; cases e; show size.toNat + (0 + 0) = _; omega
    · rw [h]
      refine ⟨?_, ?_⟩
      · show size.toNat + (0 + 0) ≤ _; omega
      · intro a c'' e; cases e
  | err e => exact ⟨by simp only; omega, by intro a c e; cases e⟩
  | panic => exact ⟨by simp only; omega, by intro a c e; cases e⟩

theorem decode_bytes_alloc (std : Std) (c : Cursor) : Alloc List.length (2 ^ 32 - 1) (decode_bytes_counted std c) := by
  unfold decode_bytes_counted
  apply alloc_skip
  intro kind c1
  split
  · apply alloc_skip
    intro size c2
    refine ⟨?_, ?_⟩
    · show size.toNat + 0 ≤ 2 ^ 32 - 1
      have := size.isLt
      omega
    · intro bs c3 e
      exact (read_exact_length (e := InvalidBytes) e).symm
  · apply alloc_skip
    intro _ c2
    exact alloc_free _ _ _ (by intro a c e; cases e)

theorem decode_string_alloc (std : Std) (c : Cursor) : Alloc List.length (2 ^ 32 - 1) (decode_string_counted std c) := by
  unfold decode_string_counted
  apply alloc_skip
  intro kind c1
  split
  · apply alloc_skip
    intro size c2
    refine alloc_payload ?_ c2
    intro bs
    split
    · exact .inl rfl
    · exact .inr ⟨_, rfl⟩
  · apply alloc_skip
    intro _ c2
    exact alloc_free _ _ _ (by intro a c e; cases e)

theorem decode_error_alloc (std : Std) (c : Cursor) : Alloc List.length (2 ^ 32 - 1) (decode_error_counted std c) := by
  unfold decode_error_counted
  apply alloc_skip
  intro kind c0
  apply alloc_skip
  intro kind c1
  split
  · apply alloc_skip
    intro size c2
    refine alloc_payload ?_ c2
    intro bs
    split
    · exact .inl rfl
    · exact .inr ⟨_, rfl⟩
  · apply alloc_skip
    intro _ c2
    exact alloc_free _ _ _ (by intro a c e; cases e)

end Rust
