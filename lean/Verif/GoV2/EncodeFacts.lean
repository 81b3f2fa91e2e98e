import Verif.GoV2.Encode
import Verif.BitFacts

/-!
# Proof machinery for the v2 encoders

Every literal encoder of `Encode.lean` is shown equal to: grow, store the bytes of the wire header one
after the other (each store bounds-checked), then copy the payload.
-/

namespace GoV2

open Spec (leb128)

/-! ## The unrolled ladders are one generic ladder -/

/-- `n` levels of the unrolled varint ladder, continuation passing. -/
def lad {w : Nat} (k : Buffer → Int → Go Buffer) (last : Buffer → Int → BitVec w → Go Buffer) :
    Nat → Buffer → Int → BitVec w → Go Buffer
  | 0, b, off, v => last b off v
  | n + 1, b, off, v =>
    if v < continuation then do
      let b ← b.store off (v.setWidth 8)
      k b (off + 1)
    else do
      let b ← b.store off ((v &&& (continuation - 1)).setWidth 8 ||| continuation)
      lad k last n b (off + 1) (v >>> 7)

/-- The innermost level: one more byte. -/
def lastOk {w : Nat} (k : Buffer → Int → Go Buffer) (b : Buffer) (off : Int) (v : BitVec w) :
    Go Buffer := do
  let b ← b.store off (v.setWidth 8)
  k b (off + 1)

/-- The fifth level of `encodeBytes`, with the missing `offset++`. -/
def lastBytes (k : Buffer → Int → Go Buffer) (b : Buffer) (off : Int) (v : BitVec 32) :
    Go Buffer :=
  if v < continuation then do
    let b ← b.store off (v.setWidth 8)
    k b off
  else do
    let b ← b.store off ((v &&& (continuation - 1)).setWidth 8 ||| continuation)
    lastOk k b (off + 1) (v >>> 7)

/-- Final `b.offset = offset`. -/
def fin (b : Buffer) (off : Int) : Go Buffer := .ok { b with offset := off }

/-- A sequence of stores at consecutive offsets. -/
def pre : Bytes → (Buffer → Int → Go Buffer) → Buffer → Int → Go Buffer
  | [], k, b, off => k b off
  | x :: xs, k, b, off => do
    let b ← b.store off x
    pre xs k b (off + 1)

theorem encodeNil_eq (rt b) : encodeNil rt b = (do
    let b ← b.Grow rt nilSize
    pre [NilRawKind] fin b b.offset) := by
  simp only [encodeNil, pre, fin, Go.pure_eq]
  cases b.Grow rt nilSize with
  | panic => rfl
  | ok b =>
    simp only [Go.bind_ok, Buffer.store]
    split <;> rfl

theorem encodeMap_eq (rt b size k v) : encodeMap rt b size k v = (do
    let b ← b.Grow rt mapSize
    pre [MapRawKind, k, v, Uint32RawKind] (fun b off => lad fin (lastOk fin) 5 b off size)
      b b.offset) := by
  simp only [encodeMap, pre, lad, lastOk, fin, Go.pure_eq]

theorem encodeSlice_eq (rt b size k) : encodeSlice rt b size k = (do
    let b ← b.Grow rt sliceSize
    pre [SliceRawKind, k, Uint32RawKind] (fun b off => lad fin (lastOk fin) 5 b off size)
      b b.offset) := by
  simp only [encodeSlice, pre, lad, lastOk, fin, Go.pure_eq]

theorem encodeBytes_eq (rt b v) : encodeBytes rt b v = (do
    let b ← b.Grow rt (bytesSize + v.length)
    pre [BytesRawKind, Uint32RawKind] (fun b off =>
      lad (fun b off => b.copyTail off v) (lastBytes (fun b off => b.copyTail off v)) 4 b off
        (BitVec.ofNat 32 v.length)) b b.offset) := by
  simp only [encodeBytes, pre, lad, lastOk, lastBytes]

theorem encodeString_eq (rt b v) : encodeString rt b v = (do
    let b ← b.Grow rt (stringSize + v.length)
    pre [StringRawKind, Uint32RawKind] (fun b off =>
      lad (fun b off => b.copyTail off v) (lastOk (fun b off => b.copyTail off v)) 5 b off
        (BitVec.ofNat 32 v.length)) b b.offset) := by
  simp only [encodeString, pre, lad, lastOk]

theorem encodeErrorMessage_eq (rt b v) : encodeErrorMessage rt b v = (do
    let b ← b.Grow rt (errorSize + v.length)
    pre [ErrorRawKind, StringRawKind, Uint32RawKind] (fun b off =>
      lad (fun b off => b.copyTail off v) (lastOk (fun b off => b.copyTail off v)) 5 b off
        (BitVec.ofNat 32 v.length)) b b.offset) := by
  simp only [encodeErrorMessage, pre, lad, lastOk]

theorem encodeBool_eq (rt b v) : encodeBool rt b v = (do
    let b ← b.Grow rt boolSize
    pre [BoolRawKind, if v then trueBool else falseBool] fin b b.offset) := by
  cases v <;> simp only [encodeBool, pre, fin, Go.pure_eq, if_true, Bool.false_eq_true, if_false]

theorem encodeUint8_eq (rt b v) : encodeUint8 rt b v = (do
    let b ← b.Grow rt uint8Size
    pre [Uint8RawKind, v] fin b b.offset) := by
  simp only [encodeUint8, pre, fin, Go.pure_eq]

theorem encodeUint16_eq (rt b v) : encodeUint16 rt b v = (do
    let b ← b.Grow rt uint16Size
    pre [Uint16RawKind] (fun b off => lad fin (lastOk fin) 3 b off v) b b.offset) := by
  simp only [encodeUint16, pre, lad, lastOk, fin, Go.pure_eq]

theorem encodeUint32_eq (rt b v) : encodeUint32 rt b v = (do
    let b ← b.Grow rt uint32Size
    pre [Uint32RawKind] (fun b off => lad fin (lastOk fin) 5 b off v) b b.offset) := by
  simp only [encodeUint32, pre, lad, lastOk, fin, Go.pure_eq]

theorem encodeUint64_eq (rt b v) : encodeUint64 rt b v = (do
    let b ← b.Grow rt uint64Size
    pre [Uint64RawKind] (fun b off => lad fin (lastOk fin) 9 b off v) b b.offset) := by
  simp only [encodeUint64, pre, lad, lastOk, fin, Go.pure_eq]

theorem encodeInt32_eq (rt b v) : encodeInt32 rt b v = (do
    let b ← b.Grow rt uint32Size
    pre [Int32RawKind] (fun b off => lad fin (lastOk fin) 5 b off
      (if v.slt 0#32 then ~~~(v <<< 1) else v <<< 1)) b b.offset) := by
  by_cases h : v.slt 0#32 = true
  · simp only [encodeInt32, pre, lad, lastOk, fin, Go.pure_eq, h, if_true]
  · simp only [encodeInt32, pre, lad, lastOk, fin, Go.pure_eq, h, Bool.false_eq_true, if_false]

theorem encodeInt64_eq (rt b v) : encodeInt64 rt b v = (do
    let b ← b.Grow rt uint64Size
    pre [Int64RawKind] (fun b off => lad fin (lastOk fin) 9 b off
      (if v.slt 0#64 then ~~~(v <<< 1) else v <<< 1)) b b.offset) := by
  by_cases h : v.slt 0#64 = true
  · simp only [encodeInt64, pre, lad, lastOk, fin, Go.pure_eq, h, if_true]
  · simp only [encodeInt64, pre, lad, lastOk, fin, Go.pure_eq, h, Bool.false_eq_true, if_false]

theorem encodeFloat32_eq (rt b v) : encodeFloat32 rt b v = (do
    let b ← b.Grow rt float32Size
    pre (Float32RawKind :: [(v >>> 24).setWidth 8, (v >>> 16).setWidth 8, (v >>> 8).setWidth 8,
      v.setWidth 8]) fin b b.offset) := by
  simp only [encodeFloat32, pre, fin, Go.pure_eq]

theorem encodeFloat64_eq (rt b v) : encodeFloat64 rt b v = (do
    let b ← b.Grow rt float64Size
    pre (Float64RawKind :: [(v >>> 56).setWidth 8, (v >>> 48).setWidth 8, (v >>> 40).setWidth 8,
      (v >>> 32).setWidth 8, (v >>> 24).setWidth 8, (v >>> 16).setWidth 8, (v >>> 8).setWidth 8,
      v.setWidth 8]) fin b b.offset) := by
  simp only [encodeFloat64, pre, fin, Go.pure_eq]

/-! ## Ladders are plain store sequences -/

theorem pre_append (xs ys : Bytes) (k) (b : Buffer) (off : Int) :
    pre (xs ++ ys) k b off = pre xs (fun b off => pre ys k b off) b off := by
  induction xs generalizing b off with
  | nil => rfl
  | cons x xs ih => simp only [List.cons_append, pre, ih]

/-- While the value has at most `n` groups the innermost level is not reached. -/
theorem lad_lt {w : Nat} (hw : 8 ≤ w) (k last) : ∀ (n : Nat) (b : Buffer) (off : Int) (v : BitVec w),
    v.toNat < 128 ^ n → n ≠ 0 → lad k last n b off v = pre (leb128 v.toNat) k b off := by
  intro n
  induction n with
  | zero => intro b off v _ h; exact absurd rfl h
  | succ n ih =>
    intro b off v hv _
    simp only [lad, continuation, lt_0x80 hw]
    by_cases h : v.toNat < 128
    · simp only [h, if_true, Spec.leb128_small h, pre, setWidth8_small]
    · simp only [h, if_false, Spec.leb128_big h, pre]
      rw [contByte hw]
      have hn : n ≠ 0 := by
        intro hn; subst hn; simp at hv; omega
      have hd : v.toNat / 128 < 128 ^ n := by
        rw [Nat.div_lt_iff_lt_mul (by decide)]; rw [Nat.pow_succ] at hv; exact hv
      have := fun b => ih b (off + 1) (v >>> 7) (by rw [toNat_shr7]; exact hd) hn
      simp only [this, toNat_shr7]

/-- With a correct innermost level one more group is possible. -/
theorem lad_ok {w : Nat} (hw : 8 ≤ w) (k) : ∀ (n : Nat) (b : Buffer) (off : Int) (v : BitVec w),
    v.toNat < 128 ^ (n + 1) → lad k (lastOk k) n b off v = pre (leb128 v.toNat) k b off := by
  intro n
  induction n with
  | zero =>
    intro b off v hv
    have hv : v.toNat < 128 := by simpa using hv
    simp only [lad, lastOk, Spec.leb128_small hv, pre, setWidth8_small]
  | succ n ih =>
    intro b off v hv
    simp only [lad, continuation, lt_0x80 hw]
    by_cases h : v.toNat < 128
    · simp only [h, if_true, Spec.leb128_small h, pre, setWidth8_small]
    · simp only [h, if_false, Spec.leb128_big h, pre]
      rw [contByte hw]
      have hd : v.toNat / 128 < 128 ^ (n + 1) := by
        rw [Nat.div_lt_iff_lt_mul (by decide)]; rw [Nat.pow_succ] at hv; exact hv
      have := fun b => ih b (off + 1) (v >>> 7) (by rw [toNat_shr7]; exact hd)
      simp only [this, toNat_shr7]

/-! ## What a store sequence does -/

theorem overwrite_length {arr : Bytes} {i : Nat} {v : Bytes} (h : i + v.length ≤ arr.length) :
    (overwrite arr i v).length = arr.length := by
  simp [overwrite]; omega

theorem overwrite_nil (arr : Bytes) (i : Nat) : overwrite arr i [] = arr := by
  simp [overwrite]

theorem overwrite_take {arr : Bytes} {i : Nat} {v : Bytes} (h : i + v.length ≤ arr.length) :
    (overwrite arr i v).take (i + v.length) = arr.take i ++ v := by
  have : (List.take i arr ++ v).length = i + v.length := by simp; omega
  rw [overwrite, ← this, List.take_left']
  rfl

theorem overwrite_overwrite {arr : Bytes} {i : Nat} {u v : Bytes}
    (h : i + u.length + v.length ≤ arr.length) :
    overwrite (overwrite arr i u) (i + u.length) v = overwrite arr i (u ++ v) := by
  have hl : (List.take i arr ++ u).length = i + u.length := by simp; omega
  have h1 : (overwrite arr i u).take (i + u.length) = arr.take i ++ u := overwrite_take (by omega)
  have h2 : (overwrite arr i u).drop (i + u.length + v.length) = arr.drop (i + u.length + v.length) := by
    rw [← List.drop_drop, overwrite]
    rw [← hl, List.drop_left', List.drop_drop, hl]
    rfl
  rw [overwrite, h1, h2]
  simp only [overwrite, List.append_assoc, List.length_append]
  rw [Nat.add_assoc]

theorem set_overwrite (arr : Bytes) (i : Nat) (x : Byte) (h : i < arr.length) :
    arr.set i x = overwrite arr i [x] := by
  simp [overwrite, List.set_eq_take_append_cons_drop, h]

/-- The buffer with `bs` stored from index `o` on. -/
def Buffer.at_ (b : Buffer) (o : Nat) (bs : _root_.Bytes) : Buffer := { b with arr := overwrite b.arr o bs }

@[simp] theorem Buffer.at_len (b : Buffer) (o bs) : (b.at_ o bs).len = b.len := rfl
@[simp] theorem Buffer.at_offset (b : Buffer) (o bs) : (b.at_ o bs).offset = b.offset := rfl
@[simp] theorem Buffer.at_arr (b : Buffer) (o bs) : (b.at_ o bs).arr = overwrite b.arr o bs := rfl

/-- A store sequence succeeds exactly when it stays below `len`. -/
theorem pre_eq (k) : ∀ (bs : Bytes) (b : Buffer) (o : Nat), b.len ≤ b.arr.length → bs ≠ [] →
    pre bs k b (o : Int) =
      if o + bs.length ≤ b.len then k (b.at_ o bs) ((o + bs.length : Nat) : Int) else .panic := by
  intro bs
  induction bs with
  | nil => intro b o _ h; exact absurd rfl h
  | cons x xs ih =>
    intro b o hb _
    simp only [pre, Buffer.store]
    by_cases ho : o < b.len
    · have h1 : ¬ ((o : Int) < 0 ∨ (b.len : Int) ≤ o) := by omega
      simp only [h1, if_false, Go.bind_ok, Int.toNat_natCast]
      rw [set_overwrite _ _ _ (by omega)]
      by_cases hxs : xs = []
      · subst hxs
        have h2 : o + [x].length ≤ b.len := by simp; omega
        simp only [pre, h2, if_true]
        rfl
      · have hl := overwrite_length (arr := b.arr) (i := o) (v := [x]) (by simp; omega)
        have := ih (b.at_ o [x]) (o + 1) (by simp [hl, hb]) hxs
        have hcast : ((o : Int) + 1) = ((o + 1 : Nat) : Int) := by omega
        rw [hcast]
        change pre xs k (b.at_ o [x]) _ = _
        rw [this]
        simp only [Buffer.at_len, List.length_cons]
        have h3 : (o + 1 + xs.length ≤ b.len) = (o + (xs.length + 1) ≤ b.len) := by
          rw [Nat.add_assoc, Nat.add_comm 1]
        simp only [h3]
        split
        · rename_i hle
          congr 1
          · simp only [Buffer.at_, Buffer.mk.injEq, and_true]
            have := overwrite_overwrite (arr := b.arr) (i := o) (u := [x]) (v := xs)
              (by simp; omega)
            simpa using this
          · omega
        · rfl
    · have h1 : ((o : Int) < 0 ∨ (b.len : Int) ≤ o) := by omega
      simp only [h1, if_true, Go.bind_panic]
      have h2 : ¬ (o + (x :: xs).length ≤ b.len) := by simp; omega
      rw [if_neg h2]

/-- `copyTail` copies only what fits below `len`. -/
theorem copyTail_eq (b : Buffer) (o : Nat) (v : Bytes) (h : o ≤ b.len) :
    b.copyTail (o : Int) v =
      .ok { b with arr := overwrite b.arr o (v.take (min (b.len - o) v.length)),
                   offset := ((o + min (b.len - o) v.length : Nat) : Int) } := by
  have h1 : ¬ ((o : Int) < 0 ∨ (b.len : Int) < o) := by omega
  simp only [Buffer.copyTail, copyInto, h1, if_false, Go.bind_ok, Go.pure_eq, Int.toNat_natCast]
  rfl

/-! ## Usable buffers -/

/-- The buffers on which encoding works: the slice has no spare capacity and the offset is inside. -/
def Buffer.Usable (b : Buffer) : Prop :=
  b.len = b.arr.length ∧ 0 ≤ b.offset ∧ b.offset ≤ b.arr.length

instance (b : Buffer) : Decidable b.Usable := by unfold Buffer.Usable; infer_instance

/-- What has been written so far. -/
def Buffer.written (b : Buffer) : _root_.Bytes := b.arr.take b.offset.toNat

theorem Buffer.Usable.bytes {b : Buffer} (h : b.Usable) : b.Bytes = .ok b.written := by
  obtain ⟨_, h0, h1⟩ := h
  have : ¬ (b.offset < 0 ∨ (b.cap : Int) < b.offset) := by unfold Buffer.cap; omega
  simp [Buffer.Bytes, this, Buffer.written]

/-- Everything `Grow` guarantees. -/
structure Grown (b b' : Buffer) (n : Nat) : Prop where
  usable : b'.Usable
  offset : b'.offset = b.offset
  written : b'.written = b.written
  room : n ≤ b'.cap - b.offset.toNat
  mono : b.cap ≤ b'.cap
  same : n ≤ b.cap - b.offset.toNat → b' = b
  big : ¬ (n ≤ b.cap - b.offset.toNat) → b'.cap ≥ 2 * b.cap ∨ b'.cap ≥ b.cap + n

@[simp] theorem mk0_length (n : Nat) : (mk0 n).length = n := by simp [mk0]

theorem appendZeros_spec (rt : Runtime) (b : Buffer) (o k : Nat) (h : o ≤ b.cap) :
    ∃ arr', appendZeros rt b o k = .ok (arr', o + k) ∧ o + k ≤ arr'.length ∧
      arr'.take o = b.arr.take o := by
  have h1 : ¬ ((o : Int) < 0 ∨ (b.cap : Int) < o ∨ (k : Int) < 0) := by omega
  have hl : (b.arr.take o).length = o := by unfold Buffer.cap at h; simp; omega
  simp only [appendZeros, h1, if_false, Int.toNat_natCast]
  split
  · rename_i hle
    refine ⟨_, rfl, ?_, ?_⟩
    · simp; unfold Buffer.cap at *; omega
    · rw [List.append_assoc]
      exact List.take_left' hl
  · refine ⟨_, rfl, ?_, ?_⟩
    · simp; unfold Buffer.cap at *; omega
    · rw [List.append_assoc]
      exact List.take_left' hl

theorem Grow_spec (rt : Runtime) (b : Buffer) (n : Nat) (h : b.Usable) :
    ∃ b', b.Grow rt n = .ok b' ∧ Grown b b' n := by
  obtain ⟨hlen, h0, h1⟩ := h
  obtain ⟨o, ho⟩ : ∃ o : Nat, b.offset = o := ⟨b.offset.toNat, by omega⟩
  have hoc : o ≤ b.cap := by unfold Buffer.cap; omega
  have key : ∀ (k : Nat), o + k ≥ 2 * b.cap ∨ o + k ≥ b.cap + n →
      n ≤ o + k - o → b.cap ≤ o + k → ¬ (n ≤ b.cap - o) →
      ∃ b', (do
        let (arr, _) ← appendZeros rt b o k
        return { b with arr := arr, len := arr.length } : Go Buffer) = .ok b' ∧ Grown b b' n := by
    intro k hbig hroom hmono hneed
    obtain ⟨arr', he, hl, ht⟩ := appendZeros_spec rt b o k hoc
    rw [he]
    refine ⟨_, rfl, ⟨?_, rfl, ?_, ?_, ?_, ?_, ?_⟩⟩
    · refine ⟨rfl, h0, ?_⟩
      simp only [ho]; omega
    · simp only [Buffer.written, ho, Int.toNat_natCast]; exact ht
    · simp only [ho, Int.toNat_natCast, Buffer.cap]; omega
    · show b.cap ≤ arr'.length
      omega
    · intro hc; rw [ho, Int.toNat_natCast] at hc; exact absurd hc hneed
    · intro _
      show arr'.length ≥ _ ∨ arr'.length ≥ _
      omega
  unfold Buffer.Grow
  split
  · rename_i hlt
    rw [ho] at hlt
    split
    · rename_i hc
      obtain ⟨b', hb'⟩ := key (n + b.cap - o) (by omega) (by omega) (by omega) (by omega)
      refine ⟨b', ?_⟩
      rw [ho]
      have : (n : Int) + b.cap - o = ((n + b.cap - o : Nat) : Int) := by omega
      rw [this]; rw [ho] at hb'; exact hb'
    · rename_i hc
      obtain ⟨b', hb'⟩ := key (b.cap * 2 - o) (by omega) (by omega) (by omega) (by omega)
      refine ⟨b', ?_⟩
      rw [ho]
      have : (b.cap : Int) * 2 - o = ((b.cap * 2 - o : Nat) : Int) := by omega
      rw [this]; rw [ho] at hb'; exact hb'
  · rename_i hge
    refine ⟨b, rfl, ⟨⟨hlen, h0, h1⟩, rfl, rfl, ?_, Nat.le_refl _, fun _ => rfl, ?_⟩⟩
    · rw [ho] at *; simp only [Int.toNat_natCast]; omega
    · intro hc; rw [ho] at *; simp only [Int.toNat_natCast] at hc; omega

/-! ## Appending -/

/-- `b'` is `b` with `bs` appended. -/
structure Appended (b b' : Buffer) (bs : Bytes) : Prop where
  usable : b'.Usable
  written : b'.written = b.written ++ bs
  offset : b'.offset = b.offset + bs.length
  mono : b.cap ≤ b'.cap

theorem put_appended {b b' b'' : Buffer} {n : Nat} (bs : Bytes) (g : Grown b b' n) (hn : bs.length ≤ n)
    (ha : b''.arr = overwrite b'.arr b.offset.toNat bs) (hl : b''.len = b'.len)
    (ho : b''.offset = ((b.offset.toNat + bs.length : Nat) : Int)) : Appended b b'' bs := by
  obtain ⟨⟨hlen, h0, h1⟩, hoff, hwr, hroom, hmono, _, _⟩ := g
  rw [hoff] at h0 h1
  have hfit : b.offset.toNat + bs.length ≤ b'.arr.length := by unfold Buffer.cap at *; omega
  have hl' := overwrite_length hfit
  refine ⟨⟨?_, ?_, ?_⟩, ?_, ?_, ?_⟩
  · rw [ha, hl, hl', hlen]
  · rw [ho]; omega
  · rw [ho, ha, hl']; omega
  · rw [Buffer.written, ho, ha, Int.toNat_natCast, overwrite_take hfit]
    rw [Buffer.written, hoff] at hwr
    rw [hwr]
  · rw [ho]; omega
  · unfold Buffer.cap at *; rw [ha, hl']; exact hmono

/-- Grow, store `bs`, set the offset. -/
theorem emit_spec (rt : Runtime) (b : Buffer) (n : Nat) (bs : Bytes) (h : b.Usable)
    (hn : bs.length ≤ n) (hne : bs ≠ []) :
    ∃ b', (do let b ← b.Grow rt n; pre bs fin b b.offset) = .ok b' ∧ Appended b b' bs := by
  obtain ⟨b1, hg, g⟩ := Grow_spec rt b n h
  rw [hg, Go.bind_ok]
  have h0 : b1.offset = (b.offset.toNat : Int) := by rw [g.offset]; have := h.2.1; omega
  rw [h0, pre_eq fin bs b1 _ (Nat.le_of_eq g.usable.1) hne]
  have hfit : b.offset.toNat + bs.length ≤ b1.len := by
    have := g.room; have := g.usable.1; have := g.usable.2.2; unfold Buffer.cap at *; omega
  rw [if_pos hfit]
  exact ⟨_, rfl, put_appended bs g hn rfl rfl rfl⟩

/-- Grow, store the header, copy the payload. -/
theorem emitPayload_spec (rt : Runtime) (b : Buffer) (n : Nat) (hd v : Bytes) (h : b.Usable)
    (hn : hd.length + v.length ≤ n) (hne : hd ≠ []) :
    ∃ b', (do let b ← b.Grow rt n; pre hd (fun b off => b.copyTail off v) b b.offset) = .ok b' ∧
      Appended b b' (hd ++ v) := by
  obtain ⟨b1, hg, g⟩ := Grow_spec rt b n h
  rw [hg, Go.bind_ok]
  have h0 : b1.offset = (b.offset.toNat : Int) := by rw [g.offset]; have := h.2.1; omega
  rw [h0, pre_eq _ hd b1 _ (Nat.le_of_eq g.usable.1) hne]
  have hfit : b.offset.toNat + hd.length + v.length ≤ b1.len := by
    have := g.room; have := g.usable.1; have := g.usable.2.2; unfold Buffer.cap at *; omega
  rw [if_pos (by omega)]
  have hc := copyTail_eq (b1.at_ b.offset.toNat hd) (b.offset.toNat + hd.length) v
    (by simp only [Buffer.at_len]; omega)
  have hmin : min ((b1.at_ b.offset.toNat hd).len - (b.offset.toNat + hd.length)) v.length = v.length := by
    simp only [Buffer.at_len]; omega
  rw [hmin, List.take_length] at hc
  refine ⟨_, hc, put_appended (hd ++ v) g (by simpa using hn) ?_ rfl ?_⟩
  · exact overwrite_overwrite (by have := g.usable.1; omega)
  · simp [Nat.add_assoc]

end GoV2
