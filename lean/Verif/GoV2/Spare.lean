import Verif.GoV2.Log

/-! # Buffers whose slice is shorter than its capacity (`NewBufferFromBytes(make([]byte, n, m))`) -/

namespace GoV2

open Spec

theorem Grow_noop (rt : Runtime) (b : Buffer) (n : Int) (h : n ≤ (b.cap : Int) - b.offset) :
    b.Grow rt n = .ok b := by
  unfold Buffer.Grow
  rw [if_neg (by omega)]; rfl

theorem pre_panic (x : Byte) (xs : Bytes) (k) (b : Buffer) (h : (b.len : Int) ≤ b.offset) :
    pre (x :: xs) k b b.offset = .panic := by
  simp only [pre, Buffer.store]
  rw [if_pos (Or.inr h)]; rfl

/-- Payload bytes of an item. -/
def payload : Item → Nat
  | .bytes v => v.length
  | .string v => v.length
  | .error m => m.length
  | _ => 0

/-- If the next write position is at or past `len` but inside `cap`, every encoder call panics. -/
theorem encodeItem_spare_panics (rt : Runtime) (b : Buffer) (i : Item)
    (hcap : b.offset + 11 + payload i ≤ b.cap) (hlen : (b.len : Int) ≤ b.offset) :
    encodeItem rt b i = .panic := by
  have key : ∀ (n : Int) (x : Byte) (xs : Bytes) (k), n ≤ 11 + payload i →
      (do let b ← b.Grow rt n; pre (x :: xs) k b b.offset) = Go.panic := by
    intro n x xs k hn
    rw [Grow_noop rt b n (by omega), Go.bind_ok, pre_panic _ _ _ _ hlen]
  cases i with
  | nil => rw [encodeItem, encodeNil_eq]; exact key _ _ _ _ (by decide)
  | map size k v => rw [encodeItem, encodeMap_eq]; exact key _ _ _ _ (by simp [mapSize, uint32Size, VarIntLen32, payload])
  | slice size k => rw [encodeItem, encodeSlice_eq]; exact key _ _ _ _ (by simp [sliceSize, uint32Size, VarIntLen32, payload])
  | bytes v =>
    rw [encodeItem, encodeBytes_eq]
    exact key _ _ _ _ (by simp [bytesSize, uint32Size, VarIntLen32, payload])
  | string v =>
    rw [encodeItem, encodeString_eq]
    exact key _ _ _ _ (by simp [stringSize, uint32Size, VarIntLen32, payload])
  | error v =>
    rw [encodeItem, encodeError, encodeErrorMessage_eq]
    exact key _ _ _ _ (by simp [errorSize, stringSize, uint32Size, VarIntLen32, payload])
  | bool v => rw [encodeItem, encodeBool_eq]; exact key _ _ _ _ (by simp [payload, boolSize])
  | uint8 v => rw [encodeItem, encodeUint8_eq]; exact key _ _ _ _ (by simp [payload, uint8Size])
  | uint16 v =>
    rw [encodeItem, encodeUint16_eq]; exact key _ _ _ _ (by simp [payload, uint16Size, VarIntLen16])
  | uint32 v =>
    rw [encodeItem, encodeUint32_eq]; exact key _ _ _ _ (by simp [payload, uint32Size, VarIntLen32])
  | uint64 v =>
    rw [encodeItem, encodeUint64_eq]; exact key _ _ _ _ (by simp [payload, uint64Size, VarIntLen64])
  | int32 v =>
    rw [encodeItem, encodeInt32_eq]; exact key _ _ _ _ (by simp [payload, uint32Size, VarIntLen32])
  | int64 v =>
    rw [encodeItem, encodeInt64_eq]; exact key _ _ _ _ (by simp [payload, uint64Size, VarIntLen64])
  | float32 v => rw [encodeItem, encodeFloat32_eq]; exact key _ _ _ _ (by simp [payload, float32Size])
  | float64 v => rw [encodeItem, encodeFloat64_eq]; exact key _ _ _ _ (by simp [payload, float64Size])

/-- If the header fits below `len` but the payload does not, `String` silently truncates. -/
theorem encodeString_spare_truncates (rt : Runtime) (b : Buffer) (o : Nat) (v : Bytes)
    (ho : b.offset = o) (hlen : b.len ≤ b.cap) (hv : v.length < 2 ^ 32)
    (hcap : o + 7 + v.length ≤ b.cap) (hhd : o + (kString :: size32 v.length).length ≤ b.len)
    (hshort : b.len ≤ o + (kString :: size32 v.length).length + v.length) :
    ∃ b', encodeString rt b v = .ok b' ∧ b'.Bytes =
      .ok (b.arr.take o ++ kString :: size32 v.length ++
        v.take (b.len - (o + (kString :: size32 v.length).length))) := by
  rw [encodeString_eq]
  have hs : stringSize + (v.length : Int) = ((7 + v.length : Nat) : Int) := by
    simp [stringSize, uint32Size, VarIntLen32]
  rw [hs, Grow_noop rt b _ (by rw [ho]; omega), Go.bind_ok, ho]
  have hl : ∀ b off, lad (fun b off => b.copyTail off v) (lastOk fun b off => b.copyTail off v) 5 b off
      (BitVec.ofNat 32 v.length) = pre (leb128 v.length) (fun b off => b.copyTail off v) b off := by
    intro b off
    rw [lad_ok (by decide) _ 5 b off _ (bv_lt_pow _ _ (by decide)), toNat_len32 hv]
  simp only [hl]
  rw [← pre_append]
  have hhd' : [StringRawKind, Uint32RawKind] ++ leb128 v.length = kString :: size32 v.length := rfl
  rw [hhd']
  generalize hh : kString :: size32 v.length = hd at *
  rw [pre_eq _ hd b o hlen (by rw [← hh]; simp), if_pos hhd]
  rw [copyTail_eq _ _ _ (by simpa using hhd)]
  refine ⟨_, rfl, ?_⟩
  simp only [Buffer.at_len, Buffer.at_arr]
  have hmin : min (b.len - (o + hd.length)) v.length = b.len - (o + hd.length) := by omega
  rw [hmin]
  have htl : (v.take (b.len - (o + hd.length))).length = b.len - (o + hd.length) := by
    rw [List.length_take]; omega
  have hcap' : b.arr.length = b.cap := rfl
  have hov := overwrite_overwrite (arr := b.arr) (i := o) (u := hd)
    (v := v.take (b.len - (o + hd.length))) (by omega)
  rw [hov]
  have hol : (overwrite b.arr o (hd ++ v.take (b.len - (o + hd.length)))).length = b.arr.length :=
    overwrite_length (by rw [List.length_append]; omega)
  have hnot : ¬ (((o + hd.length + (b.len - (o + hd.length)) : Nat) : Int) < 0 ∨
      (b.arr.length : Int) < ((o + hd.length + (b.len - (o + hd.length)) : Nat) : Int)) := by omega
  simp only [Buffer.Bytes, Buffer.cap, hol, hnot, if_false, Int.toNat_natCast]
  have := overwrite_take (arr := b.arr) (i := o) (v := hd ++ v.take (b.len - (o + hd.length)))
    (by rw [List.length_append]; omega)
  rw [List.length_append, htl, ← Nat.add_assoc] at this
  rw [this, List.append_assoc]

/-- `Write` does not need `len = cap`. -/
theorem Write_spare (rt : Runtime) (b : Buffer) (o : Nat) (v : Bytes) (ho : b.offset = o)
    (hcap : o + v.length ≤ b.cap) :
    ∃ b', b.Write rt v = .ok (b', v.length) ∧ b'.Bytes = .ok (b.arr.take o ++ v) := by
  simp only [Buffer.Write, Grow_noop rt b (v.length : Nat) (by rw [ho]; omega), Go.bind_ok, copyInto, ho]
  have h1 : ¬ ((o : Int) < 0 ∨ (b.cap : Int) < (o : Int)) := by omega
  have h2 : min (b.cap - o) v.length = v.length := by omega
  simp only [h1, if_false, Int.toNat_natCast, h2, List.take_length, Go.bind_ok, Go.pure_eq]
  refine ⟨_, rfl, ?_⟩
  have hc : b.arr.length = b.cap := rfl
  have hol := overwrite_length (arr := b.arr) (i := o) (v := v) (by omega)
  have hnot : ¬ ((o : Int) + (v.length : Int) < 0 ∨ (b.arr.length : Int) < (o : Int) + (v.length : Int)) := by
    omega
  simp only [Buffer.Bytes, Buffer.cap, hol, hnot, if_false]
  have e : ((o : Int) + (v.length : Int)).toNat = o + v.length := by omega
  rw [e, overwrite_take (by omega)]

end GoV2
