import Verif.GoV2.Decode
import Verif.BitFacts

/-!
# Proof machinery for the v2 decoders

Every unrolled varint reader is shown equal to one generic ladder, which is then characterised exactly
by the specification's `readVarint`.
-/

namespace GoV2

open Spec

/-- `n` levels of the unrolled varint reader starting at index `i` with shift `s`. -/
def decLad {w : Nat} {R : Type} (b : Bytes) (fin : BitVec w → Nat → Go R) (err : Go R) :
    (n i s : Nat) → BitVec w → Go R
  | 0, _, _, _ => err
  | n + 1, i, s, x => do
    let c ← b.at i
    if c.setWidth w < (continuation : BitVec w) then fin (x ||| (c.setWidth w <<< s)) (i + 1)
    else decLad b fin err n (i + 1) (s + 7) (x ||| ((c.setWidth w &&& (continuation - 1)) <<< s))

theorem Bytes.at_eq (b : Bytes) (i : Nat) :
    b.at i = match b.drop i with | c :: _ => .ok c | [] => .panic := by
  unfold _root_.Bytes.at
  by_cases h : i < b.length
  · rw [List.getElem?_eq_getElem h, List.drop_eq_getElem_cons h]
  · rw [List.getElem?_eq_none (by omega), List.drop_eq_nil_of_le (by omega)]

theorem decLad_spec {w : Nat} {R : Type} (hw : 8 ≤ w) (b : Bytes) (fin : BitVec w → Nat → Go R)
    (err : Go R) : ∀ (n i s acc : Nat), acc < 2 ^ s →
    decLad b fin err n i s (BitVec.ofNat w acc) =
      match readVarint n (b.drop i) with
      | .done v rest => fin (BitVec.ofNat w (acc + v * 2 ^ s)) (b.length - rest.length)
      | .truncated => .panic
      | .tooLong => err := by
  intro n
  induction n with
  | zero => intro i s acc _; rfl
  | succ n ih =>
    intro i s acc hacc
    simp only [decLad, Bytes.at_eq]
    cases hd : b.drop i with
    | nil => rfl
    | cons c bs =>
      have hbs : b.drop (i + 1) = bs := by
        rw [← List.drop_drop, hd]; rfl
      have hlen : b.length = i + (bs.length + 1) := by
        have := congrArg List.length hd
        simp at this; omega
      simp only [Go.bind_ok, continuation, setWidth_lt_0x80 hw, readVarint]
      by_cases hc : c.toNat < 128
      · simp only [hc, if_true]
        rw [setWidth_ofNat8 hw, acc_or _ _ _ _ hacc]
        congr 1; omega
      · simp only [hc, if_false]
        rw [setWidth_and_0x7f hw, acc_or _ _ _ _ hacc, ih, hbs]
        · cases readVarint n bs with
          | done v rest =>
            simp only
            congr 2
            rw [Nat.pow_add, Nat.add_mul, Nat.add_assoc, Nat.mul_comm (2 ^ s), Nat.mul_right_comm,
              Nat.mul_assoc, Nat.mul_comm v]
            simp [Nat.mul_assoc, Nat.mul_comm]
          | truncated => rfl
          | tooLong => rfl
        · have : c.toNat % 128 < 128 := Nat.mod_lt _ (by decide)
          calc acc + c.toNat % 128 * 2 ^ s < 2 ^ s + c.toNat % 128 * 2 ^ s := by omega
            _ = (c.toNat % 128 + 1) * 2 ^ s := by rw [Nat.add_mul]; omega
            _ ≤ 128 * 2 ^ s := Nat.mul_le_mul_right _ (by omega)
            _ = 2 ^ (s + 7) := by rw [Nat.pow_add]; omega

/-- `return b[off:], x, nil`. -/
def finU {w : Nat} (b : Bytes) (x : BitVec w) (off : Nat) : Go (Bytes × BitVec w × Option Err) := do
  return (← b.sliceFrom off, x, none)

/-- Undo the zig-zag and return. -/
def finI {w : Nat} (b : Bytes) (x : BitVec w) (off : Nat) : Go (Bytes × BitVec w × Option Err) := do
  return (← b.sliceFrom off, if x &&& 1 ≠ 0 then -((x >>> 1) + 1) else x >>> 1, none)

theorem decodeUint16_eq (b : Bytes) : decodeUint16 b =
    if 1 < b.length then
      if b.head? = some Uint16RawKind then
        decLad b (finU b) (.ok (b, 0, some .InvalidUint16)) 3 1 0 0#16
      else .ok (b, 0, some .InvalidUint16)
    else .ok (b, 0, some .InvalidUint16) := by
  cases b with
  | nil => rfl
  | cons c bs =>
    simp only [decodeUint16, decLad, finU, BitVec.zero_or, BitVec.shiftLeft_zero, Go.pure_eq,
      Nat.reduceAdd, List.head?_cons, Option.some.injEq, gt_iff_lt]
    rfl

theorem decodeUint32_eq (b : Bytes) : decodeUint32 b =
    if 1 < b.length then
      if b.head? = some Uint32RawKind then
        decLad b (finU b) (.ok (b, 0, some .InvalidUint32)) 5 1 0 0#32
      else .ok (b, 0, some .InvalidUint32)
    else .ok (b, 0, some .InvalidUint32) := by
  cases b with
  | nil => rfl
  | cons c bs =>
    simp only [decodeUint32, decLad, finU, BitVec.zero_or, BitVec.shiftLeft_zero, Go.pure_eq,
      Nat.reduceAdd, List.head?_cons, Option.some.injEq, gt_iff_lt]
    rfl

theorem decodeUint64_eq (b : Bytes) : decodeUint64 b =
    if 1 < b.length then
      if b.head? = some Uint64RawKind then
        decLad b (finU b) (.ok (b, 0, some .InvalidUint64)) 10 1 0 0#64
      else .ok (b, 0, some .InvalidUint64)
    else .ok (b, 0, some .InvalidUint64) := by
  cases b with
  | nil => rfl
  | cons c bs =>
    simp only [decodeUint64, decLad, finU, BitVec.zero_or, BitVec.shiftLeft_zero, Go.pure_eq,
      Nat.reduceAdd, List.head?_cons, Option.some.injEq, gt_iff_lt]
    rfl

theorem finI_eq {w : Nat} (b : Bytes) (x : BitVec w) (off : Nat) : finI b x off =
    if x &&& 1 ≠ 0 then (do return (← b.sliceFrom off, -((x >>> 1) + 1), none))
    else (do return (← b.sliceFrom off, x >>> 1, none)) := by
  unfold finI; split <;> rfl

theorem decodeInt32_eq (b : Bytes) : decodeInt32 b =
    if 1 < b.length then
      if b.head? = some Int32RawKind then
        decLad b (finI b) (.ok (b, 0, some .InvalidInt32)) 5 1 0 0#32
      else .ok (b, 0, some .InvalidInt32)
    else .ok (b, 0, some .InvalidInt32) := by
  cases b with
  | nil => rfl
  | cons c bs =>
    simp only [decodeInt32, decLad, finI_eq, BitVec.zero_or, BitVec.shiftLeft_zero, Go.pure_eq,
      Nat.reduceAdd, List.head?_cons, Option.some.injEq, gt_iff_lt]
    rfl

theorem decodeInt64_eq (b : Bytes) : decodeInt64 b =
    if 1 < b.length then
      if b.head? = some Int64RawKind then
        decLad b (finI b) (.ok (b, 0, some .InvalidInt64)) 10 1 0 0#64
      else .ok (b, 0, some .InvalidInt64)
    else .ok (b, 0, some .InvalidInt64) := by
  cases b with
  | nil => rfl
  | cons c bs =>
    simp only [decodeInt64, decLad, finI_eq, BitVec.zero_or, BitVec.shiftLeft_zero, Go.pure_eq,
      Nat.reduceAdd, List.head?_cons, Option.some.injEq, gt_iff_lt]
    rfl

/-! ## Exact characterisation of the integer readers -/

theorem sliceFrom_suffix {b p rest : Bytes} (h : b = p ++ rest) :
    b.sliceFrom (b.length - rest.length) = .ok rest := by
  subst h
  simp [Bytes.sliceFrom]

theorem sliceFrom_drop {b rest : Bytes} {i n v : Nat} (h : readVarint n (b.drop i) = .done v rest) :
    b.sliceFrom (b.length - rest.length) = .ok rest := by
  obtain ⟨p, hp, _, _⟩ := readVarint_done_suffix _ _ _ _ h
  apply sliceFrom_suffix (p := b.take i ++ p)
  rw [List.append_assoc, ← hp, List.take_append_drop]

theorem decLadU_spec {w : Nat} (hw : 8 ≤ w) (b : Bytes) (err n : _) :
    decLad b (finU (w := w) b) err n 1 0 0#w =
      match readVarint n b.tail with
      | .done v rest => .ok (rest, BitVec.ofNat w v, none)
      | .truncated => .panic
      | .tooLong => err := by
  have := decLad_spec hw b (finU b) err n 1 0 0 (by decide)
  rw [this, List.drop_one]
  cases h : readVarint n b.tail with
  | done v rest =>
    simp only [finU]
    rw [sliceFrom_drop (i := 1) (by rw [List.drop_one]; exact h)]
    simp
  | truncated => rfl
  | tooLong => rfl

/-- The arithmetic that undoes the zig-zag mapping. -/
theorem unzigzag_bits {w : Nat} (x : BitVec (w + 1)) :
    (if x &&& 1 ≠ 0 then -((x >>> 1) + 1) else x >>> 1) = BitVec.ofInt (w + 1) (unzigzag x.toNat) := by
  have hone : (1 : BitVec (w + 1)).toNat = 1 := by
    change (BitVec.ofNat (w + 1) 1).toNat = 1
    rw [BitVec.toNat_ofNat]; exact Nat.mod_eq_of_lt (Nat.one_lt_two_pow (by omega))
  have hand : (x &&& 1 ≠ 0) ↔ x.toNat % 2 = 1 := by
    rw [← BitVec.toNat_ne_iff_ne, BitVec.toNat_and, hone, Nat.and_one_is_mod]
    simp
  have hsh : x >>> 1 = BitVec.ofInt (w + 1) ((x.toNat / 2 : Nat) : Int) := by
    apply BitVec.eq_of_toNat_eq
    rw [BitVec.toNat_ushiftRight, Nat.shiftRight_eq_div_pow, BitVec.ofInt_natCast, BitVec.toNat_ofNat]
    rw [Nat.mod_eq_of_lt]
    have := x.isLt; omega
  have h1 : (1 : BitVec (w + 1)) = BitVec.ofInt (w + 1) 1 := rfl
  by_cases h : x.toNat % 2 = 1
  · rw [if_pos (hand.mpr h), hsh, h1, ← BitVec.ofInt_add, ← BitVec.ofInt_neg]
    congr 1
    unfold unzigzag; rw [if_neg (by omega)]; omega
  · rw [if_neg (fun c => h (hand.mp c)), hsh]
    congr 1
    unfold unzigzag; rw [if_pos (by omega)]

theorem decLadI_spec {w : Nat} (hw : 8 ≤ w + 1) (b : Bytes) (err n : _) :
    decLad b (finI (w := w + 1) b) err n 1 0 0#(w + 1) =
      match readVarint n b.tail with
      | .done v rest => .ok (rest, BitVec.ofInt (w + 1) (unzigzag (v % 2 ^ (w + 1))), none)
      | .truncated => .panic
      | .tooLong => err := by
  have := decLad_spec hw b (finI b) err n 1 0 0 (by decide)
  rw [this, List.drop_one]
  cases h : readVarint n b.tail with
  | done v rest =>
    simp only [finI]
    rw [sliceFrom_drop (i := 1) (by rw [List.drop_one]; exact h)]
    simp only [Go.bind_ok, Go.pure_eq, Nat.zero_add, Nat.pow_zero, Nat.mul_one]
    rw [unzigzag_bits, BitVec.toNat_ofNat]
  | truncated => rfl
  | tooLong => rfl

/-- `b` is longer than one byte and starts with this kind byte. -/
def Tagged (k : Byte) (b : Bytes) : Prop := 1 < b.length ∧ b.head? = some k

instance (k b) : Decidable (Tagged k b) := by unfold Tagged; infer_instance

theorem ite_tagged {R : Type} (k : Byte) (b : Bytes) (x y : R) :
    (if 1 < b.length then if b.head? = some k then x else y else y) = if Tagged k b then x else y := by
  unfold Tagged; by_cases h1 : 1 < b.length <;> by_cases h2 : b.head? = some k <;> simp [h1, h2]

theorem decodeUint16_spec (b : Bytes) : decodeUint16 b =
    if Tagged kUint16 b then
      match readVarint 3 b.tail with
      | .done v rest => .ok (rest, BitVec.ofNat 16 v, none)
      | .truncated => .panic
      | .tooLong => .ok (b, 0, some .InvalidUint16)
    else .ok (b, 0, some .InvalidUint16) := by
  rw [decodeUint16_eq, ite_tagged, decLadU_spec (by decide)]; rfl

theorem decodeUint32_spec (b : Bytes) : decodeUint32 b =
    if Tagged kUint32 b then
      match readVarint 5 b.tail with
      | .done v rest => .ok (rest, BitVec.ofNat 32 v, none)
      | .truncated => .panic
      | .tooLong => .ok (b, 0, some .InvalidUint32)
    else .ok (b, 0, some .InvalidUint32) := by
  rw [decodeUint32_eq, ite_tagged, decLadU_spec (by decide)]; rfl

theorem decodeUint64_spec (b : Bytes) : decodeUint64 b =
    if Tagged kUint64 b then
      match readVarint 10 b.tail with
      | .done v rest => .ok (rest, BitVec.ofNat 64 v, none)
      | .truncated => .panic
      | .tooLong => .ok (b, 0, some .InvalidUint64)
    else .ok (b, 0, some .InvalidUint64) := by
  rw [decodeUint64_eq, ite_tagged, decLadU_spec (by decide)]; rfl

theorem decodeInt32_spec (b : Bytes) : decodeInt32 b =
    if Tagged kInt32 b then
      match readVarint 5 b.tail with
      | .done v rest => .ok (rest, BitVec.ofInt 32 (unzigzag (v % 2 ^ 32)), none)
      | .truncated => .panic
      | .tooLong => .ok (b, 0, some .InvalidInt32)
    else .ok (b, 0, some .InvalidInt32) := by
  rw [decodeInt32_eq, ite_tagged, decLadI_spec (by decide)]; rfl

theorem decodeInt64_spec (b : Bytes) : decodeInt64 b =
    if Tagged kInt64 b then
      match readVarint 10 b.tail with
      | .done v rest => .ok (rest, BitVec.ofInt 64 (unzigzag (v % 2 ^ 64)), none)
      | .truncated => .panic
      | .tooLong => .ok (b, 0, some .InvalidInt64)
    else .ok (b, 0, some .InvalidInt64) := by
  rw [decodeInt64_eq, ite_tagged, decLadI_spec (by decide)]; rfl

/-! ## The other readers -/

theorem decodeNil_spec (b : Bytes) : decodeNil b =
    match b with
    | c :: rest => if c = kNil then .ok (rest, true) else .ok (b, false)
    | [] => .ok (b, false) := by
  cases b with
  | nil => rfl
  | cons c rest =>
    simp only [decodeNil, _root_.Bytes.at, _root_.Bytes.sliceFrom, NilRawKind, kNil]
    by_cases h : c = 0#8 <;> simp [h]

theorem decodeMap_spec (b : Bytes) (k v : Kind) : decodeMap b k v =
    match b with
    | m :: k' :: v' :: c :: r =>
      if m = kMap ∧ k' = k ∧ v' = v then
        (do let (r, size, err) ← decodeUint32 (c :: r)
            if err ≠ none then return (r, 0, some .InvalidMap)
            return (r, size, none))
      else .ok (b, 0, some .InvalidMap)
    | _ => .ok (b, 0, some .InvalidMap) := by
  match b with
  | [] => rfl
  | [_] => rfl
  | [_, _] => rfl
  | [_, _, _] => rfl
  | m :: k' :: v' :: c :: r =>
    simp only [decodeMap, _root_.Bytes.at, _root_.Bytes.sliceFrom, MapRawKind, kMap]
    by_cases h1 : m = 2#8 <;> by_cases h2 : k' = k <;> by_cases h3 : v' = v <;> simp [h1, h2, h3]

theorem decodeSlice_spec (b : Bytes) (k : Kind) : decodeSlice b k =
    match b with
    | m :: k' :: c :: r =>
      if m = kSlice ∧ k' = k then
        (do let (r, size, err) ← decodeUint32 (c :: r)
            if err ≠ none then return (r, 0, some .InvalidSlice)
            return (r, size, none))
      else .ok (b, 0, some .InvalidSlice)
    | _ => .ok (b, 0, some .InvalidSlice) := by
  match b with
  | [] => rfl
  | [_] => rfl
  | [_, _] => rfl
  | m :: k' :: c :: r =>
    simp only [decodeSlice, _root_.Bytes.at, _root_.Bytes.sliceFrom, SliceRawKind, kSlice]
    by_cases h1 : m = 1#8 <;> by_cases h2 : k' = k <;> simp [h1, h2]

theorem decodeString_spec (b : Bytes) : decodeString b =
    if Tagged kString b then
      (do let (r, size, err) ← decodeUint32 b.tail
          if err ≠ none then return (r, [], some .InvalidString)
          if size.toNat ≤ r.length then return (r.drop size.toNat, r.take size.toNat, none)
          return (r, [], some .InvalidString))
    else .ok (b, [], some .InvalidString) := by
  match b with
  | [] => rfl
  | [_] => rfl
  | m :: c :: r =>
    simp only [decodeString, _root_.Bytes.at, Tagged, StringRawKind, kString]
    by_cases h1 : m = 5#8
    · have hs : _root_.Bytes.sliceFrom (m :: c :: r) 1 = .ok (c :: r) := by
        simp [_root_.Bytes.sliceFrom]
      simp only [hs]
      simp [h1]
      congr 1
      funext x
      obtain ⟨r', size, err⟩ := x
      simp only
      by_cases he : err = none
      · simp only [he, if_true]
        by_cases hl : size.toNat ≤ r'.length
        · have : (size.toNat : Int) - 1 < r'.length := by omega
          simp [this, hl, _root_.Bytes.sliceFrom, _root_.Bytes.slice]
        · have : ¬ ((size.toNat : Int) - 1 < r'.length) := by omega
          simp [this, hl]
      · simp [he]
    · simp [h1]

theorem decodeError_spec (b : Bytes) : decodeError b =
    if Tagged kError b then
      (do let (r, val, err) ← decodeString b.tail
          if err ≠ none then return (r, none, some .InvalidError)
          return (r, some val, none))
    else .ok (b, none, some .InvalidError) := by
  match b with
  | [] => rfl
  | [_] => rfl
  | m :: c :: r =>
    simp only [decodeError, _root_.Bytes.at, Tagged, ErrorRawKind, kError, _root_.Bytes.sliceFrom]
    by_cases h1 : m = 6#8 <;> simp [h1]

theorem decodeBool_spec (b : Bytes) : decodeBool b =
    match b with
    | m :: c :: r =>
      if m = kBool ∧ c = 1 then .ok (r, true, none)
      else if m = kBool ∧ c = 0 then .ok (r, false, none)
      else .ok (b, false, some .InvalidBool)
    | _ => .ok (b, false, some .InvalidBool) := by
  match b with
  | [] => rfl
  | [_] => rfl
  | m :: c :: r =>
    simp only [decodeBool, _root_.Bytes.at, BoolRawKind, kBool, _root_.Bytes.sliceFrom, trueBool,
      falseBool]
    by_cases h1 : m = 7#8 <;> by_cases h2 : c = 1#8 <;> by_cases h3 : c = 0#8 <;> simp [h1, h2, h3]

theorem decodeUint8_spec (b : Bytes) : decodeUint8 b =
    match b with
    | m :: c :: r => if m = kUint8 then .ok (r, c, none) else .ok (b, 0, some .InvalidUint8)
    | _ => .ok (b, 0, some .InvalidUint8) := by
  match b with
  | [] => rfl
  | [_] => rfl
  | m :: c :: r =>
    simp only [decodeUint8, _root_.Bytes.at, Uint8RawKind, kUint8, _root_.Bytes.sliceFrom]
    by_cases h1 : m = 8#8 <;> simp [h1]

theorem decodeFloat32_spec (b : Bytes) : decodeFloat32 b =
    if 4 < b.length ∧ b.head? = some kFloat32 then
      .ok (b.drop 5, BitVec.ofNat 32 (fromBigEndian ((b.drop 1).take 4)), none)
    else .ok (b, 0, some .InvalidFloat32) := by
  match b with
  | [] => rfl
  | [_] => rfl
  | [_, _] => rfl
  | [_, _, _] => rfl
  | [_, _, _, _] => rfl
  | m :: c1 :: c2 :: c3 :: c4 :: r =>
    have hl : 4 < (m :: c1 :: c2 :: c3 :: c4 :: r : List Byte).length := by simp
    simp only [decodeFloat32, _root_.Bytes.at, Float32RawKind, kFloat32, _root_.Bytes.sliceFrom]
    by_cases h1 : m = 14#8
    · simp [h1]
      simp only [fromBigEndian, List.foldl, setWidth_ofNat8 (w := 32) (by decide)]
      rw [acc_or 32 _ _ 8 (by have := c4.isLt; omega)]
      rw [acc_or 32 _ _ 16 (by have := c4.isLt; have := c3.isLt; omega)]
      rw [acc_or 32 _ _ 24 (by have := c4.isLt; have := c3.isLt; have := c2.isLt; omega)]
      congr 1; omega
    · simp [h1]

theorem decodeFloat64_spec (b : Bytes) : decodeFloat64 b =
    if 8 < b.length ∧ b.head? = some kFloat64 then
      .ok (b.drop 9, BitVec.ofNat 64 (fromBigEndian ((b.drop 1).take 8)), none)
    else .ok (b, 0, some .InvalidFloat64) := by
  match b with
  | [] => rfl
  | [_] => rfl
  | [_, _] => rfl
  | [_, _, _] => rfl
  | [_, _, _, _] => rfl
  | [_, _, _, _, _] => rfl
  | [_, _, _, _, _, _] => rfl
  | [_, _, _, _, _, _, _] => rfl
  | [_, _, _, _, _, _, _, _] => rfl
  | m :: c1 :: c2 :: c3 :: c4 :: c5 :: c6 :: c7 :: c8 :: r =>
    have hl : 8 < (m :: c1 :: c2 :: c3 :: c4 :: c5 :: c6 :: c7 :: c8 :: r : List Byte).length := by simp
    simp only [decodeFloat64, _root_.Bytes.at, Float64RawKind, kFloat64, _root_.Bytes.sliceFrom]
    by_cases h1 : m = 15#8
    · simp [h1]
      simp only [fromBigEndian, List.foldl, setWidth_ofNat8 (w := 64) (by decide)]
      rw [acc_or 64 _ _ 8 (by have := c8.isLt; omega)]
      rw [acc_or 64 _ _ 16 (by have := c8.isLt; have := c7.isLt; omega)]
      rw [acc_or 64 _ _ 24 (by have := c8.isLt; have := c7.isLt; have := c6.isLt; omega)]
      rw [acc_or 64 _ _ 32 (by have := c8.isLt; have := c7.isLt; have := c6.isLt; have := c5.isLt; omega)]
      rw [acc_or 64 _ _ 40 (by have := c8.isLt; have := c7.isLt; have := c6.isLt; have := c5.isLt; have := c4.isLt; omega)]
      rw [acc_or 64 _ _ 48 (by have := c8.isLt; have := c7.isLt; have := c6.isLt; have := c5.isLt; have := c4.isLt; have := c3.isLt; omega)]
      rw [acc_or 64 _ _ 56 (by have := c8.isLt; have := c7.isLt; have := c6.isLt; have := c5.isLt; have := c4.isLt; have := c3.isLt; have := c2.isLt; omega)]
      congr 1; omega
    · simp [h1]

/-! ## Bytes -/

/-- The last part of `decodeBytes`. -/
def bytesTail (b ret : Bytes) (size offset : Int) : Go (Bytes × Bytes × Option Err) := do
  if (b.length : Int) - offset > size - 1 then
    let rest ← b.sliceFrom (size + offset).toNat
    let payload ← b.slice offset.toNat (size + offset).toNat
    return (rest, ret.take 0 ++ payload, none)
  return (b, [], some .InvalidBytes)

theorem bytesTail_eq (b ret : Bytes) (size offset : Nat) : bytesTail b ret size offset =
    if size + offset ≤ b.length then
      .ok (b.drop (size + offset), (b.drop offset).take size, none)
    else .ok (b, [], some .InvalidBytes) := by
  unfold bytesTail
  by_cases h : size + offset ≤ b.length
  · have h1 : (b.length : Int) - offset > (size : Int) - 1 := by omega
    have h2 : ((size : Int) + offset).toNat = size + offset := by omega
    rw [if_pos h1, h2]
    simp only [_root_.Bytes.sliceFrom, _root_.Bytes.slice, h, if_true, Go.bind_ok, Int.toNat_natCast]
    rw [if_pos ⟨by omega, trivial⟩]
    simp [List.drop_take]
  · have h1 : ¬ ((b.length : Int) - offset > (size : Int) - 1) := by omega
    rw [if_neg h1, if_neg h]; rfl

theorem decodeBytes_eq (b ret : Bytes) : decodeBytes b ret =
    if 2 < b.length then
      if b[0]? = some BytesRawKind then
        if b[1]? = some Uint32RawKind then
          decLad b (fun (x : BitVec 32) off => bytesTail b ret (x.toNat : Nat) (off : Nat))
            (bytesTail b ret 0 0) 5 2 0 0#32
        else .ok (b, [], some .InvalidBytes)
      else .ok (b, [], some .InvalidBytes)
    else .ok (b, [], some .InvalidBytes) := by
  match b with
  | [] => rfl
  | [_] => rfl
  | [_, _] => rfl
  | m :: k :: c :: r =>
    have a0 : _root_.Bytes.at (m :: k :: c :: r) 0 = .ok m := rfl
    have a1 : _root_.Bytes.at (m :: k :: c :: r) 1 = .ok k := rfl
    simp only [decodeBytes, decLad, bytesTail, BitVec.zero_or, BitVec.shiftLeft_zero, Go.pure_eq,
      Nat.reduceAdd, gt_iff_lt, a0, a1, Go.bind_ok, List.getElem?_cons_zero, Option.some.injEq,
      List.getElem?_cons_succ, Int.cast_ofNat_Int]

theorem decodeBytes_spec (b ret : Bytes) : decodeBytes b ret =
    match b with
    | m :: k :: c :: r =>
      if m = kBytes ∧ k = kUint32 then
        match readVarint 5 (c :: r) with
        | .done v rest =>
          if v % 2 ^ 32 ≤ rest.length then
            .ok (rest.drop (v % 2 ^ 32), rest.take (v % 2 ^ 32), none)
          else .ok (b, [], some .InvalidBytes)
        | .truncated => .panic
        | .tooLong => .ok (b, [], none)
      else .ok (b, [], some .InvalidBytes)
    | _ => .ok (b, [], some .InvalidBytes) := by
  match b with
  | [] => rfl
  | [_] => rfl
  | [_, _] => rfl
  | m :: k :: c :: r =>
    rw [decodeBytes_eq]
    have hl : 2 < (m :: k :: c :: r).length := by simp
    have e1 : BytesRawKind = kBytes := rfl
    have e2 : Uint32RawKind = kUint32 := rfl
    simp only [hl, if_true, List.getElem?_cons_zero, Option.some.injEq, List.getElem?_cons_succ, e1, e2]
    by_cases h1 : m = kBytes
    case neg => simp [h1]
    by_cases h2 : k = kUint32
    case neg => simp [h2]
    subst h1; subst h2
    rw [if_pos rfl, if_pos rfl, if_pos ⟨rfl, rfl⟩]
    have := decLad_spec (w := 32) (by decide) (kBytes :: kUint32 :: c :: r) (fun (x : BitVec 32) off =>
      bytesTail (kBytes :: kUint32 :: c :: r) ret (x.toNat : Nat) (off : Nat))
      (bytesTail (kBytes :: kUint32 :: c :: r) ret 0 0) 5 2 0 0 (by decide)
    refine this.trans ?_
    simp only [List.drop_succ_cons, List.drop_zero]
    cases h : readVarint 5 (c :: r) with
    | truncated => rfl
    | tooLong =>
      have := bytesTail_eq (kBytes :: kUint32 :: c :: r) ret 0 0
      simpa using this
    | done v rest =>
      obtain ⟨p, hp, _, _⟩ := readVarint_done_suffix _ _ _ _ h
      simp only [bytesTail_eq, Nat.zero_add, Nat.pow_zero, Nat.mul_one, BitVec.toNat_ofNat]
      rw [hp]
      have e : (kBytes :: kUint32 :: (p ++ rest)).length - rest.length = p.length + 2 := by
        simp; omega
      rw [e]
      have e2 : (v % 2 ^ 32 + (p.length + 2) ≤ (kBytes :: kUint32 :: (p ++ rest)).length) =
          (v % 2 ^ 32 ≤ rest.length) := by
        simp; omega
      simp only [e2]
      split
      · have e3 : List.drop (p.length + 2) (kBytes :: kUint32 :: (p ++ rest)) = rest := by simp
        have e4 : List.drop (v % 2 ^ 32 + (p.length + 2)) (kBytes :: kUint32 :: (p ++ rest)) =
            rest.drop (v % 2 ^ 32) := by
          rw [Nat.add_comm, ← List.drop_drop, e3]
        rw [e3, e4]
      · rfl

end GoV2
