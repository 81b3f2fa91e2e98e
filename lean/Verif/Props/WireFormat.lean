import Verif.GoV2.ReadFacts
import Verif.GoV2.Log

/-! # Properties of the wire format and of integer sizes (C17, C18) -/

namespace Props

open Spec GoV2

/-- The encoding of an item is an accepted encoding of that item. -/
theorem wire_accepts {i : Item} (hf : i.Fits) : Accepts (wire i) i := by
  have h32 : ∀ v : BitVec 32, Varint 5 (leb128 v.toNat) ∧ groupSum (leb128 v.toNat) = v.toNat :=
    fun v => varint_leb128 4 _ (bv_lt_pow v 5 (by decide))
  have hlen : ∀ n : Nat, n < 2 ^ 32 → Varint 5 (leb128 n) ∧ n = groupSum (leb128 n) % 2 ^ 32 := by
    intro n hn
    have := varint_leb128 4 n (by omega)
    exact ⟨this.1, by rw [this.2]; exact (Nat.mod_eq_of_lt hn).symm⟩
  cases i with
  | nil => exact .nil
  | map size k v =>
    have := Accepts.map k v _ (h32 size).1
    rw [(h32 size).2, BitVec.ofNat_toNat, BitVec.setWidth_eq] at this; exact this
  | slice size k =>
    have := Accepts.slice k _ (h32 size).1
    rw [(h32 size).2, BitVec.ofNat_toNat, BitVec.setWidth_eq] at this; exact this
  | bytes v => exact .bytes _ v (hlen _ hf).1 (hlen _ hf).2
  | string v => exact .string _ v (hlen _ hf).1 (hlen _ hf).2
  | error v => exact .error _ v (hlen _ hf).1 (hlen _ hf).2
  | bool v => exact .bool v
  | uint8 v => exact .uint8 v
  | uint16 v =>
    have h := varint_leb128 2 _ (bv_lt_pow v 3 (by decide))
    have := Accepts.uint16 _ h.1
    rw [h.2, BitVec.ofNat_toNat, BitVec.setWidth_eq] at this; exact this
  | uint32 v =>
    have := Accepts.uint32 _ (h32 v).1
    rw [(h32 v).2, BitVec.ofNat_toNat, BitVec.setWidth_eq] at this; exact this
  | uint64 v =>
    have h := varint_leb128 9 _ (bv_lt_pow v 10 (by decide))
    have := Accepts.uint64 _ h.1
    rw [h.2, BitVec.ofNat_toNat, BitVec.setWidth_eq] at this; exact this
  | int32 v =>
    have hz := zigzag_lt v
    have h := varint_leb128 4 _ (show zigzag v.toInt < 128 ^ 5 by omega)
    have := Accepts.int32 _ h.1
    rw [h.2, unzigzag_ofInt] at this; exact this
  | int64 v =>
    have hz := zigzag_lt v
    have h := varint_leb128 9 _ (show zigzag v.toInt < 128 ^ 10 by omega)
    have := Accepts.int64 _ h.1
    rw [h.2, unzigzag_ofInt] at this; exact this
  | float32 v =>
    have := Accepts.float32 (bigEndian 4 v.toNat) (by simp)
    rw [fromBigEndian_bigEndian, Nat.mod_eq_of_lt (by omega), BitVec.ofNat_toNat, BitVec.setWidth_eq] at this
    exact this
  | float64 v =>
    have := Accepts.float64 (bigEndian 8 v.toNat) (by simp)
    rw [fromBigEndian_bigEndian, Nat.mod_eq_of_lt (by omega), BitVec.ofNat_toNat, BitVec.setWidth_eq] at this
    exact this

/-! ## C17: encodings are unambiguous -/

/-- If two encodings, each followed by anything, are the same bytes, then the items and what follows
are the same: no encoding is a prefix of a different item's encoding. -/
theorem C17_prefix_free (i j : Item) (hi : i.Fits) (hj : j.Fits) (s t : Bytes)
    (h : wire i ++ s = wire j ++ t) : i = j ∧ s = t := by
  obtain ⟨_, h1, h2⟩ := accepts_unique (wire_accepts hi) (wire_accepts hj) s t h
  exact ⟨h1, h2⟩

/-- The same for all byte strings a decoder accepts, canonical or not. -/
theorem C17_accepted_prefix_free (p p' : Bytes) (i j : Item) (hi : Accepts p i) (hj : Accepts p' j)
    (s t : Bytes) (h : p ++ s = p' ++ t) : p = p' ∧ i = j ∧ s = t := accepts_unique hi hj s t h

/-- Different item sequences have different encodings. -/
theorem C17_messages_injective (is js : List Item) (hi : ∀ i ∈ is, i.Fits) (hj : ∀ j ∈ js, j.Fits)
    (h : wireAll is = wireAll js) : is = js := by
  induction is generalizing js with
  | nil =>
    cases js with
    | nil => rfl
    | cons j js =>
      exfalso
      have hp := (wire_accepts (hj j (by simp))).pos
      have := congrArg List.length h
      simp [wireAll] at this; omega
  | cons i is ih =>
    cases js with
    | nil =>
      exfalso
      have hp := (wire_accepts (hi i (by simp))).pos
      have := congrArg List.length h
      simp only [wireAll, List.flatMap_cons, List.length_append, List.flatMap_nil, List.length_nil] at this
      omega
    | cons j js =>
      have h' : wire i ++ wireAll is = wire j ++ wireAll js := by simpa [wireAll] using h
      obtain ⟨rfl, h2⟩ := C17_prefix_free i j (hi i (by simp)) (hj j (by simp)) _ _ h'
      rw [ih js (fun x hx => hi x (by simp [hx])) (fun x hx => hj x (by simp [hx])) h2]

/-- So two v2 encoders whose buffers end up with the same bytes were given the same items. -/
theorem C17_v2_encoder_injective (rt rt' : Runtime) (b0 c0 b c : Buffer) (hb : Fresh b0) (hc : Fresh c0)
    (is js : List Item) (hi : ∀ i ∈ is, i.FitsV2) (hj : ∀ j ∈ js, j.FitsV2)
    (e1 : encodeItems rt b0 is = .ok b) (e2 : encodeItems rt' c0 js = .ok c) (h : b.Bytes = c.Bytes) :
    is = js := by
  obtain ⟨b', h1, a1⟩ := encodeItems_spec rt is b0 hb.usable hi
  obtain ⟨c', h2, a2⟩ := encodeItems_spec rt' js c0 hc.usable hj
  rw [h1] at e1; rw [h2] at e2
  simp only [Go.ok.injEq] at e1 e2; subst e1; subst e2
  rw [a1.usable.bytes, a2.usable.bytes, a1.written, a2.written, hb.written, hc.written] at h
  simp only [List.nil_append, Go.ok.injEq] at h
  exact C17_messages_injective is js (fun i h => (hi i h).fits) (fun j h => (hj j h).fits) h

example : (Item.string [1, 2]).Fits ∧ (Item.string [1, 2]).FitsV2 := by decide

/-! ## C18: integer encodings are minimal and bounded -/

/-- Bytes after the kind byte, and what the encoder reserves (`Grow` argument) for kind and value. -/
theorem C18_bounds :
    (∀ v : BitVec 16, (wire (.uint16 v)).length ≤ 1 + 3 ∧ ((wire (.uint16 v)).length : Int) ≤ uint16Size) ∧
    (∀ v : BitVec 32, (wire (.uint32 v)).length ≤ 1 + 5 ∧ ((wire (.uint32 v)).length : Int) ≤ uint32Size) ∧
    (∀ v : BitVec 64, (wire (.uint64 v)).length ≤ 1 + 10 ∧ ((wire (.uint64 v)).length : Int) ≤ uint64Size) ∧
    (∀ v : BitVec 32, (wire (.int32 v)).length ≤ 1 + 5 ∧ ((wire (.int32 v)).length : Int) ≤ uint32Size) ∧
    (∀ v : BitVec 64, (wire (.int64 v)).length ≤ 1 + 10 ∧ ((wire (.int64 v)).length : Int) ≤ uint64Size) := by
  refine ⟨fun v => ?_, fun v => ?_, fun v => ?_, fun v => ?_, fun v => ?_⟩ <;>
    simp only [wire, List.length_cons, uint16Size, uint32Size, uint64Size, VarIntLen16, VarIntLen32, VarIntLen64]
  · have := leb128_length_le 2 v.toNat (by omega); omega
  · have := leb128_length_le 4 v.toNat (by omega); omega
  · have := leb128_length_le 9 v.toNat (by omega); omega
  · have hz := zigzag_lt v
    have := leb128_length_le 4 (zigzag v.toInt) (by omega); omega
  · have hz := zigzag_lt v
    have := leb128_length_le 9 (zigzag v.toInt) (by omega); omega

/-- The bounds are attained. -/
theorem C18_bounds_tight :
    (wire (.uint16 0xffff#16)).length = 1 + 3 ∧ (wire (.uint32 0xffffffff#32)).length = 1 + 5 ∧
    (wire (.uint64 0xffffffffffffffff#64)).length = 1 + 10 ∧
    (wire (.int32 0x80000000#32)).length = 1 + 5 ∧ (wire (.int64 0x8000000000000000#64)).length = 1 + 10 := by
  refine ⟨?_, ?_, ?_, ?_, ?_⟩ <;> simp [wire, leb128, zigzag, BitVec.toInt]

theorem zigzag_ofInt_unzigzag (w n : Nat) :
    zigzag (BitVec.ofInt (w + 1) (unzigzag (n % 2 ^ (w + 1)))).toInt = n % 2 ^ (w + 1) := by
  have hn : n % 2 ^ (w + 1) < 2 ^ (w + 1) := Nat.mod_lt _ (Nat.two_pow_pos _)
  generalize n % 2 ^ (w + 1) = m at *
  rw [BitVec.toInt_ofInt, Int.bmod_eq_of_le, zigzag_unzigzag]
  · have h2 : 2 ^ (w + 1) = 2 * 2 ^ w := by rw [Nat.pow_succ, Nat.mul_comm]
    rw [h2] at hn ⊢
    generalize 2 ^ w = k at *
    unfold unzigzag
    have e : ((2 * k : Nat) : Int) / 2 = k := by omega
    rw [e]
    split <;> omega
  · have h2 : 2 ^ (w + 1) = 2 * 2 ^ w := by rw [Nat.pow_succ, Nat.mul_comm]
    rw [h2] at hn ⊢
    generalize 2 ^ w = k at *
    unfold unzigzag
    have e : (((2 * k : Nat) : Int) + 1) / 2 = k := by omega
    rw [e]
    split <;> omega

/-- Whatever byte string `p` a v2 reader consumes and returns the value of `i` for, the encoder's output
for `i` is no longer than `p` (all types except the `Bytes` anomaly of C13, where `p` is empty). -/
theorem C18_minimal (q : Req) (p r : Bytes) (i : Item) (hp : p ≠ [])
    (h : readItem q (p ++ r) = .ok (r, .value i)) : (wire i).length ≤ p.length := by
  rcases (readItem_value_iff ..).mp h with ⟨_, p', ha, he⟩ | ⟨ret, cs, rfl, rfl, _, hl, he⟩
  · rw [List.append_cancel_right he]
    cases ha with
    | nil => simp [wire]
    | map k v cs hc =>
      have := leb128_minimal hc (groupSum cs % 2 ^ 32) (Nat.mod_le _ _)
      simp only [wire, size32, List.length_cons, BitVec.toNat_ofNat]; omega
    | slice k cs hc =>
      have := leb128_minimal hc (groupSum cs % 2 ^ 32) (Nat.mod_le _ _)
      simp only [wire, size32, List.length_cons, BitVec.toNat_ofNat]; omega
    | bytes cs v hc hl =>
      have := leb128_minimal hc (groupSum cs % 2 ^ 32) (Nat.mod_le _ _)
      simp only [wire, size32, List.length_cons, List.cons_append, List.length_append, hl]; omega
    | string cs v hc hl =>
      have := leb128_minimal hc (groupSum cs % 2 ^ 32) (Nat.mod_le _ _)
      simp only [wire, size32, List.length_cons, List.cons_append, List.length_append, hl]; omega
    | error cs v hc hl =>
      have := leb128_minimal hc (groupSum cs % 2 ^ 32) (Nat.mod_le _ _)
      simp only [wire, size32, List.length_cons, List.cons_append, List.length_append, hl]; omega
    | bool v => simp [wire]
    | uint8 v => simp [wire]
    | uint16 cs hc =>
      have := leb128_minimal hc (groupSum cs % 2 ^ 16) (Nat.mod_le _ _)
      simp only [wire, List.length_cons, BitVec.toNat_ofNat]; omega
    | uint32 cs hc =>
      have := leb128_minimal hc (groupSum cs % 2 ^ 32) (Nat.mod_le _ _)
      simp only [wire, List.length_cons, BitVec.toNat_ofNat]; omega
    | uint64 cs hc =>
      have := leb128_minimal hc (groupSum cs % 2 ^ 64) (Nat.mod_le _ _)
      simp only [wire, List.length_cons, BitVec.toNat_ofNat]; omega
    | int32 cs hc =>
      have := leb128_minimal hc (groupSum cs % 2 ^ (31 + 1)) (Nat.mod_le _ _)
      simp only [wire, List.length_cons, zigzag_ofInt_unzigzag 31 (groupSum cs)]; omega
    | int64 cs hc =>
      have := leb128_minimal hc (groupSum cs % 2 ^ (63 + 1)) (Nat.mod_le _ _)
      simp only [wire, List.length_cons, zigzag_ofInt_unzigzag 63 (groupSum cs)]; omega
    | float32 p hp => simp [wire, hp]
    | float64 p hp => simp [wire, hp]
  · have := congrArg List.length he
    simp at this; exact absurd this hp

/-- Strictly longer encodings of the same value exist and are accepted (so the reader is not injective). -/
theorem C18_overlong_accepted (t : Bytes) :
    readItem .uint32 ([kUint32, 0x81, 0x80, 0x00] ++ t) = .ok (t, .value (.uint32 1)) ∧
    (wire (.uint32 1)).length < 4 :=
  ⟨(readItem_value_iff ..).mpr (.inl ⟨.uint32 _, _, .uint32 [0x81, 0x80, 0x00]
    ⟨[0x81, 0x80], 0, rfl, by decide, by decide, by decide⟩, rfl⟩), by simp [wire, leb128]⟩

end Props
