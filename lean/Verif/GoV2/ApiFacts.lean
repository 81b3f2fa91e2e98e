import Verif.GoV2.Api
import Verif.GoV2.EncodeFacts
import Verif.GoV2.DecodeFacts

/-! # Main lemmas about the v2 API: every encoder call appends `wire`, every reader inverts `wire` -/

namespace GoV2

open Spec

/-- The one item the v2 encoder gets wrong: a byte slice of 2^28 or more bytes. -/
def _root_.Spec.Item.FitsV2 : Item → Prop
  | .bytes v => v.length < 2 ^ 28
  | i => i.Fits

instance : DecidablePred Item.FitsV2 := fun i => by
  cases i <;> simp only [Item.FitsV2] <;> infer_instance

theorem _root_.Spec.Item.FitsV2.fits {i : Item} (h : i.FitsV2) : i.Fits := by
  cases i <;> simp only [Item.FitsV2, Item.Fits] at * <;> omega

theorem bigEndian4 (v : BitVec 32) : bigEndian 4 v.toNat =
    [(v >>> 24).setWidth 8, (v >>> 16).setWidth 8, (v >>> 8).setWidth 8, v.setWidth 8] := by
  simp only [bigEndian, bigEndian_byte, Nat.reducePow, Nat.div_one]
  rw [setWidth8_small v]

theorem bigEndian8 (v : BitVec 64) : bigEndian 8 v.toNat =
    [(v >>> 56).setWidth 8, (v >>> 48).setWidth 8, (v >>> 40).setWidth 8, (v >>> 32).setWidth 8,
     (v >>> 24).setWidth 8, (v >>> 16).setWidth 8, (v >>> 8).setWidth 8, v.setWidth 8] := by
  simp only [bigEndian, bigEndian_byte, Nat.reducePow, Nat.div_one]
  rw [setWidth8_small v]

theorem bv_lt_pow {w : Nat} (v : BitVec w) (k : Nat) (h : 2 ^ w ≤ 128 ^ k) : v.toNat < 128 ^ k :=
  Nat.lt_of_lt_of_le v.isLt h

/-- Emit a header that ends in a varint. -/
theorem emitVar_spec {w : Nat} (hw : 8 ≤ w) (rt : Runtime) (b : Buffer) (n m g : Nat) (hd : Bytes)
    (v : BitVec w) (h : b.Usable) (hg : g ≤ m) (hv : v.toNat < 128 ^ (g + 1))
    (hn : hd.length + (g + 1) ≤ n) :
    ∃ b', (do
        let b ← b.Grow rt n
        pre hd (fun b off => lad fin (lastOk fin) m b off v) b b.offset) = .ok b' ∧
      Appended b b' (hd ++ leb128 v.toNat) := by
  have hl := leb128_length_le g v.toNat hv
  obtain ⟨b', he, ha⟩ := emit_spec rt b n (hd ++ leb128 v.toNat) h (by simp; omega)
    (by simp [leb128_ne_nil])
  refine ⟨b', ?_, ha⟩
  rw [← he]
  simp only [pre_append]
  congr 1
  funext b1
  congr 1
  funext b2 off
  exact lad_ok hw fin m b2 off v
    (Nat.lt_of_lt_of_le hv (Nat.pow_le_pow_right (by decide) (by omega)))

/-- Emit a header that ends in a varint, then a payload. -/
theorem emitVarPayload_spec (rt : Runtime) (b : Buffer) (n : Nat) (hd p : Bytes) (m : Nat)
    (h : b.Usable) (hp : p.length < 2 ^ 32) (hn : hd.length + 5 + p.length ≤ n)
    (last : Buffer → Int → BitVec 32 → Go Buffer)
    (hlast : ∀ b off, lad (fun b off => b.copyTail off p) last m b off (BitVec.ofNat 32 p.length) =
      pre (leb128 p.length) (fun b off => b.copyTail off p) b off) :
    ∃ b', (do
        let b ← b.Grow rt n
        pre hd (fun b off => lad (fun b off => b.copyTail off p) last m b off
          (BitVec.ofNat 32 p.length)) b b.offset) = .ok b' ∧
      Appended b b' (hd ++ leb128 p.length ++ p) := by
  have hl := leb128_length_le 4 p.length (by omega)
  obtain ⟨b', he, ha⟩ := emitPayload_spec rt b n (hd ++ leb128 p.length) p h (by simp; omega)
    (by simp [leb128_ne_nil])
  refine ⟨b', ?_, ha⟩
  rw [← he]
  simp only [pre_append]
  congr 1
  funext b1
  congr 1
  funext b2 off
  exact hlast b2 off

theorem toNat_len32 {p : Bytes} (h : p.length < 2 ^ 32) : (BitVec.ofNat 32 p.length).toNat = p.length := by
  rw [BitVec.toNat_ofNat, Nat.mod_eq_of_lt h]

theorem encodeItem_spec (rt : Runtime) (b : Buffer) (i : Item) (h : b.Usable) (hf : i.FitsV2) :
    ∃ b', encodeItem rt b i = .ok b' ∧ Appended b b' (wire i) := by
  cases i with
  | nil => 
    simp only [encodeItem, encodeNil_eq]
    exact emit_spec rt b 1 [kNil] h (by decide) (by decide)
  | map size k v =>
    simp only [encodeItem, encodeMap_eq]
    exact emitVar_spec (by decide) rt b 9 5 4 [kMap, k, v, kUint32] size h (by decide) (bv_lt_pow _ _ (by decide))
      (by simp)
  | slice size k =>
    simp only [encodeItem, encodeSlice_eq]
    exact emitVar_spec (by decide) rt b 8 5 4 [kSlice, k, kUint32] size h (by decide) (bv_lt_pow _ _ (by decide))
      (by simp)
  | bytes v =>
    simp only [encodeItem, encodeBytes_eq]
    simp only [Item.FitsV2] at hf
    have hs : bytesSize + (v.length : Int) = ((7 + v.length : Nat) : Int) := by
      simp [bytesSize, uint32Size, VarIntLen32]
    rw [hs]
    have := emitVarPayload_spec rt b (7 + v.length) [kBytes, kUint32] v 4 h (by omega) (by simp)
      (lastBytes fun b off => b.copyTail off v) (by
        intro b off
        have h32 := toNat_len32 (p := v) (by omega)
        rw [lad_lt (by decide) _ _ 4 b off _ (by rw [h32]; exact hf) (by decide), h32])
    rw [List.append_assoc] at this
    exact this
  | string v =>
    simp only [encodeItem, encodeString_eq]
    simp only [Item.FitsV2, Item.Fits] at hf
    have hs : stringSize + (v.length : Int) = ((7 + v.length : Nat) : Int) := by
      simp [stringSize, uint32Size, VarIntLen32]
    rw [hs]
    have := emitVarPayload_spec rt b (7 + v.length) [kString, kUint32] v 5 h (by omega) (by simp)
      (lastOk fun b off => b.copyTail off v) (by
        intro b off
        rw [lad_ok (by decide) _ 5 b off _ (bv_lt_pow _ _ (by decide)), toNat_len32 hf])
    rw [List.append_assoc] at this
    exact this
  | error v =>
    simp only [encodeItem, encodeError, encodeErrorMessage_eq]
    simp only [Item.FitsV2, Item.Fits] at hf
    have hs : errorSize + (v.length : Int) = ((8 + v.length : Nat) : Int) := by
      simp [errorSize, stringSize, uint32Size, VarIntLen32]
    rw [hs]
    have := emitVarPayload_spec rt b (8 + v.length) [kError, kString, kUint32] v 5 h (by omega)
      (by simp) (lastOk fun b off => b.copyTail off v) (by
        intro b off
        rw [lad_ok (by decide) _ 5 b off _ (bv_lt_pow _ _ (by decide)), toNat_len32 hf])
    rw [List.append_assoc] at this
    exact this
  | bool v =>
    simp only [encodeItem, encodeBool_eq]
    exact emit_spec rt b 2 [kBool, if v then 1 else 0] h (by simp) (by simp)
  | uint8 v =>
    simp only [encodeItem, encodeUint8_eq]
    exact emit_spec rt b 2 [kUint8, v] h (by simp) (by simp)
  | uint16 v =>
    simp only [encodeItem, encodeUint16_eq]
    exact emitVar_spec (by decide) rt b 4 3 2 [kUint16] v h (by decide) (bv_lt_pow _ _ (by decide)) (by simp)
  | uint32 v =>
    simp only [encodeItem, encodeUint32_eq]
    exact emitVar_spec (by decide) rt b 6 5 4 [kUint32] v h (by decide) (bv_lt_pow _ _ (by decide)) (by simp)
  | uint64 v =>
    simp only [encodeItem, encodeUint64_eq]
    exact emitVar_spec (by decide) rt b 11 9 9 [kUint64] v h (by decide) (bv_lt_pow _ _ (by decide)) (by simp)
  | int32 v =>
    simp only [encodeItem, encodeInt32_eq]
    have := emitVar_spec (by decide) rt b 6 5 4 [kInt32] (if v.slt 0#32 then ~~~(v <<< 1) else v <<< 1)
      h (by decide) (bv_lt_pow _ _ (by decide)) (by simp)
    have hz : (if v.slt 0#32 then ~~~(v <<< 1) else v <<< 1).toNat = zigzag v.toInt :=
      zigzag_bits (w := 31) v
    rw [hz] at this
    exact this
  | int64 v =>
    simp only [encodeItem, encodeInt64_eq]
    have := emitVar_spec (by decide) rt b 11 9 9 [kInt64] (if v.slt 0#64 then ~~~(v <<< 1) else v <<< 1)
      h (by decide) (bv_lt_pow _ _ (by decide)) (by simp)
    have hz : (if v.slt 0#64 then ~~~(v <<< 1) else v <<< 1).toNat = zigzag v.toInt :=
      zigzag_bits (w := 63) v
    rw [hz] at this
    exact this
  | float32 v =>
    simp only [encodeItem, encodeFloat32_eq, ← bigEndian4]
    exact emit_spec rt b 5 (kFloat32 :: bigEndian 4 v.toNat) h (by simp) (by simp)
  | float64 v =>
    simp only [encodeItem, encodeFloat64_eq, ← bigEndian8]
    exact emit_spec rt b 9 (kFloat64 :: bigEndian 8 v.toNat) h (by simp) (by simp)

/-- Chains of encoder calls append the concatenation of the items' encodings. -/
theorem encodeItems_spec (rt : Runtime) : ∀ (is : List Item) (b : Buffer), b.Usable →
    (∀ i ∈ is, i.FitsV2) → ∃ b', encodeItems rt b is = .ok b' ∧ Appended b b' (wireAll is) := by
  intro is
  induction is with
  | nil =>
    intro b h _
    exact ⟨b, rfl, ⟨h, by simp [wireAll], by simp [wireAll], Nat.le_refl _⟩⟩
  | cons i is ih =>
    intro b h hf
    obtain ⟨b1, he, ha⟩ := encodeItem_spec rt b i h (hf i (by simp))
    obtain ⟨b2, he2, ha2⟩ := ih b1 ha.usable (fun j hj => hf j (by simp [hj]))
    refine ⟨b2, by simp [encodeItems, he, he2], ⟨ha2.usable, ?_, ?_, Nat.le_trans ha.mono ha2.mono⟩⟩
    · rw [ha2.written, ha.written]; simp [wireAll]
    · rw [ha2.offset, ha.offset]; simp [wireAll]; omega

/-! ## Readers invert `wire` -/

theorem tagged_leb (k : Byte) (n : Nat) (t : Bytes) : Tagged k (k :: leb128 n ++ t) := by
  have := leb128_length_pos n
  exact ⟨by simp; omega, by simp⟩

theorem decodeUint32_wire (n : Nat) (hn : n < 2 ^ 32) (t : Bytes) :
    decodeUint32 (size32 n ++ t) = .ok (t, BitVec.ofNat 32 n, none) := by
  rw [decodeUint32_spec, size32, if_pos (tagged_leb _ _ _)]
  simp only [List.cons_append, List.tail_cons]
  rw [readVarint_leb128 4 n t (by omega)]

theorem decodeString_wire (v : Bytes) (hv : v.length < 2 ^ 32) (t : Bytes) :
    decodeString (kString :: size32 v.length ++ v ++ t) = .ok (t, v, none) := by
  have htag : Tagged kString (kString :: size32 v.length ++ v ++ t) := ⟨by simp [size32], by simp⟩
  rw [decodeString_spec, if_pos htag]
  simp only [List.cons_append, List.tail_cons, List.append_assoc]
  rw [decodeUint32_wire _ hv]
  simp [Nat.mod_eq_of_lt hv]

theorem unzigzag_ofInt {w : Nat} (v : BitVec (w + 1)) :
    BitVec.ofInt (w + 1) (unzigzag (zigzag v.toInt % 2 ^ (w + 1))) = v := by
  rw [Nat.mod_eq_of_lt (zigzag_lt v), unzigzag_zigzag, BitVec.ofInt_toInt]

theorem read_wire {q : Req} {i : Item} (hm : Matches q i) (hf : i.Fits) (t : Bytes) :
    readItem q (wire i ++ t) = .ok (t, .value i) := by
  cases hm with
  | nil => simp [readItem, wire, decodeNil_spec, kNil]
  | map size k v =>
    simp only [readItem, wire, decodeMap_spec, List.cons_append, size32]
    have := decodeUint32_wire size.toNat size.isLt t
    simp only [size32, List.cons_append] at this
    simp [this, Outcome.ofErr]
  | slice size k =>
    simp only [readItem, wire, decodeSlice_spec, List.cons_append, size32]
    have := decodeUint32_wire size.toNat size.isLt t
    simp only [size32, List.cons_append] at this
    simp [this, Outcome.ofErr]
  | bytes ret v =>
    simp only [Item.Fits] at hf
    obtain ⟨c, l, hl⟩ : ∃ c l, leb128 v.length = c :: l := by
      cases h : leb128 v.length with
      | nil => exact absurd h (leb128_ne_nil _)
      | cons c l => exact ⟨c, l, rfl⟩
    have hr := readVarint_leb128 4 v.length (v ++ t) (by omega)
    simp only [hl, List.cons_append] at hr
    simp only [readItem, wire, decodeBytes_spec, List.cons_append, size32, hl, List.append_assoc, hr]
    simp [Outcome.ofErr, Nat.mod_eq_of_lt hf]
  | string v =>
    simp only [Item.Fits] at hf
    simp only [readItem, wire]
    rw [decodeString_wire v hf t]
    rfl
  | error m =>
    simp only [Item.Fits] at hf
    have htag : Tagged kError (kError :: kString :: size32 m.length ++ m ++ t) :=
      ⟨by simp [size32], by simp⟩
    simp only [readItem, wire, decodeError_spec]
    rw [if_pos htag]
    have := decodeString_wire m hf t
    simp only [List.cons_append, List.tail_cons] at this ⊢
    rw [this]
    rfl
  | bool v =>
    cases v <;> simp [readItem, wire, decodeBool_spec, kBool, Outcome.ofErr]
  | uint8 v => simp [readItem, wire, decodeUint8_spec, kUint8, Outcome.ofErr]
  | uint16 v =>
    simp only [readItem, wire, decodeUint16_spec]
    rw [if_pos (tagged_leb _ _ _)]
    simp only [List.cons_append, List.tail_cons]
    rw [readVarint_leb128 2 _ t (bv_lt_pow v 3 (by decide))]
    simp [Outcome.ofErr]
  | uint32 v =>
    simp only [readItem, wire, decodeUint32_spec]
    rw [if_pos (tagged_leb _ _ _)]
    simp only [List.cons_append, List.tail_cons]
    rw [readVarint_leb128 4 _ t (bv_lt_pow v 5 (by decide))]
    simp [Outcome.ofErr]
  | uint64 v =>
    simp only [readItem, wire, decodeUint64_spec]
    rw [if_pos (tagged_leb _ _ _)]
    simp only [List.cons_append, List.tail_cons]
    rw [readVarint_leb128 9 _ t (bv_lt_pow v 10 (by decide))]
    simp [Outcome.ofErr]
  | int32 v =>
    simp only [readItem, wire, decodeInt32_spec]
    rw [if_pos (tagged_leb _ _ _)]
    simp only [List.cons_append, List.tail_cons]
    rw [readVarint_leb128 4 _ t (Nat.lt_of_lt_of_le (zigzag_lt (w := 31) v) (by decide))]
    have := unzigzag_ofInt (w := 31) v
    simp only [Go.bind_ok, Go.pure_eq, Outcome.ofErr]
    rw [this]
  | int64 v =>
    simp only [readItem, wire, decodeInt64_spec]
    rw [if_pos (tagged_leb _ _ _)]
    simp only [List.cons_append, List.tail_cons]
    rw [readVarint_leb128 9 _ t (Nat.lt_of_lt_of_le (zigzag_lt (w := 63) v) (by decide))]
    have := unzigzag_ofInt (w := 63) v
    simp only [Go.bind_ok, Go.pure_eq, Outcome.ofErr]
    rw [this]
  | float32 v =>
    have hl : (bigEndian 4 v.toNat).length = 4 := bigEndian_length 4 _
    simp only [readItem, wire, decodeFloat32_spec]
    rw [if_pos ⟨by simp [hl]; omega, by simp⟩]
    simp only [List.cons_append, List.drop_succ_cons, List.drop_zero]
    rw [List.take_left' hl, List.drop_left' hl, fromBigEndian_bigEndian]
    have := v.isLt
    simp [Outcome.ofErr, Nat.mod_eq_of_lt this]
  | float64 v =>
    have hl : (bigEndian 8 v.toNat).length = 8 := bigEndian_length 8 _
    simp only [readItem, wire, decodeFloat64_spec]
    rw [if_pos ⟨by simp [hl]; omega, by simp⟩]
    simp only [List.cons_append, List.drop_succ_cons, List.drop_zero]
    rw [List.take_left' hl, List.drop_left' hl, fromBigEndian_bigEndian]
    have := v.isLt
    simp [Outcome.ofErr, Nat.mod_eq_of_lt this]

theorem readAll_wire : ∀ {qs : List Req} {is : List Item}, MatchesAll qs is → (∀ i ∈ is, i.Fits) →
    ∀ t : Bytes, readAll qs (wireAll is ++ t) = .ok (t, is.map .value) := by
  intro qs is h
  induction h with
  | nil => intro _ t; rfl
  | @cons q i qs is hm _ ih =>
    intro hf t
    have h1 := read_wire hm (hf i (by simp)) (wireAll is ++ t)
    have h2 := ih (fun j hj => hf j (by simp [hj])) t
    have : wireAll (i :: is) ++ t = wire i ++ (wireAll is ++ t) := by simp [wireAll]
    rw [this]
    simp [readAll, h1, h2]

end GoV2
