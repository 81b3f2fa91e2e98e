import Verif.GoV2.Log

/-!
# C01 - C06: round trips and wire format of the Go v2 codec

Hypothesis `Fresh b0` says that `b0` is what `NewBuffer()` or `NewBufferSize(n)` returned.  `rt` is the
allocator (arbitrary growth slack).  `t` is whatever follows the encoding in the decoder's input.
Only property theorems here; proofs are one step from `GoV2/ApiFacts.lean` and `GoV2/EncodeBig.lean`.
-/

namespace Props

open Spec GoV2

/-- From one encoder call on a fresh buffer to the bytes and back. -/
theorem fresh_encode (rt : Runtime) {b0 : Buffer} (hb : Fresh b0) (i : Item) (hf : i.FitsV2) :
    ∃ b, encodeItem rt b0 i = .ok b ∧ b.Bytes = .ok (wire i) := by
  obtain ⟨b, he, ha⟩ := encodeItem_spec rt b0 i hb.usable hf
  refine ⟨b, he, ?_⟩
  rw [ha.usable.bytes, ha.written, hb.written, List.nil_append]

/-! ## C01: scalars -/

theorem C01_nil_roundtrip (rt : Runtime) (b0 : Buffer) (hb : Fresh b0) (t : Bytes) :
    ∃ b bs, encodeNil rt b0 = .ok b ∧ b.Bytes = .ok bs ∧ decodeNil (bs ++ t) = .ok (t, true) := by
  obtain ⟨b, he, hbs⟩ := fresh_encode rt hb .nil trivial
  refine ⟨b, _, he, hbs, ?_⟩
  have := read_wire Matches.nil trivial t
  cases h : decodeNil (wire .nil ++ t) with
  | panic => simp [readItem, h] at this
  | ok x => obtain ⟨r, v⟩ := x; simp [readItem, h] at this; obtain ⟨rfl, h2⟩ := this; cases v <;> simp at h2 ⊢

theorem C01_bool_roundtrip (rt : Runtime) (b0 : Buffer) (hb : Fresh b0) (v : Bool) (t : Bytes) :
    ∃ b bs, encodeBool rt b0 v = .ok b ∧ b.Bytes = .ok bs ∧ decodeBool (bs ++ t) = .ok (t, v, none) := by
  obtain ⟨b, he, hbs⟩ := fresh_encode rt hb (.bool v) trivial
  refine ⟨b, _, he, hbs, ?_⟩
  have := read_wire (Matches.bool v) trivial t
  cases h : decodeBool (wire (.bool v) ++ t) with
  | panic => simp [readItem, h] at this
  | ok x =>
    obtain ⟨r, v', e⟩ := x
    cases e <;> simp [readItem, h, Outcome.ofErr] at this
    simp [this]

theorem C01_uint8_roundtrip (rt : Runtime) (b0 : Buffer) (hb : Fresh b0) (v : BitVec 8) (t : Bytes) :
    ∃ b bs, encodeUint8 rt b0 v = .ok b ∧ b.Bytes = .ok bs ∧ decodeUint8 (bs ++ t) = .ok (t, v, none) := by
  obtain ⟨b, he, hbs⟩ := fresh_encode rt hb (.uint8 v) trivial
  refine ⟨b, _, he, hbs, ?_⟩
  have := read_wire (Matches.uint8 v) trivial t
  cases h : decodeUint8 (wire (.uint8 v) ++ t) with
  | panic => simp [readItem, h] at this
  | ok x =>
    obtain ⟨r, v', e⟩ := x
    cases e <;> simp [readItem, h, Outcome.ofErr] at this
    simp [this]

theorem C01_uint16_roundtrip (rt : Runtime) (b0 : Buffer) (hb : Fresh b0) (v : BitVec 16) (t : Bytes) :
    ∃ b bs, encodeUint16 rt b0 v = .ok b ∧ b.Bytes = .ok bs ∧ decodeUint16 (bs ++ t) = .ok (t, v, none) := by
  obtain ⟨b, he, hbs⟩ := fresh_encode rt hb (.uint16 v) trivial
  refine ⟨b, _, he, hbs, ?_⟩
  have := read_wire (Matches.uint16 v) trivial t
  cases h : decodeUint16 (wire (.uint16 v) ++ t) with
  | panic => simp [readItem, h] at this
  | ok x =>
    obtain ⟨r, v', e⟩ := x
    cases e <;> simp [readItem, h, Outcome.ofErr] at this
    simp [this]

theorem C01_uint32_roundtrip (rt : Runtime) (b0 : Buffer) (hb : Fresh b0) (v : BitVec 32) (t : Bytes) :
    ∃ b bs, encodeUint32 rt b0 v = .ok b ∧ b.Bytes = .ok bs ∧ decodeUint32 (bs ++ t) = .ok (t, v, none) := by
  obtain ⟨b, he, hbs⟩ := fresh_encode rt hb (.uint32 v) trivial
  refine ⟨b, _, he, hbs, ?_⟩
  have := read_wire (Matches.uint32 v) trivial t
  cases h : decodeUint32 (wire (.uint32 v) ++ t) with
  | panic => simp [readItem, h] at this
  | ok x =>
    obtain ⟨r, v', e⟩ := x
    cases e <;> simp [readItem, h, Outcome.ofErr] at this
    simp [this]

theorem C01_uint64_roundtrip (rt : Runtime) (b0 : Buffer) (hb : Fresh b0) (v : BitVec 64) (t : Bytes) :
    ∃ b bs, encodeUint64 rt b0 v = .ok b ∧ b.Bytes = .ok bs ∧ decodeUint64 (bs ++ t) = .ok (t, v, none) := by
  obtain ⟨b, he, hbs⟩ := fresh_encode rt hb (.uint64 v) trivial
  refine ⟨b, _, he, hbs, ?_⟩
  have := read_wire (Matches.uint64 v) trivial t
  cases h : decodeUint64 (wire (.uint64 v) ++ t) with
  | panic => simp [readItem, h] at this
  | ok x =>
    obtain ⟨r, v', e⟩ := x
    cases e <;> simp [readItem, h, Outcome.ofErr] at this
    simp [this]

theorem C01_int32_roundtrip (rt : Runtime) (b0 : Buffer) (hb : Fresh b0) (v : BitVec 32) (t : Bytes) :
    ∃ b bs, encodeInt32 rt b0 v = .ok b ∧ b.Bytes = .ok bs ∧ decodeInt32 (bs ++ t) = .ok (t, v, none) := by
  obtain ⟨b, he, hbs⟩ := fresh_encode rt hb (.int32 v) trivial
  refine ⟨b, _, he, hbs, ?_⟩
  have := read_wire (Matches.int32 v) trivial t
  cases h : decodeInt32 (wire (.int32 v) ++ t) with
  | panic => simp [readItem, h] at this
  | ok x =>
    obtain ⟨r, v', e⟩ := x
    cases e <;> simp [readItem, h, Outcome.ofErr] at this
    simp [this]

theorem C01_int64_roundtrip (rt : Runtime) (b0 : Buffer) (hb : Fresh b0) (v : BitVec 64) (t : Bytes) :
    ∃ b bs, encodeInt64 rt b0 v = .ok b ∧ b.Bytes = .ok bs ∧ decodeInt64 (bs ++ t) = .ok (t, v, none) := by
  obtain ⟨b, he, hbs⟩ := fresh_encode rt hb (.int64 v) trivial
  refine ⟨b, _, he, hbs, ?_⟩
  have := read_wire (Matches.int64 v) trivial t
  cases h : decodeInt64 (wire (.int64 v) ++ t) with
  | panic => simp [readItem, h] at this
  | ok x =>
    obtain ⟨r, v', e⟩ := x
    cases e <;> simp [readItem, h, Outcome.ofErr] at this
    simp [this]

theorem C01_float32_roundtrip (rt : Runtime) (b0 : Buffer) (hb : Fresh b0) (v : BitVec 32) (t : Bytes) :
    ∃ b bs, encodeFloat32 rt b0 v = .ok b ∧ b.Bytes = .ok bs ∧ decodeFloat32 (bs ++ t) = .ok (t, v, none) := by
  obtain ⟨b, he, hbs⟩ := fresh_encode rt hb (.float32 v) trivial
  refine ⟨b, _, he, hbs, ?_⟩
  have := read_wire (Matches.float32 v) trivial t
  cases h : decodeFloat32 (wire (.float32 v) ++ t) with
  | panic => simp [readItem, h] at this
  | ok x =>
    obtain ⟨r, v', e⟩ := x
    cases e <;> simp [readItem, h, Outcome.ofErr] at this
    simp [this]

theorem C01_float64_roundtrip (rt : Runtime) (b0 : Buffer) (hb : Fresh b0) (v : BitVec 64) (t : Bytes) :
    ∃ b bs, encodeFloat64 rt b0 v = .ok b ∧ b.Bytes = .ok bs ∧ decodeFloat64 (bs ++ t) = .ok (t, v, none) := by
  obtain ⟨b, he, hbs⟩ := fresh_encode rt hb (.float64 v) trivial
  refine ⟨b, _, he, hbs, ?_⟩
  have := read_wire (Matches.float64 v) trivial t
  cases h : decodeFloat64 (wire (.float64 v) ++ t) with
  | panic => simp [readItem, h] at this
  | ok x =>
    obtain ⟨r, v', e⟩ := x
    cases e <;> simp [readItem, h, Outcome.ofErr] at this
    simp [this]

/-- Non-vacuity: fresh buffers exist, of any size, and the values are unrestricted. -/
example : Fresh NewBuffer ∧ Fresh { arr := mk0 3, len := 3, offset := 0 } :=
  ⟨.inl rfl, .inr ⟨3, rfl⟩⟩

/-! ## C02: map and slice headers -/

theorem C02_map_roundtrip (rt : Runtime) (b0 : Buffer) (hb : Fresh b0) (size : BitVec 32)
    (k v : Kind) (t : Bytes) :
    ∃ b bs, encodeMap rt b0 size k v = .ok b ∧ b.Bytes = .ok bs ∧
      decodeMap (bs ++ t) k v = .ok (t, size, none) ∧
      ∀ k' v', (k' ≠ k ∨ v' ≠ v) → decodeMap (bs ++ t) k' v' = .ok (bs ++ t, 0, some .InvalidMap) := by
  obtain ⟨b, he, hbs⟩ := fresh_encode rt hb (.map size k v) trivial
  refine ⟨b, _, he, hbs, ?_, ?_⟩
  · have := read_wire (Matches.map size k v) trivial t
    cases h : decodeMap (wire (.map size k v) ++ t) k v with
    | panic => simp [readItem, h] at this
    | ok x =>
      obtain ⟨r, v', e⟩ := x
      cases e <;> simp [readItem, h, Outcome.ofErr] at this
      simp [this]
  · intro k' v' hne
    rw [decodeMap_spec]
    simp only [wire, List.cons_append, size32]
    rw [if_neg (by rintro ⟨_, h1, h2⟩; rcases hne with h | h <;> simp_all)]

theorem C02_slice_roundtrip (rt : Runtime) (b0 : Buffer) (hb : Fresh b0) (size : BitVec 32)
    (k : Kind) (t : Bytes) :
    ∃ b bs, encodeSlice rt b0 size k = .ok b ∧ b.Bytes = .ok bs ∧
      decodeSlice (bs ++ t) k = .ok (t, size, none) ∧
      ∀ k', k' ≠ k → decodeSlice (bs ++ t) k' = .ok (bs ++ t, 0, some .InvalidSlice) := by
  obtain ⟨b, he, hbs⟩ := fresh_encode rt hb (.slice size k) trivial
  refine ⟨b, _, he, hbs, ?_, ?_⟩
  · have := read_wire (Matches.slice size k) trivial t
    cases h : decodeSlice (wire (.slice size k) ++ t) k with
    | panic => simp [readItem, h] at this
    | ok x =>
      obtain ⟨r, v', e⟩ := x
      cases e <;> simp [readItem, h, Outcome.ofErr] at this
      simp [this]
  · intro k' hne
    rw [decodeSlice_spec]
    simp only [wire, List.cons_append, size32]
    rw [if_neg (by rintro ⟨_, h1⟩; exact hne h1.symm)]

/-- Non-vacuity of the mismatch clause. -/
example : (5 : Kind) ≠ 4 := by decide

/-! ## C03: strings and errors -/

theorem C03_string_roundtrip (rt : Runtime) (b0 : Buffer) (hb : Fresh b0) (v : Bytes)
    (hv : v.length < 2 ^ 32) (t : Bytes) :
    ∃ b bs, encodeString rt b0 v = .ok b ∧ b.Bytes = .ok bs ∧
      decodeString (bs ++ t) = .ok (t, v, none) := by
  obtain ⟨b, he, hbs⟩ := fresh_encode rt hb (.string v) hv
  exact ⟨b, _, he, hbs, decodeString_wire v hv t⟩

theorem C03_error_roundtrip (rt : Runtime) (b0 : Buffer) (hb : Fresh b0) (m : Bytes)
    (hm : m.length < 2 ^ 32) (t : Bytes) :
    ∃ b bs, encodeError rt b0 (some m) = .ok b ∧ b.Bytes = .ok bs ∧
      decodeError (bs ++ t) = .ok (t, some m, none) := by
  obtain ⟨b, he, hbs⟩ := fresh_encode rt hb (.error m) hm
  refine ⟨b, _, he, hbs, ?_⟩
  have htag : Tagged kError (kError :: kString :: size32 m.length ++ m ++ t) :=
    ⟨by simp [size32], by simp⟩
  have := decodeString_wire m hm t
  simp only [wire]
  rw [decodeError_spec, if_pos htag]
  simp only [List.cons_append, List.tail_cons] at this ⊢
  rw [this]
  rfl

/-- Encoding a nil error panics (the only excluded argument). -/
theorem C03_nil_error_panics (rt : Runtime) (b : Buffer) : encodeError rt b none = .panic := rfl

example : ∃ v : Bytes, v.length = 2 ^ 31 ∧ v.length < 2 ^ 32 :=
  ⟨List.replicate (2 ^ 31) 7, List.length_replicate, by rw [List.length_replicate]; decide⟩

/-! ## C04: byte slices

Full claim: the round trip for all lengths below 2^32.  It is false from 2^28 on. -/

/-- The round trip holds for every byte slice shorter than 2^28 (256 MiB), for every scratch slice.
Missing with respect to C04: lengths from 2^28 to 2^32 - 1, where it is false, see below. -/
theorem C04_bytes_roundtrip_partial (rt : Runtime) (b0 : Buffer) (hb : Fresh b0) (v : Bytes)
    (hv : v.length < 2 ^ 28) (ret t : Bytes) :
    ∃ b bs, encodeBytes rt b0 v = .ok b ∧ b.Bytes = .ok bs ∧
      decodeBytes (bs ++ t) ret = .ok (t, v, none) := by
  obtain ⟨b, he, hbs⟩ := fresh_encode rt hb (.bytes v) hv
  refine ⟨b, _, he, hbs, ?_⟩
  have := read_wire (Matches.bytes ret v) (show v.length < 2 ^ 32 by omega) t
  cases h : decodeBytes (wire (.bytes v) ++ t) ret with
  | panic => simp [readItem, h] at this
  | ok x =>
    obtain ⟨r, v', e⟩ := x
    cases e <;> simp [readItem, h, Outcome.ofErr] at this
    simp [this]

/-- The decoder side alone is right for all lengths below 2^32: it is the encoder that is wrong. -/
theorem C04_decoder_correct (v ret t : Bytes) (hv : v.length < 2 ^ 32) :
    decodeBytes (wire (.bytes v) ++ t) ret = .ok (t, v, none) := by
  have := read_wire (Matches.bytes ret v) hv t
  cases h : decodeBytes (wire (.bytes v) ++ t) ret with
  | panic => simp [readItem, h] at this
  | ok x =>
    obtain ⟨r, v', e⟩ := x
    cases e <;> simp [readItem, h, Outcome.ofErr] at this
    simp [this]

/-- C04 is false for *every* byte slice of length 2^28 to 2^32 - 1: what `Encoder.Bytes` wrote is never
decoded to the original value. -/
theorem C04_false_from_2pow28 (rt : Runtime) (b0 : Buffer) (hb : Fresh b0) (v : Bytes)
    (hlo : 2 ^ 28 ≤ v.length) (hhi : v.length < 2 ^ 32) (ret : Bytes) :
    ∃ b bs, encodeBytes rt b0 v = .ok b ∧ b.Bytes = .ok bs ∧
      ∀ rest, decodeBytes bs ret ≠ .ok (rest, v, none) := by
  have hmod : v.length % 2 ^ 32 = v.length := Nat.mod_eq_of_lt hhi
  obtain ⟨b, he, ha⟩ := encodeBytes_big rt b0 v hb.usable (by omega)
  refine ⟨b, _, he, by rw [ha.usable.bytes, ha.written, hb.written, List.nil_append], ?_⟩
  intro rest hdec
  rw [hmod] at hdec
  have h4 : ((leb128 v.length).take 4).length = 4 := by
    have := lt_leb128_length 4 v.length hlo
    rw [List.length_take]; omega
  obtain ⟨c, l, hl⟩ : ∃ c l, (leb128 v.length).take 4 = c :: l := by
    cases h : (leb128 v.length).take 4 with
    | nil => rw [h] at h4; simp at h4
    | cons c l => exact ⟨c, l, rfl⟩
  rw [decodeBytes_spec] at hdec
  simp only [hl, List.cons_append, and_self, if_true] at hdec
  cases hr : readVarint 5 (c :: (l ++ v)) with
  | truncated => rw [hr] at hdec; simp at hdec
  | tooLong =>
    rw [hr] at hdec; simp at hdec
    obtain ⟨_, h2⟩ := hdec
    rw [h2] at hlo; simp at hlo
  | done n r =>
    rw [hr] at hdec
    simp only at hdec
    split at hdec
    · rename_i hle
      simp only [Go.ok.injEq, Prod.mk.injEq, and_true] at hdec
      obtain ⟨p, hp, hp1, hp5⟩ := readVarint_done_suffix _ _ _ _ hr
      -- the four bytes before the payload are all continuation bytes
      have hcont : ∀ (m n : Nat), 128 ^ m ≤ n → ∀ x ∈ (leb128 n).take m, 128 ≤ x.toNat := by
        intro m
        induction m with
        | zero => intro n _ x hx; simp at hx
        | succ m ih =>
          intro n hn x hx
          have hb : ¬ n < 128 := by
            have : 128 ^ 1 ≤ 128 ^ (m + 1) := Nat.pow_le_pow_right (by decide) (by omega)
            omega
          rw [leb128_big hb, List.take_succ_cons] at hx
          rcases List.mem_cons.mp hx with h | h
          · subst h; rw [BitVec.toNat_ofNat]; omega
          · exact ih _ (by rw [Nat.le_div_iff_mul_le (by decide)]; rw [Nat.pow_succ] at hn; exact hn) _ h
      have hc4 := hcont 4 v.length hlo
      -- so the varint takes at least one byte of the payload
      have hlong : r.length < v.length := by
        have hrv : ∀ (k : Nat) (pre bs rest : Bytes) (n : Nat), (∀ x ∈ pre, 128 ≤ x.toNat) →
            readVarint k (pre ++ bs) = .done n rest → rest.length < bs.length := by
          intro k
          induction k with
          | zero => intro pre bs rest n _ h; simp [readVarint] at h
          | succ k ih =>
            intro pre bs rest n hpre h
            cases pre with
            | nil =>
              obtain ⟨p, hp, h0, _⟩ := readVarint_done_suffix _ _ _ _ h
              have := congrArg List.length hp
              simp at this; omega
            | cons x xs =>
              have hx : ¬ x.toNat < 128 := by have := hpre x (by simp); omega
              simp only [List.cons_append, readVarint, hx, if_false] at h
              cases h' : readVarint k (xs ++ bs) with
              | done m r' =>
                rw [h'] at h; simp at h
                rw [← h.2]
                exact ih xs bs r' m (fun y hy => hpre y (by simp [hy])) h'
              | truncated => rw [h'] at h; simp at h
              | tooLong => rw [h'] at h; simp at h
        exact hrv 5 (c :: l) v r n (by rw [← hl]; exact hc4) hr
      have := congrArg List.length hdec.2
      rw [List.length_take] at this
      omega
    · simp at hdec

/-- Non-vacuity: such slices exist. -/
example : ∃ v : Bytes, 2 ^ 28 ≤ v.length ∧ v.length < 2 ^ 32 :=
  ⟨List.replicate (2 ^ 28) 0, by rw [List.length_replicate]; decide,
    by rw [List.length_replicate]; decide⟩

/-! ## C05: whole messages -/

/-- Any sequence of encoder calls, appended to any usable buffer contents, is read back by the matching
sequence of decoder calls, leaving exactly what follows. -/
theorem C05_message_roundtrip (rt : Runtime) (b0 : Buffer) (hb : b0.Usable) (is : List Item)
    (hf : ∀ i ∈ is, i.FitsV2) (qs : List Req) (hq : MatchesAll qs is) (t : Bytes) :
    ∃ b before bs, b0.Bytes = .ok before ∧ encodeItems rt b0 is = .ok b ∧
      b.Bytes = .ok (before ++ bs) ∧ readAll qs (bs ++ t) = .ok (t, is.map .value) := by
  obtain ⟨b, he, ha⟩ := encodeItems_spec rt is b0 hb hf
  refine ⟨b, _, wireAll is, hb.bytes, he, ?_, ?_⟩
  · rw [ha.usable.bytes, ha.written]
  · exact readAll_wire hq (fun i hi => (hf i hi).fits) t

/-- On a fresh buffer nothing is left over. -/
theorem C05_message_roundtrip_fresh (rt : Runtime) (b0 : Buffer) (hb : Fresh b0) (is : List Item)
    (hf : ∀ i ∈ is, i.FitsV2) (qs : List Req) (hq : MatchesAll qs is) :
    ∃ b bs, encodeItems rt b0 is = .ok b ∧ b.Bytes = .ok bs ∧
      readAll qs bs = .ok ([], is.map .value) := by
  obtain ⟨b, he, ha⟩ := encodeItems_spec rt is b0 hb.usable hf
  refine ⟨b, wireAll is, he, ?_, ?_⟩
  · rw [ha.usable.bytes, ha.written, hb.written, List.nil_append]
  · have := readAll_wire hq (fun i hi => (hf i hi).fits) []
    simpa using this

/-- Non-vacuity: a message with a map header, its entry and an error. -/
example : MatchesAll [.map 5 10, .string, .uint32, .bytes [1, 2, 3], .error]
    [.map 1 5 10, .string [104, 105], .uint32 300, .bytes [0xff], .error []] ∧
    ∀ i ∈ ([.map 1 5 10, .string [104, 105], .uint32 300, .bytes [0xff], .error []] : List Item),
      i.FitsV2 :=
  ⟨.cons (.map ..) (.cons (.string _) (.cons (.uint32 _) (.cons (.bytes ..) (.cons (.error _) .nil)))),
   by decide⟩

/-! ## C06: wire format -/

/-- Every encoder call on every usable buffer, with every allocator, appends exactly the bytes
prescribed by the wire format. -/
theorem C06_encoder_emits_wire (rt : Runtime) (b0 : Buffer) (hb : b0.Usable) (i : Item)
    (hf : i.FitsV2) :
    ∃ b before, b0.Bytes = .ok before ∧ encodeItem rt b0 i = .ok b ∧
      b.Bytes = .ok (before ++ wire i) := by
  obtain ⟨b, he, ha⟩ := encodeItem_spec rt b0 i hb hf
  exact ⟨b, _, hb.bytes, he, by rw [ha.usable.bytes, ha.written]⟩

/-- Outside `FitsV2`: exactly what is appended for payloads of any length whatsoever. -/
theorem C06_encoder_exact_any_length (rt : Runtime) (b0 : Buffer) (hb : b0.Usable) (i : Item) :
    ∃ b before, b0.Bytes = .ok before ∧ encodeItem rt b0 i = .ok b ∧
      b.Bytes = .ok (before ++ wireV2 i) := by
  obtain ⟨b, he, ha⟩ := encodeItem_exact rt b0 i hb
  exact ⟨b, _, hb.bytes, he, by rw [ha.usable.bytes, ha.written]⟩

/-- Test (not a proof): sample encodings of the format. -/
example : wire (.uint32 300) = [10, 0xac, 0x02] ∧ wire (.int32 (-2)) = [12, 3] ∧
    wire (.string [104, 105]) = [5, 10, 2, 104, 105] ∧ wire (.float32 0x3f800000) = [14, 0x3f, 0x80, 0, 0] ∧
    wire (.map 2 5 10) = [2, 5, 10, 10, 2] ∧ wire (.error [1]) = [6, 5, 10, 1, 1] := by
  simp [wire, size32, leb128, zigzag, bigEndian, kUint32, kInt32, kString, kFloat32, kMap, kError]

example : ({ arr := [1, 2, 3, 4], len := 4, offset := 2 } : Buffer).Usable := by decide

end Props
