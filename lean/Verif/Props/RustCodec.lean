import Verif.Rust.Safe
import Verif.Props.V1Codec

/-!
# Properties of the Rust codec (C31 - C34, C52 - C54)

`Rust.encodeItem i c` is one call `Encoder::encode_*` and `Rust.readItem std q c` one call
`Decoder::decode_*` on the cursor `c = ⟨vec, pos⟩`; the result is the outcome (`Ok`, `Err` or panic) and the
cursor afterwards.  `Rust.readAll` makes several calls, stopping at the first error.
-/

namespace Props

open Spec
open Rust (Cursor Std Out DecodingError)
open GoV2 (Runtime)

inductive MatchesAllRs : List Rust.Req → List Item → Prop
  | nil : MatchesAllRs [] []
  | cons {q i qs is} : Rust.Matches q i → MatchesAllRs qs is → MatchesAllRs (q :: qs) (i :: is)

theorem rs_reads (std : Std) {q : Rust.Req} {i : Item} (hm : Rust.Matches q i) (hu : Rust.Item.Utf8Ok i) {p t : Bytes}
    (ha : Accepts p i) {c : Cursor} (hr : c.rest = p ++ t) : Rust.readItem std q c = (.ok i, c.adv p.length) :=
  (Rust.readItem_value_iff ..).mpr (.inl ⟨p, t, hm, ha, hu, hr, rfl⟩)

theorem rs_readsAll (std : Std) {qs : List Rust.Req} {is : List Item} (hm : MatchesAllRs qs is)
    (hu : ∀ i ∈ is, Rust.Item.Utf8Ok i) (hf : ∀ i ∈ is, i.Fits) : ∀ (c : Cursor) (t : Bytes), c.rest = wireAll is ++ t →
      Rust.readAll std qs c = (.ok is, c.adv (wireAll is).length) := by
  induction hm with
  | nil => intro c t _; rfl
  | @cons q i qs is h _ ih =>
    intro c t hr
    simp only [wireAll, List.flatMap_cons, List.append_assoc] at hr
    have h1 := rs_reads std h (hu i (by simp)) (wire_accepts (hf i (by simp))) hr
    have h2 := ih (fun j hj => hu j (by simp [hj])) (fun j hj => hf j (by simp [hj])) (c.adv (wire i).length) t
      (by rw [Rust.adv_rest, hr, List.drop_left]; rfl)
    simp only [Rust.readAll]
    rw [Rust.bind_ok h1, Rust.bind_ok h2, Rust.pure_apply, Rust.adv_adv]
    simp [wireAll]

/-! ## C31 -/

/-- With the cursor at the end of its vector, an encoder call appends the wire encoding and stays at the end. -/
theorem C31_appends_wire (i : Item) (hk : Rust.Item.KindsOk i) (hf : i.Fits) (vec : Bytes) :
    Rust.encodeItem i ⟨vec, vec.length⟩ = (.ok (), ⟨vec ++ wire i, (vec ++ wire i).length⟩) := by
  rw [Rust.encodeItem_writes i hk hf, Rust.write_all]
  have : wire i ≠ [] := by cases i <;> simp [wire]
  rw [if_neg this]
  simp [Rust.writeAt]

/-- The same for any sequence of calls. -/
theorem C31_message_appends_wire (is : List Item) (hk : ∀ i ∈ is, Rust.Item.KindsOk i) (hf : ∀ i ∈ is, i.Fits)
    (vec : Bytes) :
    Rust.encodeItems is ⟨vec, vec.length⟩ = (.ok (), ⟨vec ++ wireAll is, (vec ++ wireAll is).length⟩) := by
  rw [Rust.encodeItems_writes is hk hf, Rust.write_all]
  by_cases h : wireAll is = []
  · rw [if_pos h]; simp [h]
  · rw [if_neg h]; simp [Rust.writeAt]

/-- Anywhere in the vector: the bytes before the position stay, the wire encoding follows, and what it
does not reach is kept. -/
theorem C31_overwrites_in_place (i : Item) (hk : Rust.Item.KindsOk i) (hf : i.Fits) (before old after : Bytes)
    (hl : old.length = (wire i).length) :
    Rust.encodeItem i ⟨before ++ (old ++ after), before.length⟩ =
      (.ok (), ⟨before ++ (wire i ++ after), before.length + (wire i).length⟩) := by
  rw [Rust.encodeItem_writes i hk hf, Rust.write_all]
  have : wire i ≠ [] := by cases i <;> simp [wire]
  rw [if_neg this]
  simp only [Rust.writeAt, List.take_left, Prod.mk.injEq, Cursor.mk.injEq, true_and]
  refine ⟨?_, trivial⟩
  have h1 : before.length - (before ++ (old ++ after)).length = 0 := by simp
  have h2 : (before ++ (old ++ after)).drop (before.length + (wire i).length) = after := by
    rw [← hl, ← List.append_assoc, show before.length + old.length = (before ++ old).length by simp, List.drop_left]
  rw [h1, h2]; simp

/-- Rust and Go v2 produce the same bytes (v2 byte slices below 2^28, see C04). -/
theorem C31_same_bytes_as_go (rt : Runtime) (b2 : GoV2.Buffer) (hb2 : GoV2.Fresh b2) (is : List Item)
    (hk : ∀ i ∈ is, Rust.Item.KindsOk i) (hf : ∀ i ∈ is, i.FitsV2) :
    ∃ c1 c2, Rust.encodeItems is ⟨[], 0⟩ = (.ok (), c1) ∧ GoV2.encodeItems rt b2 is = .ok c2 ∧ c2.Bytes = .ok c1.vec := by
  obtain ⟨c2, h2, a2⟩ := GoV2.encodeItems_spec rt is b2 hb2.usable hf
  refine ⟨_, c2, C31_message_appends_wire is hk (fun i hi => (hf i hi).fits) [], h2, ?_⟩
  rw [a2.usable.bytes, a2.written, hb2.written]

/-- Sizes are `usize` but the wire holds 32 bits: `encode_array` and `encode_map` silently drop the rest. -/
theorem C31_size_truncated (size : Nat) (k v : Rust.Kind) (vec : Bytes) :
    Rust.encode_array size k ⟨vec, vec.length⟩ = Rust.encode_array (size % 2 ^ 32) k ⟨vec, vec.length⟩ ∧
    Rust.encode_map size k v ⟨vec, vec.length⟩ = Rust.encode_map (size % 2 ^ 32) k v ⟨vec, vec.length⟩ := by
  have : BitVec.ofNat 32 size = BitVec.ofNat 32 (size % 2 ^ 32) := by
    apply BitVec.eq_of_toNat_eq; simp
  constructor
  · simp only [Rust.encode_array]; rw [this]
  · simp only [Rust.encode_map]; rw [this]

example : Rust.Item.KindsOk (.map 300 5 10) ∧ (Item.map 300 5 10).Fits ∧
    Rust.encodeItem (.map 300 5 10) ⟨[7], 1⟩ = (.ok (), ⟨[7, 2, 5, 10, 10, 172, 2], 7⟩) := by
  refine ⟨by decide, trivial, ?_⟩
  have := C31_appends_wire (.map 300 5 10) (by decide) trivial [7]
  rw [show ([7] : Bytes).length = 1 from rfl] at this
  rw [this]
  simp [wire, size32, leb128]
  decide

/-! ## C32 -/

/-- Every message in wire format with well-formed UTF-8 is read back, from any position and whatever
follows it. -/
theorem C32_reads_wire (std : Std) (qs : List Rust.Req) (is : List Item) (hm : MatchesAllRs qs is)
    (hu : ∀ i ∈ is, Rust.Item.Utf8Ok i) (hf : ∀ i ∈ is, i.Fits) (before after : Bytes) :
    Rust.readAll std qs ⟨before ++ (wireAll is ++ after), before.length⟩ =
      (.ok is, ⟨before ++ (wireAll is ++ after), before.length + (wireAll is).length⟩) :=
  rs_readsAll std hm hu hf _ after (by simp [Cursor.rest])

/-- Rust to Rust. -/
theorem C32_rust_roundtrip (std : Std) (qs : List Rust.Req) (is : List Item) (hm : MatchesAllRs qs is)
    (hk : ∀ i ∈ is, Rust.Item.KindsOk i) (hu : ∀ i ∈ is, Rust.Item.Utf8Ok i) (hf : ∀ i ∈ is, i.Fits) :
    ∃ c, Rust.encodeItems is ⟨[], 0⟩ = (.ok (), c) ∧
      Rust.readAll std qs ⟨c.vec, 0⟩ = (.ok is, ⟨c.vec, c.vec.length⟩) := by
  refine ⟨_, C31_message_appends_wire is hk hf [], ?_⟩
  have := C32_reads_wire std qs is hm hu hf [] []
  simpa using this

/-- Go v2 to Rust. -/
theorem C32_go_v2_to_rust (std : Std) (rt : Runtime) (b0 : GoV2.Buffer) (hb : GoV2.Fresh b0) (qs : List Rust.Req)
    (is : List Item) (hm : MatchesAllRs qs is) (hu : ∀ i ∈ is, Rust.Item.Utf8Ok i) (hf : ∀ i ∈ is, i.FitsV2) :
    ∃ c bs, GoV2.encodeItems rt b0 is = .ok c ∧ c.Bytes = .ok bs ∧
      Rust.readAll std qs ⟨bs, 0⟩ = (.ok is, ⟨bs, bs.length⟩) := by
  obtain ⟨c, h2, a2⟩ := GoV2.encodeItems_spec rt is b0 hb.usable hf
  refine ⟨c, _, h2, a2.usable.bytes, ?_⟩
  have := C32_reads_wire std qs is hm hu (fun i hi => (hf i hi).fits) [] []
  rw [a2.written, hb.written]; simpa using this

/-- Go v1 to Rust. -/
theorem C32_go_v1_to_rust (std : Std) (rt : Runtime) (qs : List Rust.Req)
    (is : List Item) (hm : MatchesAllRs qs is) (hu : ∀ i ∈ is, Rust.Item.Utf8Ok i) (hf : ∀ i ∈ is, i.Fits) :
    ∃ c, GoV1.encodeItems rt GoV1.NewBuffer is = .ok c ∧
      Rust.readAll std qs ⟨c.Bytes, 0⟩ = (.ok is, ⟨c.Bytes, c.Bytes.length⟩) := by
  obtain ⟨c, h1, a1⟩ := GoV1.encodeItems_spec rt is _ GoV1.NewBuffer_ok.1 hf
  refine ⟨c, h1, ?_⟩
  have := C32_reads_wire std qs is hm hu hf [] []
  rw [a1.2.1, GoV1.NewBuffer_ok.2]; simpa using this

/-- Rust to Go v2. -/
theorem C32_rust_to_go_v2 (is : List Item) (hk : ∀ i ∈ is, Rust.Item.KindsOk i) (hf : ∀ i ∈ is, i.Fits)
    (qs : List GoV2.Req) (hm : GoV2.MatchesAll qs is) :
    ∃ c, Rust.encodeItems is ⟨[], 0⟩ = (.ok (), c) ∧ GoV2.readAll qs c.vec = .ok ([], is.map .value) := by
  refine ⟨_, C31_message_appends_wire is hk hf [], ?_⟩
  have := GoV2.readAll_wire hm hf []
  simpa using this

/-- A string that is not UTF-8, which Go encodes without complaint, is rejected by Rust. -/
theorem C32_invalid_utf8_rejected (std : Std) (v : Bytes) (hv : utf8 v = false) (hf : v.length < 2 ^ 32)
    (c c' : Cursor) (i : Item) (t : Bytes) (hr : c.rest = wire (.string v) ++ t) :
    Rust.readItem std .string c ≠ (.ok i, c') := by
  intro h
  rcases (Rust.readItem_value_iff ..).mp h with ⟨p, t', hm, ha, hu, hr', _⟩ | ⟨h, _⟩
  · have := accepts_unique (wire_accepts (i := .string v) hf) ha t t' (by rw [← hr, ← hr'])
    obtain ⟨h1, rfl, _⟩ := this
    simp only [Rust.Item.Utf8Ok, hv] at hu; simp at hu
  · simp at h

example : MatchesAllRs [.array .String, .string, .i64, .none] [.slice 1 5, .string [0xC3, 0xA9], .int64 (-5), .nil] ∧
    utf8 [0xC3, 0xA9] = true ∧ utf8 [0xC3, 0x28] = false ∧ utf8 [0xED, 0xA0, 0x80] = false := by
  refine ⟨.cons (.array 1 .String) (.cons (.string _) (.cons (.i64 _) (.cons .none .nil))), ?_⟩
  decide

/-! ## C33 -/

/-- No decoder call panics, on any bytes, at any position (also past the end), with any version of the
standard library. -/
theorem C33_never_panics (std : Std) (q : Rust.Req) (c : Cursor) : (Rust.readItem std q c).1 ≠ .panic :=
  (Rust.readItem_good std q c).1

/-- Nor does any sequence of calls. -/
theorem C33_sequence_never_panics (std : Std) (qs : List Rust.Req) (c : Cursor) : (Rust.readAll std qs c).1 ≠ .panic := by
  induction qs generalizing c with
  | nil => simp [Rust.readAll, Rust.pure_apply]
  | cons q qs ih =>
    refine Rust.bind_noPanic (C33_never_panics std q c) (fun a c1 _ => ?_)
    exact Rust.map_noPanic (ih c1)

example : Rust.readItem ⟨true⟩ .u64 ⟨[11, 0x80, 0x80], 0⟩ = (.err .InvalidU64, ⟨[11, 0x80, 0x80], 3⟩) ∧
    Rust.readItem ⟨false⟩ .bytes ⟨[4, 10, 5, 1], 0⟩ = (.err .InvalidBytes, ⟨[4, 10, 5, 1], 3⟩) := by
  constructor <;> rfl

/-! ## C34 -/

/-- On a wrong kind byte every call except `decode_array`, `decode_map` and `decode_error` of a lone byte
fails and leaves the cursor exactly as it was.
Missing: those three, for which the claim is false. -/
theorem C34_mismatch_restores_partial (std : Std) (q : Rust.Req) (c : Cursor) (b : Byte) (t : Bytes)
    (hr : c.rest = b :: t) (hb : b ≠ q.kind) (ha : ∀ k, q ≠ .array k) (hm : ∀ k v, q ≠ .map k v)
    (he : q = .error → t ≠ []) : ∃ e, Rust.readItem std q c = (.err e, c) :=
  ⟨_, Rust.readItem_mismatch std q c b t hr hb ha hm he⟩

/-- `decode_array` never restores the position. -/
theorem C34_false_array (std : Std) (k : Rust.Kind) (c : Cursor) (b : Byte) (t : Bytes) (hr : c.rest = b :: t)
    (hb : b ≠ kSlice) : ∃ e, Rust.readItem std (.array k) c = (.err e, c.adv 1) := by
  obtain ⟨e, h⟩ := Rust.decode_array_mismatch std k c b t hr hb
  exact ⟨e, Rust.mapErr h⟩

/-- `decode_map` never restores the position either: it ends up to two bytes further on. -/
theorem C34_false_map (std : Std) (k v : Rust.Kind) (c : Cursor) (b : Byte) (t : Bytes) (hr : c.rest = b :: t)
    (hb : b ≠ kMap) : Rust.readItem std (.map k v) c = (.err .InvalidMap, c.adv (min 2 c.rest.length)) :=
  Rust.mapErr (Rust.decode_map_mismatch std k v c b t hr hb)

/-- `decode_error` does not restore the position when a lone byte is left. -/
theorem C34_false_error (std : Std) (c : Cursor) (b : Byte) (hr : c.rest = [b]) :
    Rust.readItem std .error c = (.err .InvalidError, c.adv 1) := by
  have hr1 : (c.adv 1).rest = [] := by rw [Rust.adv_rest, hr]; rfl
  have : Rust.decode_error std c = (.err .InvalidError, (c.adv 1).atEnd std) := by
    unfold Rust.decode_error
    rw [Rust.bind_ok (Rust.read_u8_or_cons std _ hr), Rust.bind_err (Rust.read_u8_or_nil std _ hr1)]
  rw [show Rust.readItem std .error c = (Rust.decode_error std >>= fun a => (pure (.error a) : Rust.Dec Item)) c from rfl,
    Rust.mapErr this]
  congr 1
  have hl := congrArg List.length hr
  simp only [Cursor.rest, List.length_drop, List.length_cons, List.length_nil] at hl
  have h1 : (c.adv 1).pos = c.vec.length := by simp only [Cursor.adv]; omega
  simp only [Rust.Cursor.atEnd, h1]
  simp [Cursor.adv] at h1 ⊢; omega

/-- So a reader that probes for an array and falls back to something else loses a byte. -/
theorem C34_probe_loses_a_byte (std : Std) :
    (Rust.readItem std (.array .Bool) ⟨[8, 7, 1, 5], 0⟩).2 = ⟨[8, 7, 1, 5], 1⟩ ∧
    Rust.readItem std .u8 ⟨[8, 7, 1, 5], 0⟩ = (.ok (.uint8 7), ⟨[8, 7, 1, 5], 2⟩) ∧
    Rust.readItem std .u8 ⟨[8, 7, 1, 5], 1⟩ = (.err .InvalidU8, ⟨[8, 7, 1, 5], 1⟩) := by
  refine ⟨?_, ?_, ?_⟩ <;> rfl

example : ∃ b t, (⟨[9, 1], 0⟩ : Cursor).rest = b :: t ∧ b ≠ Rust.Req.kind .string := ⟨9, [1], rfl, by decide⟩

/-! ## C52 -/

/-- The same call on the Rust and on the Go v2 decoder. -/
inductive SameRs : Rust.Req → GoV2.Req → Prop
  | none : SameRs .none .nil
  | array (k) : SameRs (.array k) (.slice k.toU8)
  | map (k v) : SameRs (.map k v) (.map k.toU8 v.toU8)
  | bytes (ret) : SameRs .bytes (.bytes ret)
  | string : SameRs .string .string
  | error : SameRs .error .error
  | bool : SameRs .bool .bool
  | u8 : SameRs .u8 .uint8
  | u16 : SameRs .u16 .uint16
  | u32 : SameRs .u32 .uint32
  | u64 : SameRs .u64 .uint64
  | i32 : SameRs .i32 .int32
  | i64 : SameRs .i64 .int64
  | f32 : SameRs .f32 .float32
  | f64 : SameRs .f64 .float64

theorem sameRs_matches {q : Rust.Req} {q2 : GoV2.Req} (h : SameRs q q2) (i : Item) :
    Rust.Matches q i ↔ GoV2.Matches q2 i := by
  cases h <;> (constructor <;> (intro h; cases h; constructor))

/-- Whatever Rust decodes, except a bool byte above 1, Go v2 decodes to the same value, consuming the same
bytes. -/
theorem C52_rust_success_is_go_success (std : Std) {q : Rust.Req} {q2 : GoV2.Req} (hs : SameRs q q2) (input : Bytes)
    (i : Item) (c' : Cursor) (h : Rust.readItem std q ⟨input, 0⟩ = (.ok i, c'))
    (hb : q = .bool → ∀ b t, input = kBool :: b :: t → b.toNat ≤ 1) :
    GoV2.readItem q2 input = .ok (input.drop c'.pos, .value i) := by
  rcases (Rust.readItem_value_iff ..).mp h with ⟨p, t, hm, ha, _, hr, rfl⟩ | ⟨hq, _, b, t, h2, hr, _⟩
  · simp only [Cursor.rest, List.drop_zero] at hr
    refine (GoV2.readItem_value_iff ..).mpr (.inl ⟨(sameRs_matches hs i).mp hm, p, ha, ?_⟩)
    rw [hr]; simp [Cursor.adv]
  · simp only [Cursor.rest, List.drop_zero] at hr
    have := hb hq b t hr; omega

/-- Whatever Go v2 decodes, except strings that are not UTF-8 and byte slices whose length field has five
continuation bytes, Rust decodes to the same value, consuming the same bytes. -/
theorem C52_go_success_is_rust_success (std : Std) {q : Rust.Req} {q2 : GoV2.Req} (hs : SameRs q q2) (input r : Bytes)
    (i : Item) (h : GoV2.readItem q2 input = .ok (r, .value i)) (hu : Rust.Item.Utf8Ok i)
    (hb : ∀ cs, q = .bytes → input = kBytes :: kUint32 :: cs → ¬ Long 5 cs) :
    Rust.readItem std q ⟨input, 0⟩ = (.ok i, ⟨input, input.length - r.length⟩) := by
  rcases (GoV2.readItem_value_iff ..).mp h with ⟨hm, p, ha, rfl⟩ | ⟨ret, cs, rfl, _, hi, hl, _⟩
  · rw [rs_reads std ((sameRs_matches hs i).mpr hm) hu ha (c := ⟨p ++ r, 0⟩) (t := r) rfl]
    simp [Cursor.adv]
  · cases hs
    exact absurd hl (hb cs rfl hi)

/-- The three exceptions are real. -/
theorem C52_exceptions (std : Std) :
    (Rust.readItem std .bool ⟨[7, 2], 0⟩ = (.ok (.bool false), ⟨[7, 2], 2⟩) ∧
      GoV2.readItem .bool [7, 2] = .ok ([7, 2], .error .InvalidBool)) ∧
    (GoV2.readItem .string [5, 10, 1, 0xFF] = .ok ([], .value (.string [0xFF])) ∧
      (Rust.readItem std .string ⟨[5, 10, 1, 0xFF], 0⟩).1 = .err .InvalidString) ∧
    (GoV2.readItem (.bytes []) [4, 10, 128, 128, 128, 128, 128] =
        .ok ([4, 10, 128, 128, 128, 128, 128], .value (.bytes [])) ∧
      (Rust.readItem std .bytes ⟨[4, 10, 128, 128, 128, 128, 128], 0⟩).1 = .err .InvalidU32) := by
  refine ⟨⟨rfl, by decide +kernel⟩, ⟨by decide +kernel, rfl⟩, by decide +kernel, rfl⟩

example : SameRs (.map .String .U32) (.map 5 10) := .map .String .U32

/-! ## C53 -/

/-- The error a caller would expect from each call: the one named after it. -/
def namedError : Rust.Req → DecodingError
  | .none => .InvalidNone
  | .array _ => .InvalidArray
  | .map _ _ => .InvalidMap
  | .bytes => .InvalidBytes
  | .string => .InvalidString
  | .error => .InvalidError
  | .bool => .InvalidBool
  | .u8 => .InvalidU8
  | .u16 => .InvalidU16
  | .u32 => .InvalidU32
  | .u64 => .InvalidU64
  | .i32 => .InvalidI32
  | .i64 => .InvalidI64
  | .f32 => .InvalidF32
  | .f64 => .InvalidF64

/-- A wrong kind byte is reported with the error named after the call, for every call but `decode_array`,
`decode_u16` and `decode_u64`.  Missing: those three, for which the claim is false. -/
theorem C53_mismatch_error_partial (std : Std) (q : Rust.Req) (c : Cursor) (b : Byte) (t : Bytes) (hr : c.rest = b :: t)
    (hb : b ≠ q.kind) (ha : ∀ k, q ≠ .array k) (h16 : q ≠ .u16) (h64 : q ≠ .u64) :
    (Rust.readItem std q c).1 = .err (namedError q) := by
  by_cases hm : ∃ k v, q = .map k v
  · obtain ⟨k, v, rfl⟩ := hm
    rw [C34_false_map std k v c b t hr hb]; rfl
  · by_cases he : q = .error ∧ t = []
    · obtain ⟨rfl, rfl⟩ := he
      rw [C34_false_error std c b hr]; rfl
    · rw [Rust.readItem_mismatch std q c b t hr hb ha (fun k v h => hm ⟨k, v, h⟩) (fun h h2 => he ⟨h, h2⟩)]
      cases q <;> first | rfl | exact absurd rfl (ha _) | exact absurd rfl h16 | exact absurd rfl h64

/-- `decode_u16` and `decode_u64` always report a wrong kind as `InvalidU32`. -/
theorem C53_false_u16_u64 (std : Std) (c : Cursor) (b : Byte) (t : Bytes) (hr : c.rest = b :: t) :
    (b ≠ kUint16 → (Rust.readItem std .u16 c).1 = .err .InvalidU32) ∧
    (b ≠ kUint64 → (Rust.readItem std .u64 c).1 = .err .InvalidU32) := by
  constructor
  · intro h; rw [Rust.readItem_mismatch std .u16 c b t hr h (by simp) (by simp) (by simp)]; rfl
  · intro h; rw [Rust.readItem_mismatch std .u64 c b t hr h (by simp) (by simp) (by simp)]; rfl

/-- `decode_array` reports a wrong kind as `InvalidU32` unless the input is a single byte. -/
theorem C53_false_array (std : Std) (k : Rust.Kind) (c : Cursor) (b b2 : Byte) (t : Bytes) (hr : c.rest = b :: b2 :: t)
    (hb : b ≠ kSlice) : (Rust.readItem std (.array k) c).1 = .err .InvalidU32 := by
  have hr1 : (c.adv 1).rest = b2 :: t := by rw [Rust.adv_rest, hr]; rfl
  have : Rust.decode_array std k c = (.err .InvalidU32, c.adv 1) := by
    unfold Rust.decode_array
    rw [Rust.bind_ok (Rust.read_u8_or_cons std _ hr), Rust.bind_ok (Rust.read_u8_or_cons std _ hr1),
      if_neg (fun h => absurd h.1 (show ¬ b = Rust.Kind.Array.toU8 from hb)), Rust.adv_adv, Rust.giveUp']
  rw [show Rust.readItem std (.array k) c =
    (Rust.decode_array std k >>= fun n => (pure (.slice (BitVec.ofNat 32 n) k.toU8) : Rust.Dec Item)) c from rfl,
    Rust.mapErr this]

/-! ## C54 -/

/-- Decoding never changes the bytes, and from a position inside the input never moves back or past the end. -/
theorem C54_cursor_discipline (std : Std) (q : Rust.Req) (c : Cursor) (hc : c.pos ≤ c.vec.length) :
    (Rust.readItem std q c).2.vec = c.vec ∧ c.pos ≤ (Rust.readItem std q c).2.pos ∧
      (Rust.readItem std q c).2.pos ≤ c.vec.length :=
  ⟨(Rust.readItem_good std q c).2.1, (Rust.readItem_good std q c).2.2 hc⟩

/-- Every successful call consumes at least one byte. -/
theorem C54_success_progress (std : Std) (q : Rust.Req) (c c' : Cursor) (i : Item)
    (h : Rust.readItem std q c = (.ok i, c')) : c.pos < c'.pos := by
  rcases (Rust.readItem_value_iff ..).mp h with ⟨p, t, _, ha, _, _, rfl⟩ | ⟨_, _, b, t, _, _, rfl⟩
  · have := ha.pos; simp only [Cursor.adv]; omega
  · simp only [Cursor.adv]; omega

/-- A successful call depends only on the bytes it consumes: the same bytes in any other input, at any
position, give the same value. -/
theorem C54_success_is_local (std : Std) (q : Rust.Req) (c c' : Cursor) (i : Item)
    (h : Rust.readItem std q c = (.ok i, c')) (d : Cursor) (t : Bytes)
    (hd : d.rest = c.rest.take (c'.pos - c.pos) ++ t) :
    Rust.readItem std q d = (.ok i, d.adv (c'.pos - c.pos)) := by
  rcases (Rust.readItem_value_iff ..).mp h with ⟨p, t', hm, ha, hu, hr, rfl⟩ | ⟨rfl, rfl, b, t', h2, hr, rfl⟩
  · have : (c.adv p.length).pos - c.pos = p.length := by simp [Cursor.adv]
    rw [this, hr, List.take_left] at hd
    rw [this]
    exact rs_reads std hm hu ha hd
  · have : (c.adv 2).pos - c.pos = 2 := by simp [Cursor.adv]
    rw [this, hr] at hd
    rw [this]
    exact (Rust.readItem_value_iff ..).mpr (.inr ⟨rfl, rfl, b, t, h2, hd, rfl⟩)

end Props
