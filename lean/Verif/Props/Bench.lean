import Verif.Bench.Code
import Verif.Gen.GoGen
import Verif.Props.V2Decode

/-!
# C72: the generated code checked in at v2/benchmarks

The file is transcribed on its own (Bench/Code.lean); the last theorems say that the model of the generator (Gen/GoGen.lean)
describes the same program for the schema v2/benchmarks/bench.proto.
-/

namespace Props

open Spec GoV2 Bench

set_option linter.unusedSimpArgs false

theorem notNil_wire {i : Item} (h : i ≠ .nil) (t : Bytes) : decodeNil (wire i ++ t) = .ok (wire i ++ t, false) := by
  rw [decodeNil_spec]
  cases i <;> simp [wire, kNil, kMap, kSlice, kBytes, kString, kError, kBool, kUint8, kUint16, kUint32,
    kUint64, kInt32, kInt64, kFloat32, kFloat64] at h ⊢

/-- `decodeNil` never panics. -/
theorem decodeNil_total (b : Bytes) : ∃ r v, decodeNil b = .ok (r, v) := by
  rw [decodeNil_spec]
  cases b with
  | nil => exact ⟨_, _, rfl⟩
  | cons c r => by_cases h : c = kNil <;> simp [h]

/-- `BytesData`: encoding appends to whatever the buffer holds; decoding into any struct gives the value back, whatever follows in
the input. -/
theorem C72_bytes_roundtrip (rt : Runtime) (b0 : Buffer) (hb : b0.Usable) (x y : BytesData) (hx : x.Bytes.length < 2 ^ 28) (t : _root_.Bytes) :
    ∃ b before bs, b0.Bytes = .ok before ∧ BytesData.Encode rt (some x) b0 = .ok b ∧ b.Bytes = .ok (before ++ bs) ∧
      BytesData.Decode (some y) (bs ++ t) = .ok (some x, none) := by
  obtain ⟨b, he, ha⟩ := encodeItem_spec rt b0 (.bytes x.Bytes) hb (show x.Bytes.length < 2 ^ 28 from hx)
  refine ⟨b, _, wire (.bytes x.Bytes), hb.bytes, he, by rw [ha.usable.bytes, ha.written], ?_⟩
  have hr := read_wire (Matches.bytes y.Bytes x.Bytes) (by show x.Bytes.length < 2 ^ 32; omega) t
  simp only [BytesData.Decode, BytesData.decode, notNil_wire (i := .bytes x.Bytes) (by simp) t, Go.bind_ok]
  cases h : decodeBytes (wire (.bytes x.Bytes) ++ t) y.Bytes with
  | panic => simp [readItem, h] at hr
  | ok z =>
    obtain ⟨r, v, e⟩ := z
    cases e <;> simp [readItem, h, Outcome.ofErr] at hr
    simp [hr]

/-- A decode that reports an error reports that of the field and has set the field to zero; an encoded nil message
leaves the struct alone. -/
theorem C72_bytes_failure (x y : BytesData) (b : _root_.Bytes) (e : Fault) (h : BytesData.Decode (some x) b = .ok (some y, some e)) :
    e = .lib .InvalidBytes ∧ y = NewBytesData := by
  obtain ⟨r, v, hn⟩ := decodeNil_total b
  simp only [BytesData.Decode, BytesData.decode, hn, Go.bind_ok] at h
  cases v <;> simp at h
  cases hd : decodeBytes r x.Bytes with
  | panic => simp [hd] at h
  | ok z =>
    obtain ⟨r', v, e'⟩ := z
    cases e' with
    | none => simp [hd] at h
    | some e' =>
      simp [hd] at h
      obtain ⟨rfl, rfl⟩ := h
      have h1 := C15_own_error (.bytes x.Bytes) r r' (.error e') (by simp [readItem, hd, Outcome.ofErr]) (by simp)
      have h2 := C15_zero_value_on_error r r' e'
      simp only [Req.invalid, Outcome.error.injEq] at h1
      subst h1
      refine ⟨rfl, ?_⟩
      simp only [NewBytesData]
      congr 1
      first
        | exact h2.2.2.1 _ _ hd
        | exact h2.2.2.2.2.2.2.2.2.1 _ hd
        | exact h2.2.2.2.2.2.2.2.2.2.1 _ hd
        | exact h2.2.2.2.2.2.2.2.2.2.2.1 _ hd
        | exact h2.2.2.2.2.2.2.2.2.2.2.2.1 _ hd

/-- `I32Data`: encoding appends to whatever the buffer holds; decoding into any struct gives the value back, whatever follows in
the input. -/
theorem C72_int32_roundtrip (rt : Runtime) (b0 : Buffer) (hb : b0.Usable) (x y : I32Data) (t : _root_.Bytes) :
    ∃ b before bs, b0.Bytes = .ok before ∧ I32Data.Encode rt (some x) b0 = .ok b ∧ b.Bytes = .ok (before ++ bs) ∧
      I32Data.Decode (some y) (bs ++ t) = .ok (some x, none) := by
  obtain ⟨b, he, ha⟩ := encodeItem_spec rt b0 (.int32 x.I32) hb trivial
  refine ⟨b, _, wire (.int32 x.I32), hb.bytes, he, by rw [ha.usable.bytes, ha.written], ?_⟩
  have hr := read_wire (Matches.int32 x.I32) trivial t
  simp only [I32Data.Decode, I32Data.decode, notNil_wire (i := .int32 x.I32) (by simp) t, Go.bind_ok]
  cases h : decodeInt32 (wire (.int32 x.I32) ++ t) with
  | panic => simp [readItem, h] at hr
  | ok z =>
    obtain ⟨r, v, e⟩ := z
    cases e <;> simp [readItem, h, Outcome.ofErr] at hr
    simp [hr]

/-- A decode that reports an error reports that of the field and has set the field to zero; an encoded nil message
leaves the struct alone. -/
theorem C72_int32_failure (x y : I32Data) (b : _root_.Bytes) (e : Fault) (h : I32Data.Decode (some x) b = .ok (some y, some e)) :
    e = .lib .InvalidInt32 ∧ y = NewI32Data := by
  obtain ⟨r, v, hn⟩ := decodeNil_total b
  simp only [I32Data.Decode, I32Data.decode, hn, Go.bind_ok] at h
  cases v <;> simp at h
  cases hd : decodeInt32 r with
  | panic => simp [hd] at h
  | ok z =>
    obtain ⟨r', v, e'⟩ := z
    cases e' with
    | none => simp [hd] at h
    | some e' =>
      simp [hd] at h
      obtain ⟨rfl, rfl⟩ := h
      have h1 := C15_own_error (.int32) r r' (.error e') (by simp [readItem, hd, Outcome.ofErr]) (by simp)
      have h2 := C15_zero_value_on_error r r' e'
      simp only [Req.invalid, Outcome.error.injEq] at h1
      subst h1
      refine ⟨rfl, ?_⟩
      simp only [NewI32Data]
      congr 1
      first
        | exact h2.2.2.1 _ _ hd
        | exact h2.2.2.2.2.2.2.2.2.1 _ hd
        | exact h2.2.2.2.2.2.2.2.2.2.1 _ hd
        | exact h2.2.2.2.2.2.2.2.2.2.2.1 _ hd
        | exact h2.2.2.2.2.2.2.2.2.2.2.2.1 _ hd

/-- `U32Data`: encoding appends to whatever the buffer holds; decoding into any struct gives the value back, whatever follows in
the input. -/
theorem C72_uint32_roundtrip (rt : Runtime) (b0 : Buffer) (hb : b0.Usable) (x y : U32Data) (t : _root_.Bytes) :
    ∃ b before bs, b0.Bytes = .ok before ∧ U32Data.Encode rt (some x) b0 = .ok b ∧ b.Bytes = .ok (before ++ bs) ∧
      U32Data.Decode (some y) (bs ++ t) = .ok (some x, none) := by
  obtain ⟨b, he, ha⟩ := encodeItem_spec rt b0 (.uint32 x.U32) hb trivial
  refine ⟨b, _, wire (.uint32 x.U32), hb.bytes, he, by rw [ha.usable.bytes, ha.written], ?_⟩
  have hr := read_wire (Matches.uint32 x.U32) trivial t
  simp only [U32Data.Decode, U32Data.decode, notNil_wire (i := .uint32 x.U32) (by simp) t, Go.bind_ok]
  cases h : decodeUint32 (wire (.uint32 x.U32) ++ t) with
  | panic => simp [readItem, h] at hr
  | ok z =>
    obtain ⟨r, v, e⟩ := z
    cases e <;> simp [readItem, h, Outcome.ofErr] at hr
    simp [hr]

/-- A decode that reports an error reports that of the field and has set the field to zero; an encoded nil message
leaves the struct alone. -/
theorem C72_uint32_failure (x y : U32Data) (b : _root_.Bytes) (e : Fault) (h : U32Data.Decode (some x) b = .ok (some y, some e)) :
    e = .lib .InvalidUint32 ∧ y = NewU32Data := by
  obtain ⟨r, v, hn⟩ := decodeNil_total b
  simp only [U32Data.Decode, U32Data.decode, hn, Go.bind_ok] at h
  cases v <;> simp at h
  cases hd : decodeUint32 r with
  | panic => simp [hd] at h
  | ok z =>
    obtain ⟨r', v, e'⟩ := z
    cases e' with
    | none => simp [hd] at h
    | some e' =>
      simp [hd] at h
      obtain ⟨rfl, rfl⟩ := h
      have h1 := C15_own_error (.uint32) r r' (.error e') (by simp [readItem, hd, Outcome.ofErr]) (by simp)
      have h2 := C15_zero_value_on_error r r' e'
      simp only [Req.invalid, Outcome.error.injEq] at h1
      subst h1
      refine ⟨rfl, ?_⟩
      simp only [NewU32Data]
      congr 1
      first
        | exact h2.2.2.1 _ _ hd
        | exact h2.2.2.2.2.2.2.2.2.1 _ hd
        | exact h2.2.2.2.2.2.2.2.2.2.1 _ hd
        | exact h2.2.2.2.2.2.2.2.2.2.2.1 _ hd
        | exact h2.2.2.2.2.2.2.2.2.2.2.2.1 _ hd

/-- `I64Data`: encoding appends to whatever the buffer holds; decoding into any struct gives the value back, whatever follows in
the input. -/
theorem C72_int64_roundtrip (rt : Runtime) (b0 : Buffer) (hb : b0.Usable) (x y : I64Data) (t : _root_.Bytes) :
    ∃ b before bs, b0.Bytes = .ok before ∧ I64Data.Encode rt (some x) b0 = .ok b ∧ b.Bytes = .ok (before ++ bs) ∧
      I64Data.Decode (some y) (bs ++ t) = .ok (some x, none) := by
  obtain ⟨b, he, ha⟩ := encodeItem_spec rt b0 (.int64 x.I64) hb trivial
  refine ⟨b, _, wire (.int64 x.I64), hb.bytes, he, by rw [ha.usable.bytes, ha.written], ?_⟩
  have hr := read_wire (Matches.int64 x.I64) trivial t
  simp only [I64Data.Decode, I64Data.decode, notNil_wire (i := .int64 x.I64) (by simp) t, Go.bind_ok]
  cases h : decodeInt64 (wire (.int64 x.I64) ++ t) with
  | panic => simp [readItem, h] at hr
  | ok z =>
    obtain ⟨r, v, e⟩ := z
    cases e <;> simp [readItem, h, Outcome.ofErr] at hr
    simp [hr]

/-- A decode that reports an error reports that of the field and has set the field to zero; an encoded nil message
leaves the struct alone. -/
theorem C72_int64_failure (x y : I64Data) (b : _root_.Bytes) (e : Fault) (h : I64Data.Decode (some x) b = .ok (some y, some e)) :
    e = .lib .InvalidInt64 ∧ y = NewI64Data := by
  obtain ⟨r, v, hn⟩ := decodeNil_total b
  simp only [I64Data.Decode, I64Data.decode, hn, Go.bind_ok] at h
  cases v <;> simp at h
  cases hd : decodeInt64 r with
  | panic => simp [hd] at h
  | ok z =>
    obtain ⟨r', v, e'⟩ := z
    cases e' with
    | none => simp [hd] at h
    | some e' =>
      simp [hd] at h
      obtain ⟨rfl, rfl⟩ := h
      have h1 := C15_own_error (.int64) r r' (.error e') (by simp [readItem, hd, Outcome.ofErr]) (by simp)
      have h2 := C15_zero_value_on_error r r' e'
      simp only [Req.invalid, Outcome.error.injEq] at h1
      subst h1
      refine ⟨rfl, ?_⟩
      simp only [NewI64Data]
      congr 1
      first
        | exact h2.2.2.1 _ _ hd
        | exact h2.2.2.2.2.2.2.2.2.1 _ hd
        | exact h2.2.2.2.2.2.2.2.2.2.1 _ hd
        | exact h2.2.2.2.2.2.2.2.2.2.2.1 _ hd
        | exact h2.2.2.2.2.2.2.2.2.2.2.2.1 _ hd

/-- `U64Data`: encoding appends to whatever the buffer holds; decoding into any struct gives the value back, whatever follows in
the input. -/
theorem C72_uint64_roundtrip (rt : Runtime) (b0 : Buffer) (hb : b0.Usable) (x y : U64Data) (t : _root_.Bytes) :
    ∃ b before bs, b0.Bytes = .ok before ∧ U64Data.Encode rt (some x) b0 = .ok b ∧ b.Bytes = .ok (before ++ bs) ∧
      U64Data.Decode (some y) (bs ++ t) = .ok (some x, none) := by
  obtain ⟨b, he, ha⟩ := encodeItem_spec rt b0 (.uint64 x.U64) hb trivial
  refine ⟨b, _, wire (.uint64 x.U64), hb.bytes, he, by rw [ha.usable.bytes, ha.written], ?_⟩
  have hr := read_wire (Matches.uint64 x.U64) trivial t
  simp only [U64Data.Decode, U64Data.decode, notNil_wire (i := .uint64 x.U64) (by simp) t, Go.bind_ok]
  cases h : decodeUint64 (wire (.uint64 x.U64) ++ t) with
  | panic => simp [readItem, h] at hr
  | ok z =>
    obtain ⟨r, v, e⟩ := z
    cases e <;> simp [readItem, h, Outcome.ofErr] at hr
    simp [hr]

/-- A decode that reports an error reports that of the field and has set the field to zero; an encoded nil message
leaves the struct alone. -/
theorem C72_uint64_failure (x y : U64Data) (b : _root_.Bytes) (e : Fault) (h : U64Data.Decode (some x) b = .ok (some y, some e)) :
    e = .lib .InvalidUint64 ∧ y = NewU64Data := by
  obtain ⟨r, v, hn⟩ := decodeNil_total b
  simp only [U64Data.Decode, U64Data.decode, hn, Go.bind_ok] at h
  cases v <;> simp at h
  cases hd : decodeUint64 r with
  | panic => simp [hd] at h
  | ok z =>
    obtain ⟨r', v, e'⟩ := z
    cases e' with
    | none => simp [hd] at h
    | some e' =>
      simp [hd] at h
      obtain ⟨rfl, rfl⟩ := h
      have h1 := C15_own_error (.uint64) r r' (.error e') (by simp [readItem, hd, Outcome.ofErr]) (by simp)
      have h2 := C15_zero_value_on_error r r' e'
      simp only [Req.invalid, Outcome.error.injEq] at h1
      subst h1
      refine ⟨rfl, ?_⟩
      simp only [NewU64Data]
      congr 1
      first
        | exact h2.2.2.1 _ _ hd
        | exact h2.2.2.2.2.2.2.2.2.1 _ hd
        | exact h2.2.2.2.2.2.2.2.2.2.1 _ hd
        | exact h2.2.2.2.2.2.2.2.2.2.2.1 _ hd
        | exact h2.2.2.2.2.2.2.2.2.2.2.2.1 _ hd

/-- A nil message is one byte, and decoding it reports no error and changes nothing; decoding into a nil pointer is refused. -/
theorem C72_nil (rt : Runtime) (b0 : Buffer) (hb : b0.Usable) (t : _root_.Bytes) :
    (∃ b before, b0.Bytes = .ok before ∧ BytesData.Encode rt none b0 = .ok b ∧ I32Data.Encode rt none b0 = .ok b ∧
      U32Data.Encode rt none b0 = .ok b ∧ I64Data.Encode rt none b0 = .ok b ∧ U64Data.Encode rt none b0 = .ok b ∧
      b.Bytes = .ok (before ++ [0])) ∧
    (∀ y, BytesData.Decode (some y) (0 :: t) = .ok (some y, none)) ∧ (∀ y, I32Data.Decode (some y) (0 :: t) = .ok (some y, none)) ∧
    (∀ y, U32Data.Decode (some y) (0 :: t) = .ok (some y, none)) ∧ (∀ y, I64Data.Decode (some y) (0 :: t) = .ok (some y, none)) ∧
    (∀ y, U64Data.Decode (some y) (0 :: t) = .ok (some y, none)) ∧
    (∀ b, BytesData.Decode none b = .ok (none, some .nilDecode) ∧ I32Data.Decode none b = .ok (none, some .nilDecode) ∧
      U32Data.Decode none b = .ok (none, some .nilDecode) ∧ I64Data.Decode none b = .ok (none, some .nilDecode) ∧
      U64Data.Decode none b = .ok (none, some .nilDecode)) := by
  obtain ⟨b, he, ha⟩ := encodeItem_spec rt b0 .nil hb trivial
  refine ⟨⟨b, _, hb.bytes, he, he, he, he, he, by rw [ha.usable.bytes, ha.written]; rfl⟩, ?_, ?_, ?_, ?_, ?_, ?_⟩
  · intro y; rfl
  · intro y; rfl
  · intro y; rfl
  · intro y; rfl
  · intro y; rfl
  · intro b; exact ⟨rfl, rfl, rfl, rfl, rfl⟩

/-- v2/benchmarks/bench.proto: five messages with one field each. -/
def benchSchema : Gen.Schema := ⟨[[.one .bytes 0 false], [.one .int32 0 false], [.one .uint32 0 false], [.one .int64 0 false],
  [.one .uint64 0 false]], []⟩

/-- A struct with one field, or nil, as a value of the schema. -/
def oneField : Option Gen.Scalar → Gen.V
  | none => .nil
  | some s => .msg [.scalar s]

/-- The result of `Decode` as the model of the generator reports it. -/
def report {α : Type} (field : α → Gen.Scalar) : Go (Option α × Option Fault) → GoGen.DecodeResult
  | .panic => .panic
  | .ok (_, some .nilDecode) => .errDecodeNil
  | .ok (_, some (.lib e)) => .err e
  | .ok (some x, none) => .ok [.scalar (field x)]
  | .ok (none, none) => .bad

theorem single (rt : Runtime) (b : Buffer) (i : Item) : encodeItems rt b [i] = encodeItem rt b i := by
  simp only [encodeItems]
  cases encodeItem rt b i <;> rfl

/-- The checked-in encoders make exactly the calls the model of the generator says they make. -/
theorem C72_generator_encode (rt : Runtime) (b : Buffer) :
    (∀ x, ∃ calls, GoGen.Encode benchSchema 0 (oneField (x.map fun x : BytesData => .bytes x.Bytes)) = some calls ∧
      BytesData.Encode rt x b = encodeItems rt b calls) ∧
    (∀ x, ∃ calls, GoGen.Encode benchSchema 1 (oneField (x.map fun x : I32Data => .int32 x.I32)) = some calls ∧
      I32Data.Encode rt x b = encodeItems rt b calls) ∧
    (∀ x, ∃ calls, GoGen.Encode benchSchema 2 (oneField (x.map fun x : U32Data => .uint32 x.U32)) = some calls ∧
      U32Data.Encode rt x b = encodeItems rt b calls) ∧
    (∀ x, ∃ calls, GoGen.Encode benchSchema 3 (oneField (x.map fun x : I64Data => .int64 x.I64)) = some calls ∧
      I64Data.Encode rt x b = encodeItems rt b calls) ∧
    (∀ x, ∃ calls, GoGen.Encode benchSchema 4 (oneField (x.map fun x : U64Data => .uint64 x.U64)) = some calls ∧
      U64Data.Encode rt x b = encodeItems rt b calls) := by
  refine ⟨?_, ?_, ?_, ?_, ?_⟩ <;> intro x <;> cases x
  · exact ⟨[.nil], rfl, by rw [single]; rfl⟩
  · exact ⟨[.bytes _], rfl, by rw [single]; rfl⟩
  · exact ⟨[.nil], rfl, by rw [single]; rfl⟩
  · exact ⟨[.int32 _], rfl, by rw [single]; rfl⟩
  · exact ⟨[.nil], rfl, by rw [single]; rfl⟩
  · exact ⟨[.uint32 _], rfl, by rw [single]; rfl⟩
  · exact ⟨[.nil], rfl, by rw [single]; rfl⟩
  · exact ⟨[.int64 _], rfl, by rw [single]; rfl⟩
  · exact ⟨[.nil], rfl, by rw [single]; rfl⟩
  · exact ⟨[.uint64 _], rfl, by rw [single]; rfl⟩

theorem decode_bytes (fuel : Nat) (x : Option BytesData) (b : _root_.Bytes) :
    GoGen.Decode GoGen.v2 benchSchema (fuel + 1) 0 (oneField (x.map fun x => .bytes x.Bytes)) b =
      report (fun x => .bytes x.Bytes) (BytesData.Decode x b) := by
  cases x with
  | none => rfl
  | some x =>
    obtain ⟨r, v, hn⟩ := decodeNil_total b
    have hs : benchSchema.fields 0 = [.one .bytes 0 false] := rfl
    have hd : GoGen.GetDecodingFields [.one .bytes 0 false] = some ⟨[], [], [0]⟩ := rfl
    have hc : GoGen.v2.codec = readItem := rfl
    simp only [oneField, Option.map, GoGen.Decode, GoGen.decode, hs, hd, hc, BytesData.Decode, BytesData.decode, hn, Go.bind_ok]
    simp only [bind, GoGen.D.bind, GoGen.isNil, readItem, hn, Go.bind, pure]
    cases v with
    | true => simp [report, GoGen.D.pure]
    | false =>
      simp only [Bool.false_eq_true, if_false, if_true, GoGen.errUsed, List.isEmpty_nil, Bool.true_or, GoGen.decBody, GoGen.forFields,
        List.getElem?_cons_zero, GoGen.decValue, Gen.Field.Kind, GoGen.decodeLUT, GoGen.FindValue, GoGen.FindElem, GoGen.typeLUT]
      simp only [bind, GoGen.D.bind, pure, GoGen.D.pure, GoGen.assign, GoGen.Method.type, GoGen.read, GoGen.Method.req, readItem,
        GoGen.v2, GoGen.scratchOf, reduceCtorEq, if_false, if_true, List.set]
      cases h : decodeBytes r x.Bytes with
      | panic => simp [h, report, Go.bind, GoGen.D.bind, GoGen.read, readItem]
      | ok z =>
        obtain ⟨r', w, e⟩ := z
        cases e <;> simp [h, report, Go.bind, Outcome.ofErr, GoGen.ofItem, GoGen.D.pure, GoGen.D.bind, GoGen.read, readItem]

theorem decode_int32 (fuel : Nat) (x : Option I32Data) (b : _root_.Bytes) :
    GoGen.Decode GoGen.v2 benchSchema (fuel + 1) 1 (oneField (x.map fun x => .int32 x.I32)) b =
      report (fun x => .int32 x.I32) (I32Data.Decode x b) := by
  cases x with
  | none => rfl
  | some x =>
    obtain ⟨r, v, hn⟩ := decodeNil_total b
    have hs : benchSchema.fields 1 = [.one .int32 0 false] := rfl
    have hd : GoGen.GetDecodingFields [.one .int32 0 false] = some ⟨[], [], [0]⟩ := rfl
    have hc : GoGen.v2.codec = readItem := rfl
    simp only [oneField, Option.map, GoGen.Decode, GoGen.decode, hs, hd, hc, I32Data.Decode, I32Data.decode, hn, Go.bind_ok]
    simp only [bind, GoGen.D.bind, GoGen.isNil, readItem, hn, Go.bind, pure]
    cases v with
    | true => simp [report, GoGen.D.pure]
    | false =>
      simp only [Bool.false_eq_true, if_false, if_true, GoGen.errUsed, List.isEmpty_nil, Bool.true_or, GoGen.decBody, GoGen.forFields,
        List.getElem?_cons_zero, GoGen.decValue, Gen.Field.Kind, GoGen.decodeLUT, GoGen.FindValue, GoGen.FindElem, GoGen.typeLUT]
      simp only [bind, GoGen.D.bind, pure, GoGen.D.pure, GoGen.assign, GoGen.Method.type, GoGen.read, GoGen.Method.req, readItem,
        GoGen.v2, GoGen.scratchOf, reduceCtorEq, if_false, if_true, List.set]
      cases h : decodeInt32 r with
      | panic => simp [h, report, Go.bind, GoGen.D.bind, GoGen.read, readItem]
      | ok z =>
        obtain ⟨r', w, e⟩ := z
        cases e <;> simp [h, report, Go.bind, Outcome.ofErr, GoGen.ofItem, GoGen.D.pure, GoGen.D.bind, GoGen.read, readItem]

theorem decode_uint32 (fuel : Nat) (x : Option U32Data) (b : _root_.Bytes) :
    GoGen.Decode GoGen.v2 benchSchema (fuel + 1) 2 (oneField (x.map fun x => .uint32 x.U32)) b =
      report (fun x => .uint32 x.U32) (U32Data.Decode x b) := by
  cases x with
  | none => rfl
  | some x =>
    obtain ⟨r, v, hn⟩ := decodeNil_total b
    have hs : benchSchema.fields 2 = [.one .uint32 0 false] := rfl
    have hd : GoGen.GetDecodingFields [.one .uint32 0 false] = some ⟨[], [], [0]⟩ := rfl
    have hc : GoGen.v2.codec = readItem := rfl
    simp only [oneField, Option.map, GoGen.Decode, GoGen.decode, hs, hd, hc, U32Data.Decode, U32Data.decode, hn, Go.bind_ok]
    simp only [bind, GoGen.D.bind, GoGen.isNil, readItem, hn, Go.bind, pure]
    cases v with
    | true => simp [report, GoGen.D.pure]
    | false =>
      simp only [Bool.false_eq_true, if_false, if_true, GoGen.errUsed, List.isEmpty_nil, Bool.true_or, GoGen.decBody, GoGen.forFields,
        List.getElem?_cons_zero, GoGen.decValue, Gen.Field.Kind, GoGen.decodeLUT, GoGen.FindValue, GoGen.FindElem, GoGen.typeLUT]
      simp only [bind, GoGen.D.bind, pure, GoGen.D.pure, GoGen.assign, GoGen.Method.type, GoGen.read, GoGen.Method.req, readItem,
        GoGen.v2, GoGen.scratchOf, reduceCtorEq, if_false, if_true, List.set]
      cases h : decodeUint32 r with
      | panic => simp [h, report, Go.bind, GoGen.D.bind, GoGen.read, readItem]
      | ok z =>
        obtain ⟨r', w, e⟩ := z
        cases e <;> simp [h, report, Go.bind, Outcome.ofErr, GoGen.ofItem, GoGen.D.pure, GoGen.D.bind, GoGen.read, readItem]

theorem decode_int64 (fuel : Nat) (x : Option I64Data) (b : _root_.Bytes) :
    GoGen.Decode GoGen.v2 benchSchema (fuel + 1) 3 (oneField (x.map fun x => .int64 x.I64)) b =
      report (fun x => .int64 x.I64) (I64Data.Decode x b) := by
  cases x with
  | none => rfl
  | some x =>
    obtain ⟨r, v, hn⟩ := decodeNil_total b
    have hs : benchSchema.fields 3 = [.one .int64 0 false] := rfl
    have hd : GoGen.GetDecodingFields [.one .int64 0 false] = some ⟨[], [], [0]⟩ := rfl
    have hc : GoGen.v2.codec = readItem := rfl
    simp only [oneField, Option.map, GoGen.Decode, GoGen.decode, hs, hd, hc, I64Data.Decode, I64Data.decode, hn, Go.bind_ok]
    simp only [bind, GoGen.D.bind, GoGen.isNil, readItem, hn, Go.bind, pure]
    cases v with
    | true => simp [report, GoGen.D.pure]
    | false =>
      simp only [Bool.false_eq_true, if_false, if_true, GoGen.errUsed, List.isEmpty_nil, Bool.true_or, GoGen.decBody, GoGen.forFields,
        List.getElem?_cons_zero, GoGen.decValue, Gen.Field.Kind, GoGen.decodeLUT, GoGen.FindValue, GoGen.FindElem, GoGen.typeLUT]
      simp only [bind, GoGen.D.bind, pure, GoGen.D.pure, GoGen.assign, GoGen.Method.type, GoGen.read, GoGen.Method.req, readItem,
        GoGen.v2, GoGen.scratchOf, reduceCtorEq, if_false, if_true, List.set]
      cases h : decodeInt64 r with
      | panic => simp [h, report, Go.bind, GoGen.D.bind, GoGen.read, readItem]
      | ok z =>
        obtain ⟨r', w, e⟩ := z
        cases e <;> simp [h, report, Go.bind, Outcome.ofErr, GoGen.ofItem, GoGen.D.pure, GoGen.D.bind, GoGen.read, readItem]

theorem decode_uint64 (fuel : Nat) (x : Option U64Data) (b : _root_.Bytes) :
    GoGen.Decode GoGen.v2 benchSchema (fuel + 1) 4 (oneField (x.map fun x => .uint64 x.U64)) b =
      report (fun x => .uint64 x.U64) (U64Data.Decode x b) := by
  cases x with
  | none => rfl
  | some x =>
    obtain ⟨r, v, hn⟩ := decodeNil_total b
    have hs : benchSchema.fields 4 = [.one .uint64 0 false] := rfl
    have hd : GoGen.GetDecodingFields [.one .uint64 0 false] = some ⟨[], [], [0]⟩ := rfl
    have hc : GoGen.v2.codec = readItem := rfl
    simp only [oneField, Option.map, GoGen.Decode, GoGen.decode, hs, hd, hc, U64Data.Decode, U64Data.decode, hn, Go.bind_ok]
    simp only [bind, GoGen.D.bind, GoGen.isNil, readItem, hn, Go.bind, pure]
    cases v with
    | true => simp [report, GoGen.D.pure]
    | false =>
      simp only [Bool.false_eq_true, if_false, if_true, GoGen.errUsed, List.isEmpty_nil, Bool.true_or, GoGen.decBody, GoGen.forFields,
        List.getElem?_cons_zero, GoGen.decValue, Gen.Field.Kind, GoGen.decodeLUT, GoGen.FindValue, GoGen.FindElem, GoGen.typeLUT]
      simp only [bind, GoGen.D.bind, pure, GoGen.D.pure, GoGen.assign, GoGen.Method.type, GoGen.read, GoGen.Method.req, readItem,
        GoGen.v2, GoGen.scratchOf, reduceCtorEq, if_false, if_true, List.set]
      cases h : decodeUint64 r with
      | panic => simp [h, report, Go.bind, GoGen.D.bind, GoGen.read, readItem]
      | ok z =>
        obtain ⟨r', w, e⟩ := z
        cases e <;> simp [h, report, Go.bind, Outcome.ofErr, GoGen.ofItem, GoGen.D.pure, GoGen.D.bind, GoGen.read, readItem]

/-- The checked-in decoders do what the model of the generator says, on every input and every old value of the struct. -/
theorem C72_generator_decode (fuel : Nat) (b : _root_.Bytes) :
    (∀ x, GoGen.Decode GoGen.v2 benchSchema (fuel + 1) 0 (oneField (x.map fun x : BytesData => .bytes x.Bytes)) b =
      report (fun x => .bytes x.Bytes) (BytesData.Decode x b)) ∧
    (∀ x, GoGen.Decode GoGen.v2 benchSchema (fuel + 1) 1 (oneField (x.map fun x : I32Data => .int32 x.I32)) b =
      report (fun x => .int32 x.I32) (I32Data.Decode x b)) ∧
    (∀ x, GoGen.Decode GoGen.v2 benchSchema (fuel + 1) 2 (oneField (x.map fun x : U32Data => .uint32 x.U32)) b =
      report (fun x => .uint32 x.U32) (U32Data.Decode x b)) ∧
    (∀ x, GoGen.Decode GoGen.v2 benchSchema (fuel + 1) 3 (oneField (x.map fun x : I64Data => .int64 x.I64)) b =
      report (fun x => .int64 x.I64) (I64Data.Decode x b)) ∧
    (∀ x, GoGen.Decode GoGen.v2 benchSchema (fuel + 1) 4 (oneField (x.map fun x : U64Data => .uint64 x.U64)) b =
      report (fun x => .uint64 x.U64) (U64Data.Decode x b)) :=
  ⟨fun x => decode_bytes fuel x b, fun x => decode_int32 fuel x b, fun x => decode_uint32 fuel x b,
    fun x => decode_int64 fuel x b, fun x => decode_uint64 fuel x b⟩

example (rt : Runtime) : ∃ b bs, BytesData.Encode rt (some ⟨[1, 2, 3]⟩) NewBuffer = .ok b ∧ b.Bytes = .ok bs ∧
    BytesData.Decode (some ⟨[9, 9, 9, 9]⟩) bs = .ok (some ⟨[1, 2, 3]⟩, none) := by
  have hb : Fresh NewBuffer := .inl rfl
  obtain ⟨b, before, bs, h0, h1, h2, h3⟩ := C72_bytes_roundtrip rt NewBuffer hb.usable ⟨[1, 2, 3]⟩ ⟨[9, 9, 9, 9]⟩ (by decide) []
  have : before = [] := by
    have := hb.usable.bytes; rw [hb.written] at this; rw [this] at h0; cases h0; rfl
  subst this
  rw [List.append_nil] at h3
  exact ⟨b, bs, h1, h2, h3⟩

/-- Test: a truncated message is an error and clears the field. -/
example : BytesData.Decode (some ⟨[9, 9]⟩) [4, 10, 2, 7] = .ok (some ⟨[]⟩, some (.lib .InvalidBytes)) := by decide

end Props
