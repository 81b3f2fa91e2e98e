import Verif.GoV1.Api
import Verif.GoV1.Log
import Verif.Props.WireFormat

/-!
# Properties of the Go v1 codec (C23 - C28, C30)

`GoV1.readItem q b` is one v1 decoder call, `GoV2.readItem` one v2 decoder call; `SameCall q1 q2` pairs
them.  A v1 buffer satisfies Go's own slice invariant `len ≤ cap` (`Buffer.Ok`).
-/

namespace Props

open Spec
open GoV2 (Runtime Outcome Err)

/-- The v1 call that matches an encoder call; `Bytes` is given no scratch slice or one that is not longer
than the payload. -/
inductive MatchesV1 : GoV1.Req → Item → Prop
  | nil : MatchesV1 .nil .nil
  | map (size k ks v vs) : MatchesV1 (.map (k :: ks) (v :: vs)) (.map size k v)
  | slice (size k ks) : MatchesV1 (.slice (k :: ks)) (.slice size k)
  | bytes (ret v) : (ret.getD []).length ≤ v.length → MatchesV1 (.bytes ret) (.bytes v)
  | string (v) : MatchesV1 .string (.string v)
  | error (m) : MatchesV1 .error (.error m)
  | bool (v) : MatchesV1 .bool (.bool v)
  | uint8 (v) : MatchesV1 .uint8 (.uint8 v)
  | uint16 (v) : MatchesV1 .uint16 (.uint16 v)
  | uint32 (v) : MatchesV1 .uint32 (.uint32 v)
  | uint64 (v) : MatchesV1 .uint64 (.uint64 v)
  | int32 (v) : MatchesV1 .int32 (.int32 v)
  | int64 (v) : MatchesV1 .int64 (.int64 v)
  | float32 (v) : MatchesV1 .float32 (.float32 v)
  | float64 (v) : MatchesV1 .float64 (.float64 v)

inductive MatchesAllV1 : List GoV1.Req → List Item → Prop
  | nil : MatchesAllV1 [] []
  | cons {q i qs is} : MatchesV1 q i → MatchesAllV1 qs is → MatchesAllV1 (q :: qs) (i :: is)

/-- Any accepted encoding of an item is read as that item by the matching call. -/
theorem v1_reads {q : GoV1.Req} {i : Item} (hm : MatchesV1 q i) {p : Bytes} (ha : Accepts p i) (t : Bytes) :
    GoV1.readItem q (p ++ t) = .ok (t, .value i) := by
  have key : ∀ q2, GoV1.SameCall q q2 → GoV2.Matches q2 i → i = GoV1.returned q i →
      GoV1.readItem q (p ++ t) = .ok (t, .value i) := fun q2 hs hm2 hr =>
    (GoV1.readItem_value_iff hs _ _ _).mpr (.inl ⟨i, p, hm2, ha, rfl, hr⟩)
  cases hm
  case map => exact key _ (.map ..) (.map ..) rfl
  case slice => exact key _ (.slice ..) (.slice ..) rfl
  case bytes ret v hl =>
    refine key _ (.bytes _ []) (.bytes ..) ?_
    simp only [GoV1.returned]
    rw [GoV1.bytesResult_contents, List.drop_eq_nil_of_le hl, List.append_nil]
  case nil => exact key _ .nil .nil rfl
  case string => exact key _ .string (.string _) rfl
  case error => exact key _ .error (.error _) rfl
  case bool => exact key _ .bool (.bool _) rfl
  case uint8 => exact key _ .uint8 (.uint8 _) rfl
  case uint16 => exact key _ .uint16 (.uint16 _) rfl
  case uint32 => exact key _ .uint32 (.uint32 _) rfl
  case uint64 => exact key _ .uint64 (.uint64 _) rfl
  case int32 => exact key _ .int32 (.int32 _) rfl
  case int64 => exact key _ .int64 (.int64 _) rfl
  case float32 => exact key _ .float32 (.float32 _) rfl
  case float64 => exact key _ .float64 (.float64 _) rfl

theorem v1_readsAll {qs : List GoV1.Req} {is : List Item} (hm : MatchesAllV1 qs is) (hf : ∀ i ∈ is, i.Fits) (t : Bytes) :
    GoV1.readAll qs (wireAll is ++ t) = .ok (t, is.map .value) := by
  induction hm with
  | nil => rfl
  | @cons q i qs is h _ ih =>
    have h1 := v1_reads h (wire_accepts (hf i (by simp))) (wireAll is ++ t)
    have h2 := ih (fun j hj => hf j (by simp [hj]))
    simp only [wireAll, List.flatMap_cons, List.append_assoc] at h1 h2 ⊢
    simp only [GoV1.readAll, h1, h2, Go.bind_ok, Go.pure_eq, List.map_cons]

/-! ## C23 -/

/-- Every single v1 encoder call: what it appends, and that the matching v1 decoder call reads it back,
whatever follows. -/
theorem C23_item_roundtrip (rt : Runtime) (b0 : GoV1.Buffer) (h0 : b0.Ok) (q : GoV1.Req) (i : Item)
    (hm : MatchesV1 q i) (hf : i.Fits) (t : Bytes) :
    ∃ b, GoV1.encodeItem rt b0 i = .ok b ∧ b.Bytes = b0.Bytes ++ wire i ∧
      GoV1.readItem q (wire i ++ t) = .ok (t, .value i) := by
  obtain ⟨b, h1, a⟩ := GoV1.encodeItem_spec rt b0 i h0 hf
  exact ⟨b, h1, a.2.1, v1_reads hm (wire_accepts hf) t⟩

/-- Any sequence of items, from `NewBuffer` to `Bytes()` and back. -/
theorem C23_message_roundtrip (rt : Runtime) (qs : List GoV1.Req) (is : List Item) (hm : MatchesAllV1 qs is)
    (hf : ∀ i ∈ is, i.Fits) :
    ∃ b, GoV1.encodeItems rt GoV1.NewBuffer is = .ok b ∧ GoV1.readAll qs b.Bytes = .ok ([], is.map .value) := by
  obtain ⟨b, h1, a⟩ := GoV1.encodeItems_spec rt is _ GoV1.NewBuffer_ok.1 hf
  refine ⟨b, h1, ?_⟩
  have := v1_readsAll hm hf []
  rw [a.2.1, GoV1.NewBuffer_ok.2, List.nil_append]
  rwa [List.append_nil] at this

example : MatchesAllV1 [.slice [8], .bytes none, .bytes (some [1, 2]), .int32]
    [.slice 2 8, .bytes [1, 2, 3], .bytes [4, 5], .int32 (-70000#32)] :=
  .cons (.slice ..) (.cons (.bytes _ _ (by decide)) (.cons (.bytes _ _ (by decide)) (.cons (.int32 _) .nil)))

/-- `Error(nil)` panics, as in v2. -/
theorem C23_error_nil_panics (rt : Runtime) (b : GoV1.Buffer) : GoV1.encodeError rt b none = .panic := by
  unfold GoV1.encodeError
  cases GoV1.Buffer.Write rt b GoV1.ErrorKind <;> rfl

/-! ## C24 -/

/-- The v1 encoder appends exactly the wire format. -/
theorem C24_v1_wire_format (rt : Runtime) (b0 : GoV1.Buffer) (h0 : b0.Ok) (i : Item) (hf : i.Fits) :
    ∃ b, GoV1.encodeItem rt b0 i = .ok b ∧ b.Bytes = b0.Bytes ++ wire i := by
  obtain ⟨b, h1, a⟩ := GoV1.encodeItem_spec rt b0 i h0 hf
  exact ⟨b, h1, a.2.1⟩

/-- v1 and v2 encoders produce the same bytes for any message (v2 byte slices below 2^28, see C04), with
any allocators. -/
theorem C24_same_bytes (rt1 rt2 : Runtime) (b2 : GoV2.Buffer) (hb2 : GoV2.Fresh b2) (is : List Item)
    (hf : ∀ i ∈ is, i.FitsV2) :
    ∃ c1 c2, GoV1.encodeItems rt1 GoV1.NewBuffer is = .ok c1 ∧ GoV2.encodeItems rt2 b2 is = .ok c2 ∧
      c2.Bytes = .ok c1.Bytes := by
  obtain ⟨c1, h1, a1⟩ := GoV1.encodeItems_spec rt1 is _ GoV1.NewBuffer_ok.1 (fun i hi => (hf i hi).fits)
  obtain ⟨c2, h2, a2⟩ := GoV2.encodeItems_spec rt2 is b2 hb2.usable hf
  refine ⟨c1, c2, h1, h2, ?_⟩
  rw [a2.usable.bytes, a2.written, hb2.written, a1.2.1, GoV1.NewBuffer_ok.2]

/-- A message written by v1 is read by v2. -/
theorem C24_v1_to_v2 (rt : Runtime) (is : List Item) (hf : ∀ i ∈ is, i.Fits) (qs : List GoV2.Req)
    (hm : GoV2.MatchesAll qs is) :
    ∃ c, GoV1.encodeItems rt GoV1.NewBuffer is = .ok c ∧ GoV2.readAll qs c.Bytes = .ok ([], is.map .value) := by
  obtain ⟨c, h1, a1⟩ := GoV1.encodeItems_spec rt is _ GoV1.NewBuffer_ok.1 hf
  refine ⟨c, h1, ?_⟩
  have := GoV2.readAll_wire hm hf []
  rw [a1.2.1, GoV1.NewBuffer_ok.2, List.nil_append]
  rwa [List.append_nil] at this

/-- A message written by v2 is read by v1. -/
theorem C24_v2_to_v1 (rt : Runtime) (b0 : GoV2.Buffer) (hb : GoV2.Fresh b0) (is : List Item)
    (hf : ∀ i ∈ is, i.FitsV2) (qs : List GoV1.Req) (hm : MatchesAllV1 qs is) :
    ∃ c bs, GoV2.encodeItems rt b0 is = .ok c ∧ c.Bytes = .ok bs ∧ GoV1.readAll qs bs = .ok ([], is.map .value) := by
  obtain ⟨c, h2, a2⟩ := GoV2.encodeItems_spec rt is b0 hb.usable hf
  refine ⟨c, _, h2, a2.usable.bytes, ?_⟩
  have := v1_readsAll hm (fun i hi => (hf i hi).fits) []
  rw [a2.written, hb.written, List.nil_append]
  rwa [List.append_nil] at this

/-! ## C25 -/

/-- Every history of `Write`, `Reset` and encoder calls on a new buffer: no panic, `Write` returns
`len(b)`, `Bytes()` is the abstract log and `Len()` its length. -/
theorem C25_byte_log (rt : Runtime) (ops : List GoV1.Op) (hf : ∀ op ∈ ops, op.Fits) :
    ∃ b, GoV1.runOps rt GoV1.NewBuffer ops = .ok (b, ops.map GoV1.expected) ∧
      b.Bytes = logAfter [] (ops.map GoV1.Op.log) ∧ b.Len = (logAfter [] (ops.map GoV1.Op.log)).length := by
  obtain ⟨b, h1, h2, h3⟩ := GoV1.runOps_spec rt ops _ GoV1.NewBuffer_ok.1 hf
  rw [GoV1.NewBuffer_ok.2] at h3
  refine ⟨b, h1, h3, ?_⟩
  rw [← h3]
  simp only [GoV1.Buffer.Len, GoV1.Buffer.Bytes, List.length_take]
  exact (Nat.min_eq_left h2).symm

/-- The same from any slice value used as a buffer (`Buffer(someSlice)`), even one with spare capacity. -/
theorem C25_byte_log_any_slice (rt : Runtime) (b0 : GoV1.Buffer) (h0 : b0.Ok) (ops : List GoV1.Op)
    (hf : ∀ op ∈ ops, op.Fits) :
    ∃ b, GoV1.runOps rt b0 ops = .ok (b, ops.map GoV1.expected) ∧
      b.Bytes = logAfter b0.Bytes (ops.map GoV1.Op.log) := by
  obtain ⟨b, h1, _, h3⟩ := GoV1.runOps_spec rt ops b0 h0 hf
  exact ⟨b, h1, h3⟩

example : logAfter [] ([GoV1.Op.write [1, 2], .reset, .encode (.uint8 7), .write [3]].map GoV1.Op.log) = [8, 7, 3] := by
  decide

/-! ## C26: the result of `Bytes`

Full claim: for every scratch slice the result equals the payload.  False when the scratch slice is longer
than the payload. -/

/-- Exact result: the payload, followed by whatever a longer scratch slice held behind it. -/
theorem C26_exact_result (ret : Option Bytes) (payload p t : Bytes) (ha : Accepts p (.bytes payload)) :
    GoV1.readItem (.bytes ret) (p ++ t) = .ok (t, .value (.bytes (payload ++ (ret.getD []).drop payload.length))) := by
  refine (GoV1.readItem_value_iff (.bytes _ []) _ _ _).mpr (.inl ⟨.bytes payload, p, .bytes .., ha, rfl, ?_⟩)
  rw [GoV1.returned, GoV1.bytesResult_contents]

/-- Missing with respect to C26: scratch slices longer than the payload. -/
theorem C26_bytes_payload_partial (ret : Option Bytes) (payload p t : Bytes) (ha : Accepts p (.bytes payload))
    (hr : (ret.getD []).length ≤ payload.length) :
    GoV1.readItem (.bytes ret) (p ++ t) = .ok (t, .value (.bytes payload)) := by
  rw [C26_exact_result ret payload p t ha, List.drop_eq_nil_of_le hr, List.append_nil]

/-- With every longer scratch slice the result is wrong: it has the length of the scratch slice. -/
theorem C26_false (ret payload p t : Bytes) (ha : Accepts p (.bytes payload)) (hr : payload.length < ret.length) :
    ∃ v, GoV1.readItem (.bytes (some ret)) (p ++ t) = .ok (t, .value (.bytes v)) ∧ v.length = ret.length ∧
      v ≠ payload := by
  refine ⟨_, C26_exact_result (some ret) payload p t ha, ?_, ?_⟩
  · simp; omega
  · intro h
    have := congrArg List.length h
    simp at this; omega

example : GoV1.readItem (.bytes (some [9, 9, 9])) [4, 10, 1, 65] = .ok ([], .value (.bytes [65, 9, 9])) := by
  simp only [GoV1.readItem, GoV1.decodeBytes_spec]; decide

/-! ## C27: decoding never panics — false, with the exact set of panicking inputs -/

theorem C27_panics_exactly_on_cut_varints (q1 : GoV1.Req) (q2 : GoV2.Req) (hs : GoV1.SameCall q1 q2) (b : Bytes) :
    GoV1.readItem q1 b = .panic ↔ ∃ hd n cs, q2.varint = some (hd, n) ∧ b = hd ++ cs ∧
      cs ≠ [] ∧ cs.length < n ∧ ∀ c ∈ cs, 128 ≤ c.toNat :=
  GoV1.readItem_panic_iff hs b

/-- v1 and v2 panic on exactly the same inputs. -/
theorem C27_same_panics_as_v2 (q1 : GoV1.Req) (q2 : GoV2.Req) (hs : GoV1.SameCall q1 q2) (b : Bytes) :
    GoV1.readItem q1 b = .panic ↔ GoV2.readItem q2 b = .panic := by
  rw [GoV1.readItem_panic_iff hs, GoV2.readItem_panic_iff]

/-- Missing with respect to C27: inputs that end inside a varint. -/
theorem C27_no_panic_partial (q1 : GoV1.Req) (q2 : GoV2.Req) (hs : GoV1.SameCall q1 q2) (b : Bytes)
    (h : q2.varint = none ∨ b = [] ∨ ∃ s c, b = s ++ [c] ∧ c.toNat < 128) : GoV1.readItem q1 b ≠ .panic := by
  intro hp
  obtain ⟨hd, n, cs, hv, rfl, hne, hlt, hall⟩ := (GoV1.readItem_panic_iff hs b).mp hp
  rcases h with h | h | ⟨s, c, h, hc⟩
  · rw [h] at hv; cases hv
  · simp at h; exact hne h.2
  · obtain ⟨cs', l, rfl⟩ : ∃ cs' l, cs = cs' ++ [l] :=
      ⟨cs.dropLast, cs.getLast hne, (List.dropLast_concat_getLast hne).symm⟩
    rw [← List.append_assoc] at h
    have := (List.append_inj' h rfl).2
    simp at this; subst this
    have := hall l (by simp)
    omega

/-- Every call that reads a varint panics on some input. -/
theorem C27_false (q1 : GoV1.Req) (q2 : GoV2.Req) (hs : GoV1.SameCall q1 q2) (hd : Bytes) (n : Nat)
    (h : q2.varint = some (hd, n)) : GoV1.readItem q1 (hd ++ [0x80]) = .panic := by
  refine (GoV1.readItem_panic_iff hs _).mpr ⟨hd, n, [0x80], h, rfl, by simp, ?_, by simp⟩
  cases q2 <;> simp [GoV2.Req.varint] at h <;> simp [← h.2]

example : GoV1.readItem .uint64 [11, 0xff, 0xff] = .panic := by
  simp only [GoV1.readItem, GoV1.decodeUint64_eq]; decide

/-- An empty `Kind` slice is a further cause of panics: `Map` indexes it. -/
theorem C27_empty_kind_panics (v : GoV1.Kind) (k1 k2 : Byte) (t : Bytes) :
    GoV1.readItem (.map [] v) (kMap :: k1 :: k2 :: t) = .panic ∧
    GoV1.readItem (.slice []) (kSlice :: k1 :: t) = .panic := by
  constructor
  · simp [GoV1.readItem, GoV1.decodeMap, Bytes.at, GoV1.MapKind, kMap]
  · simp [GoV1.readItem, GoV1.decodeSlice, Bytes.at, GoV1.SliceKind, kSlice]

/-! ## C28: overflow checks

Full claim: a varint whose value does not fit the type is rejected.  False for every such varint that has
few enough groups: the overflow test in the loops is unreachable. -/

/-- Exactly what is accepted: any number of groups up to the maximum, the value taken modulo the width. -/
theorem C28_accepted_exactly (b r : Bytes) :
    (∀ v, GoV1.decodeUint16 b = .ok (r, v, none) ↔
      ∃ cs, Varint 3 cs ∧ b = kUint16 :: cs ++ r ∧ v = BitVec.ofNat 16 (groupSum cs)) ∧
    (∀ v, GoV1.decodeUint32 b = .ok (r, v, none) ↔
      ∃ cs, Varint 5 cs ∧ b = kUint32 :: cs ++ r ∧ v = BitVec.ofNat 32 (groupSum cs)) ∧
    (∀ v, GoV1.decodeUint64 b = .ok (r, v, none) ↔
      ∃ cs, Varint 10 cs ∧ b = kUint64 :: cs ++ r ∧ v = BitVec.ofNat 64 (groupSum cs)) ∧
    (∀ v, GoV1.decodeInt32 b = .ok (r, v, none) ↔
      ∃ cs, Varint 5 cs ∧ b = kInt32 :: cs ++ r ∧ v = BitVec.ofInt 32 (unzigzag (groupSum cs % 2 ^ 32))) ∧
    (∀ v, GoV1.decodeInt64 b = .ok (r, v, none) ↔
      ∃ cs, Varint 10 cs ∧ b = kInt64 :: cs ++ r ∧ v = BitVec.ofInt 64 (unzigzag (groupSum cs % 2 ^ 64))) := by
  refine ⟨fun v => ?_, fun v => ?_, fun v => ?_, fun v => ?_, fun v => ?_⟩
  · rw [GoV1.decodeUint16_eq, GoV2.decodeUint16_var, GoV2.varRead_ok_iff]
  · rw [GoV1.decodeUint32_eq, GoV2.decodeUint32_var, GoV2.varRead_ok_iff]
  · rw [GoV1.decodeUint64_eq, GoV2.decodeUint64_var, GoV2.varRead_ok_iff]
  · rw [GoV1.decodeInt32_eq, GoV2.decodeInt32_var, GoV2.varRead_ok_iff]
  · rw [GoV1.decodeInt64_eq, GoV2.decodeInt64_var, GoV2.varRead_ok_iff]

/-- Missing with respect to C28: only varints with too many groups are rejected (here: nothing consumed,
own error). -/
theorem C28_rejects_too_many_groups_partial (cs : Bytes) :
    (3 ≤ cs.length → (∀ c ∈ cs.take 3, 128 ≤ c.toNat) →
      GoV1.decodeUint16 (kUint16 :: cs) = .ok (kUint16 :: cs, 0, some .InvalidUint16)) ∧
    (5 ≤ cs.length → (∀ c ∈ cs.take 5, 128 ≤ c.toNat) →
      GoV1.decodeUint32 (kUint32 :: cs) = .ok (kUint32 :: cs, 0, some .InvalidUint32)) ∧
    (10 ≤ cs.length → (∀ c ∈ cs.take 10, 128 ≤ c.toNat) →
      GoV1.decodeUint64 (kUint64 :: cs) = .ok (kUint64 :: cs, 0, some .InvalidUint64)) ∧
    (5 ≤ cs.length → (∀ c ∈ cs.take 5, 128 ≤ c.toNat) →
      GoV1.decodeInt32 (kInt32 :: cs) = .ok (kInt32 :: cs, 0, some .InvalidInt32)) ∧
    (10 ≤ cs.length → (∀ c ∈ cs.take 10, 128 ≤ c.toNat) →
      GoV1.decodeInt64 (kInt64 :: cs) = .ok (kInt64 :: cs, 0, some .InvalidInt64)) := by
  have ne : ∀ {n}, n + 1 ≤ cs.length → cs ≠ [] := by rintro n h rfl; simp at h
  refine ⟨fun h1 h2 => ?_, fun h1 h2 => ?_, fun h1 h2 => ?_, fun h1 h2 => ?_, fun h1 h2 => ?_⟩
  · rw [GoV1.decodeUint16_eq, GoV2.decodeUint16_var, GoV2.varRead_err_iff]
    exact ⟨⟨rfl, rfl, rfl⟩, .inr (.inr ⟨cs, rfl, ⟨h1, h2⟩, ne h1⟩)⟩
  · rw [GoV1.decodeUint32_eq, GoV2.decodeUint32_var, GoV2.varRead_err_iff]
    exact ⟨⟨rfl, rfl, rfl⟩, .inr (.inr ⟨cs, rfl, ⟨h1, h2⟩, ne h1⟩)⟩
  · rw [GoV1.decodeUint64_eq, GoV2.decodeUint64_var, GoV2.varRead_err_iff]
    exact ⟨⟨rfl, rfl, rfl⟩, .inr (.inr ⟨cs, rfl, ⟨h1, h2⟩, ne h1⟩)⟩
  · rw [GoV1.decodeInt32_eq, GoV2.decodeInt32_var, GoV2.varRead_err_iff]
    exact ⟨⟨rfl, rfl, rfl⟩, .inr (.inr ⟨cs, rfl, ⟨h1, h2⟩, ne h1⟩)⟩
  · rw [GoV1.decodeInt64_eq, GoV2.decodeInt64_var, GoV2.varRead_err_iff]
    exact ⟨⟨rfl, rfl, rfl⟩, .inr (.inr ⟨cs, rfl, ⟨h1, h2⟩, ne h1⟩)⟩

/-- An overflowing varint is accepted with a wrong value (e.g. `Uint16` of 65536 + 1 gives 1). -/
theorem C28_false (cs t : Bytes) (hv : Varint 3 cs) (hbig : 2 ^ 16 ≤ groupSum cs) :
    ∃ v, GoV1.decodeUint16 (kUint16 :: cs ++ t) = .ok (t, v, none) ∧ v.toNat ≠ groupSum cs := by
  refine ⟨_, ((C28_accepted_exactly _ t).1 _).mpr ⟨cs, hv, rfl, rfl⟩, ?_⟩
  rw [BitVec.toNat_ofNat]
  have : groupSum cs % 2 ^ 16 < 2 ^ 16 := Nat.mod_lt _ (by decide)
  omega

example : GoV1.decodeUint16 [9, 0x81, 0x80, 0x04] = .ok ([], 1, none) := by
  rw [GoV1.decodeUint16_eq]; decide

/-! ## C30: v1 and v2 agree -/

/-- All calls but `Bytes` and `Bool`: identical results (value or error, unread rest, panic), except on
inputs that consist of nothing but the request's header. -/
theorem C30_agree (q1 : GoV1.Req) (q2 : GoV2.Req) (hs : GoV1.SameCall q1 q2) (hb : ∀ ret, q2 ≠ .bytes ret)
    (hc : q2 ≠ .bool) (b : Bytes)
    (hm : ∀ k v, q2 = .map k v → b ≠ [kMap, k, v]) (hsl : ∀ k, q2 = .slice k → b ≠ [kSlice, k])
    (hst : q2 = .string → b ≠ [kString]) (he : q2 = .error → b ≠ [kError] ∧ b ≠ [kError, kString]) :
    GoV1.readItem q1 b = GoV2.readItem q2 b := by
  refine GoV1.readItem_eq hs hb hc b ?_
  clear hs hb hc
  intro hbare
  cases q2
  case map => exact hm _ _ rfl hbare
  case slice => exact hsl _ rfl hbare
  case string => exact hst rfl hbare
  case error => exact hbare.elim (he rfl).1 (he rfl).2
  all_goals exact hbare

/-- On those inputs both versions fail with the same error, but v1 has consumed everything. -/
theorem C30_bare_headers (k v : Byte) (ks vs : Bytes) :
    GoV1.readItem (.map (k :: ks) (v :: vs)) [kMap, k, v] = .ok ([], .error .InvalidMap) ∧
    GoV2.readItem (.map k v) [kMap, k, v] = .ok ([kMap, k, v], .error .InvalidMap) ∧
    GoV1.readItem (.slice (k :: ks)) [kSlice, k] = .ok ([], .error .InvalidSlice) ∧
    GoV2.readItem (.slice k) [kSlice, k] = .ok ([kSlice, k], .error .InvalidSlice) ∧
    GoV1.readItem .string [kString] = .ok ([], .error .InvalidString) ∧
    GoV2.readItem .string [kString] = .ok ([kString], .error .InvalidString) ∧
    GoV1.readItem .error [kError] = .ok ([], .error .InvalidError) ∧
    GoV2.readItem .error [kError] = .ok ([kError], .error .InvalidError) ∧
    GoV1.readItem .error [kError, kString] = .ok ([], .error .InvalidError) ∧
    GoV2.readItem .error [kError, kString] = .ok ([kString], .error .InvalidError) := by
  refine ⟨(GoV1.readItem_bare (.map k ks v vs) _ rfl).1, ?_, (GoV1.readItem_bare (.slice k ks) _ rfl).1, ?_,
    by decide, by decide, by decide, by decide, by decide, by decide⟩
  · simp only [GoV2.readItem, GoV2.decodeMap_spec, Go.bind_ok]; rfl
  · simp only [GoV2.readItem, GoV2.decodeSlice_spec, Go.bind_ok]; rfl

/-- `Bool`: the same on every input but a bool kind followed by a byte other than 0 and 1, which v1 reads
as false and v2 rejects. -/
theorem C30_bool (b : Bytes) :
    (∀ c r, b = kBool :: c :: r → c = 0 ∨ c = 1) → GoV1.readItem .bool b = GoV2.readItem .bool b := by
  intro h
  simp only [GoV1.readItem, GoV2.readItem, GoV1.decodeBool_spec, GoV2.decodeBool_spec]
  match b with
  | [] => rfl
  | [_] => rfl
  | m :: c :: r =>
    by_cases hm : m = kBool
    · subst hm
      rcases h c r rfl with rfl | rfl <;> rfl
    · simp [hm]

theorem C30_bool_differs (c : Byte) (r : Bytes) (h0 : c ≠ 0) (h1 : c ≠ 1) :
    GoV1.readItem .bool (kBool :: c :: r) = .ok (r, .value (.bool false)) ∧
    GoV2.readItem .bool (kBool :: c :: r) = .ok (kBool :: c :: r, .error .InvalidBool) := by
  have h0' : ¬ c = 0#8 := h0
  have h1' : ¬ c = 1#8 := h1
  constructor
  · simp [GoV1.readItem, GoV1.decodeBool_spec, h1', Outcome.ofErr]
  · simp [GoV2.readItem, GoV2.decodeBool_spec, h0', h1', Outcome.ofErr]

/-- `Bytes` without scratch slice: v1 succeeds exactly when v2 does, with the same result, except for v2's
anomaly on a length field of five continuation bytes (C13). -/
theorem C30_bytes_success (ret : Bytes) (b r v : Bytes) (hl : ∀ cs, b = kBytes :: kUint32 :: cs → ¬ Long 5 cs) :
    GoV1.readItem (.bytes none) b = .ok (r, .value (.bytes v)) ↔
      GoV2.readItem (.bytes ret) b = .ok (r, .value (.bytes v)) := by
  rw [GoV1.readItem_value_iff (.bytes none ret), GoV2.readItem_value_iff]
  have hret : ∀ p, GoV1.returned (.bytes none) (.bytes p) = .bytes p := by
    intro p; rw [GoV1.returned, GoV1.bytesResult_contents]; simp
  constructor
  · rintro (⟨i, p, hm, ha, rfl, h⟩ | ⟨h, _⟩)
    · cases hm
      rw [hret] at h
      injection h with h; subst h
      exact .inl ⟨.bytes .., p, ha, rfl⟩
    · simp at h
  · rintro (⟨hm, p, ha, rfl⟩ | ⟨_, cs, _, _, h, hlong, _⟩)
    · exact .inl ⟨_, p, hm, ha, rfl, (hret v).symm⟩
    · exact absurd hlong (hl cs h)

example : GoV1.SameCall (.map [5] [8]) (.map 5 8) ∧
    GoV1.readItem (.map [5] [8]) [2, 5, 8, 10, 3, 77] = .ok ([77], .value (.map 3 5 8)) :=
  ⟨.map .., by rw [C30_agree _ (.map 5 8) (.map ..) (by simp) (by simp) _ (by simp) (by simp) (by simp) (by simp)]; decide⟩

end Props
