import Verif.GoV2.ReadFacts
import Verif.GoV2.Log

/-!
# Properties of the v2 decoder on arbitrary bytes (C11-C16, C20, C22)

`readItem q b` is one decoder call `q` on the unread bytes `b`; `Spec.Accepts p i` (Spec/Grammar.lean)
says which byte strings are complete encodings of which items.
-/

namespace Props

open Spec GoV2

/-! ## C11: decoding never panics

Full claim: `∀ q b, readItem q b ≠ .panic`.  False. -/

/-- A call panics exactly when the input is the request's header followed by a varint that the end of
the input cuts off (at least one byte, fewer than the maximum, all with the continuation bit). -/
theorem C11_panics_exactly_on_cut_varints (q : Req) (b : Bytes) :
    readItem q b = .panic ↔ ∃ hd n cs, q.varint = some (hd, n) ∧ b = hd ++ cs ∧
      cs ≠ [] ∧ cs.length < n ∧ ∀ c ∈ cs, 128 ≤ c.toNat :=
  readItem_panic_iff q b

/-- No panic on any input whose last byte has no continuation bit, nor ever for requests without a
varint.  Missing with respect to C11: inputs cut inside a varint, where it is false. -/
theorem C11_no_panic_partial (q : Req) (b : Bytes)
    (h : q ∈ [Req.nil, .bool, .uint8, .float32, .float64] ∨ b = [] ∨ ∃ s c, b = s ++ [c] ∧ c.toNat < 128) :
    readItem q b ≠ .panic := by
  intro hp
  obtain ⟨hd, n, cs, hv, rfl, hne, hlt, hall⟩ := (readItem_panic_iff q b).mp hp
  rcases h with h | h | ⟨s, c, h, hc⟩
  · simp only [List.mem_cons, List.not_mem_nil, or_false] at h
    rcases h with rfl | rfl | rfl | rfl | rfl <;> simp [Req.varint] at hv
  · simp at h; exact hne h.2
  · obtain ⟨cs', l, rfl⟩ : ∃ cs' l, cs = cs' ++ [l] :=
      ⟨cs.dropLast, cs.getLast hne, (List.dropLast_concat_getLast hne).symm⟩
    rw [← List.append_assoc] at h
    have := (List.append_inj' h rfl).2
    simp at this; subst this
    have := hall l (by simp)
    omega

/-- Every request that reads a varint panics on some input, e.g. `Uint16` on `[9, 0x80]`. -/
theorem C11_false (q : Req) (hd : Bytes) (n : Nat) (h : q.varint = some (hd, n)) :
    readItem q (hd ++ [0x80]) = .panic := by
  refine (readItem_panic_iff q _).mpr ⟨hd, n, [0x80], h, rfl, by simp, ?_, by simp⟩
  cases q <;> simp [Req.varint] at h <;> simp [← h.2]

example : Req.uint16.varint = some ([kUint16], 3) ∧ readItem .uint16 [9, 0x80] = .panic := by decide

/-! ## C12: a failed read leaves the decoder where it was

Full claim: `readItem q b = .ok (r, o) → (∀ i, o ≠ .value i) → r = b`.  False for Map, Slice, String
and Error. -/

/-- Missing with respect to C12: Map, Slice, String, Error (for which see the next theorems). -/
theorem C12_failed_read_restores_partial (q : Req) (b r : Bytes) (o : Outcome)
    (hq : ∀ k v, q ≠ .map k v) (hq' : ∀ k, q ≠ .slice k) (hs : q ≠ .string) (he : q ≠ .error)
    (h : readItem q b = .ok (r, o)) (ho : ∀ i, o ≠ .value i) : r = b := by
  have := (readItem_fail h ho).2
  clear h
  cases q
  case map => exact absurd rfl (hq _ _)
  case slice => exact absurd rfl (hq' _)
  case string => exact absurd rfl hs
  case error => exact absurd rfl he
  all_goals exact this

example : readItem (.bytes [7, 7]) [kBytes, kUint32, 3, 1, 2] = .ok ([kBytes, kUint32, 3, 1, 2], .error .InvalidBytes) := by
  decide

/-- Where the other four can end up: after the part of the header that did match. -/
theorem C12_failed_read_position_partial (b r : Bytes) (o : Outcome) (ho : ∀ i, o ≠ .value i) :
    (∀ k v, readItem (.map k v) b = .ok (r, o) → r = b ∨ b = [kMap, k, v] ++ r) ∧
    (∀ k, readItem (.slice k) b = .ok (r, o) → r = b ∨ b = [kSlice, k] ++ r) ∧
    (readItem .string b = .ok (r, o) → r = b ∨ b = [kString] ++ r ∨
      ∃ cs, Varint 5 cs ∧ b = kString :: kUint32 :: cs ++ r ∧ r.length < groupSum cs % 2 ^ 32) ∧
    (readItem .error b = .ok (r, o) → r = b ∨ b = [kError] ++ r ∨ b = [kError, kString] ++ r ∨
      ∃ cs, Varint 5 cs ∧ b = kError :: kString :: kUint32 :: cs ++ r ∧ r.length < groupSum cs % 2 ^ 32) :=
  ⟨fun _ _ h => (readItem_fail h ho).2, fun _ h => (readItem_fail h ho).2,
   fun h => (readItem_fail h ho).2, fun h => (readItem_fail h ho).2⟩

/-- The full claim fails for each of the four. -/
theorem C12_false :
    (∀ k v x, x ≠ kUint32 → readItem (.map k v) [kMap, k, v, x] = .ok ([x], .error .InvalidMap)) ∧
    (∀ k x, x ≠ kUint32 → readItem (.slice k) [kSlice, k, x] = .ok ([x], .error .InvalidSlice)) ∧
    (∀ x, x ≠ kUint32 → readItem .string [kString, x] = .ok ([x], .error .InvalidString)) ∧
    (readItem .string [kString, kUint32, 2, 65] = .ok ([65], .error .InvalidString)) ∧
    (∀ x, x ≠ kString → readItem .error [kError, x] = .ok ([x], .error .InvalidError)) := by
  have hu : ∀ x, decodeUint32 [x] = .ok ([x], 0, some .InvalidUint32) := by
    intro x; rfl
  refine ⟨?_, ?_, ?_, by decide, ?_⟩
  · intro k v x hx
    simp [readItem, decodeMap_spec, hu, Outcome.ofErr]
  · intro k x hx
    simp [readItem, decodeSlice_spec, hu, Outcome.ofErr]
  · intro x hx
    simp [readItem, decodeString_spec, Tagged, hu, Outcome.ofErr]
  · intro x hx
    simp [readItem, decodeError_spec, decodeString_spec, Tagged, Outcome.ofErr]

/-! ## C13: a successful read makes progress -/

/-- Missing with respect to C13: `Bytes` on a length field of five or more continuation bytes. -/
theorem C13_progress_partial (q : Req) (b r : Bytes) (i : Item)
    (hq : ∀ ret cs, q = .bytes ret → b = kBytes :: kUint32 :: cs → ¬ Long 5 cs)
    (h : readItem q b = .ok (r, .value i)) : r.length < b.length := by
  rcases (readItem_value_iff ..).mp h with ⟨_, p, hp, rfl⟩ | ⟨ret, cs, rfl, _, rfl, hl, _⟩
  · have := hp.pos
    simp; omega
  · exact absurd hl (hq ret cs rfl rfl)

example : readItem .uint32 [kUint32, 0x85, 0x01, 7] = .ok ([7], .value (.uint32 133)) := by decide

/-- The excepted case: `Bytes` succeeds with the empty value and consumes nothing, for every input that
starts so. -/
theorem C13_false (ret cs : Bytes) (h : Long 5 cs) :
    readItem (.bytes ret) (kBytes :: kUint32 :: cs) = .ok (kBytes :: kUint32 :: cs, .value (.bytes [])) :=
  (readItem_value_iff ..).mpr (.inr ⟨ret, cs, rfl, rfl, rfl, h, rfl⟩)

example : Long 5 [0x80, 0x80, 0x80, 0x80, 0x80, 1] := by decide

/-! ## C14: decoding is local -/

/-- The unread part is always a suffix of the input, whatever the outcome. -/
theorem C14_only_moves_forward (q : Req) (b r : Bytes) (o : Outcome) (h : readItem q b = .ok (r, o)) :
    ∃ p, b = p ++ r := by
  by_cases ho : ∃ i, o = .value i
  · obtain ⟨i, rfl⟩ := ho
    rcases (readItem_value_iff ..).mp h with ⟨_, p, _, he⟩ | ⟨_, _, _, _, _, _, he⟩
    · exact ⟨p, he⟩
    · exact ⟨[], by simp [he]⟩
  · exact (readItem_fail h (fun i hi => ho ⟨i, hi⟩)).2.suffix

/-- A whole sequence of reads only moves forward. -/
theorem C14_sequence_only_moves_forward (qs : List Req) (b r : Bytes) (os : List Outcome)
    (h : readAll qs b = .ok (r, os)) : ∃ p, b = p ++ r := by
  induction qs generalizing b os with
  | nil => simp [readAll] at h; exact ⟨[], by simp [h.1]⟩
  | cons q qs ih =>
    simp only [readAll] at h
    obtain ⟨⟨b1, o⟩, h1, h2⟩ := bind_eq_ok.mp h
    obtain ⟨⟨b2, os'⟩, h3, h4⟩ := bind_eq_ok.mp h2
    simp at h4
    obtain ⟨rfl, rfl⟩ := h4
    obtain ⟨p1, rfl⟩ := C14_only_moves_forward q b b1 o h1
    obtain ⟨p2, rfl⟩ := ih _ _ h3
    exact ⟨p1 ++ p2, by simp⟩

/-- Appending bytes to the input changes neither the value nor the number of bytes consumed. -/
theorem C14_success_unaffected_by_appending (q : Req) (b r t : Bytes) (i : Item)
    (h : readItem q b = .ok (r, .value i)) : readItem q (b ++ t) = .ok (r ++ t, .value i) := by
  rcases (readItem_value_iff ..).mp h with ⟨hm, p, hp, rfl⟩ | ⟨ret, cs, rfl, rfl, rfl, hl, rfl⟩
  · exact (readItem_value_iff ..).mpr (.inl ⟨hm, p, hp, by simp⟩)
  · refine (readItem_value_iff ..).mpr (.inr ⟨ret, cs ++ t, rfl, rfl, rfl, ?_, rfl⟩)
    refine ⟨by have := hl.1; simp; omega, ?_⟩
    intro c hc
    rw [List.take_append_of_le_length hl.1] at hc
    exact hl.2 c hc

/-- A successful read that consumed something depends on nothing but the consumed bytes `p`. -/
theorem C14_success_depends_on_consumed_bytes_only (q : Req) (p r : Bytes) (i : Item) (hp : p ≠ [])
    (h : readItem q (p ++ r) = .ok (r, .value i)) (t : Bytes) : readItem q (p ++ t) = .ok (t, .value i) := by
  rcases (readItem_value_iff ..).mp h with ⟨hm, p', hp', he⟩ | ⟨ret, cs, rfl, rfl, _, hl, he⟩
  · rw [List.append_cancel_right he]
    exact (readItem_value_iff ..).mpr (.inl ⟨hm, p', hp', rfl⟩)
  · have := congrArg List.length he
    simp at this; exact absurd this hp

example : readItem .string ([kString, kUint32, 1, 65] ++ [9, 9]) = .ok ([9, 9], .value (.string [65])) := by decide

/-! ## C15: reads are type-checked -/

theorem C15_success_needs_kind (q : Req) (b r : Bytes) (i : Item) (h : readItem q b = .ok (r, .value i)) :
    b.head? = some q.kind ∧ Matches q i := by
  rcases (readItem_value_iff ..).mp h with ⟨hm, p, hp, rfl⟩ | ⟨ret, cs, rfl, rfl, rfl, _, _⟩
  · refine ⟨?_, hm⟩
    rw [List.head?_append, hp.head, hm.kind]; rfl
  · exact ⟨rfl, .bytes _ _⟩

/-- If the first byte is not the kind byte of the requested type (or there is none), the call returns
that type's error and consumes nothing. -/
theorem C15_kind_mismatch (q : Req) (b : Bytes) (h : b.head? ≠ some q.kind) :
    readItem q b = .ok (b, q.invalid) := by
  cases hr : readItem q b with
  | panic =>
    obtain ⟨hd, n, cs, hv, rfl, _⟩ := (readItem_panic_iff q b).mp hr
    exfalso; apply h
    clear hr h
    cases q <;> simp [Req.varint] at hv <;> simp [← hv.1, Req.kind]
  | ok x =>
    obtain ⟨r, o⟩ := x
    by_cases ho : ∃ i, o = .value i
    · obtain ⟨i, rfl⟩ := ho
      exact absurd (C15_success_needs_kind q b r i hr).1 h
    · obtain ⟨rfl, hf⟩ := readItem_fail hr (fun i hi => ho ⟨i, hi⟩)
      have hrb : r = b := hf.of_head h
      rw [hrb]

/-- Every failure reports the requested type's own error, never another one. -/
theorem C15_own_error (q : Req) (b r : Bytes) (o : Outcome) (h : readItem q b = .ok (r, o))
    (ho : ∀ i, o ≠ .value i) : o = q.invalid := (readItem_fail h ho).1

/-- ... and comes with the zero value of the result type. -/
theorem C15_zero_value_on_error (b r : Bytes) (e : Err) :
    (∀ k v s, decodeMap b k v = .ok (r, s, some e) → s = 0) ∧
    (∀ k s, decodeSlice b k = .ok (r, s, some e) → s = 0) ∧
    (∀ ret v, decodeBytes b ret = .ok (r, v, some e) → v = []) ∧
    (∀ v, decodeString b = .ok (r, v, some e) → v = []) ∧
    (∀ v, decodeError b = .ok (r, v, some e) → v = none) ∧
    (∀ v, decodeBool b = .ok (r, v, some e) → v = false) ∧
    (∀ v, decodeUint8 b = .ok (r, v, some e) → v = 0) ∧
    (∀ v, decodeUint16 b = .ok (r, v, some e) → v = 0) ∧
    (∀ v, decodeUint32 b = .ok (r, v, some e) → v = 0) ∧
    (∀ v, decodeUint64 b = .ok (r, v, some e) → v = 0) ∧
    (∀ v, decodeInt32 b = .ok (r, v, some e) → v = 0) ∧
    (∀ v, decodeInt64 b = .ok (r, v, some e) → v = 0) ∧
    (∀ v, decodeFloat32 b = .ok (r, v, some e) → v = 0) ∧
    (∀ v, decodeFloat64 b = .ok (r, v, some e) → v = 0) := by
  refine ⟨fun _ _ _ h => (decodeMap_fail h).1, fun _ _ h => (decodeSlice_fail h).1,
    fun _ _ h => (decodeBytes_fail h).1, fun _ h => (decodeString_fail h).1, fun _ h => (decodeError_fail h).1,
    fun _ h => (decodeBool_fail h).1, fun _ h => (decodeUint8_fail h).1, fun _ h => ?_, fun _ h => ?_,
    fun _ h => ?_, fun _ h => ?_, fun _ h => ?_, fun _ h => (decodeFloat32_fail h).1,
    fun _ h => (decodeFloat64_fail h).1⟩
  · rw [decodeUint16_var] at h; exact (varRead_fail h).1
  · rw [decodeUint32_var] at h; exact (varRead_fail h).1
  · rw [decodeUint64_var] at h; exact (varRead_fail h).1
  · rw [decodeInt32_var] at h; exact (varRead_fail h).1
  · rw [decodeInt64_var] at h; exact (varRead_fail h).1

example : ([kInt32, 1, 2] : Bytes).head? ≠ some Req.uint32.kind := by decide

/-! ## C16: varint decoding is exact -/

/-- Success, for every request and any input: the consumed bytes are an accepted encoding (see
`Spec.Accepts`: 1 to 3/5/10 groups, value = group sum modulo the width), and every accepted encoding
succeeds; the only other success is the `Bytes` anomaly of C13. -/
theorem C16_success_iff (q : Req) (b r : Bytes) (i : Item) :
    readItem q b = .ok (r, .value i) ↔
      (Matches q i ∧ ∃ p, Accepts p i ∧ b = p ++ r) ∨
      (∃ ret cs, q = .bytes ret ∧ i = .bytes [] ∧ b = kBytes :: kUint32 :: cs ∧ Long 5 cs ∧ r = b) :=
  readItem_value_iff q b r i

theorem C16_uint16_value (b r : Bytes) (v : BitVec 16) : decodeUint16 b = .ok (r, v, none) ↔
    ∃ cs, Varint 3 cs ∧ b = kUint16 :: cs ++ r ∧ v = BitVec.ofNat 16 (groupSum cs) := by
  rw [decodeUint16_var, varRead_ok_iff]

theorem C16_uint32_value (b r : Bytes) (v : BitVec 32) : decodeUint32 b = .ok (r, v, none) ↔
    ∃ cs, Varint 5 cs ∧ b = kUint32 :: cs ++ r ∧ v = BitVec.ofNat 32 (groupSum cs) := by
  rw [decodeUint32_var, varRead_ok_iff]

theorem C16_uint64_value (b r : Bytes) (v : BitVec 64) : decodeUint64 b = .ok (r, v, none) ↔
    ∃ cs, Varint 10 cs ∧ b = kUint64 :: cs ++ r ∧ v = BitVec.ofNat 64 (groupSum cs) := by
  rw [decodeUint64_var, varRead_ok_iff]

theorem C16_int32_value (b r : Bytes) (v : BitVec 32) : decodeInt32 b = .ok (r, v, none) ↔
    ∃ cs, Varint 5 cs ∧ b = kInt32 :: cs ++ r ∧ v = BitVec.ofInt 32 (unzigzag (groupSum cs % 2 ^ 32)) := by
  rw [decodeInt32_var, varRead_ok_iff]

theorem C16_int64_value (b r : Bytes) (v : BitVec 64) : decodeInt64 b = .ok (r, v, none) ↔
    ∃ cs, Varint 10 cs ∧ b = kInt64 :: cs ++ r ∧ v = BitVec.ofInt 64 (unzigzag (groupSum cs % 2 ^ 64)) := by
  rw [decodeInt64_var, varRead_ok_iff]

example : Varint 5 [0xff, 0xff, 0xff, 0xff, 0x7f] ∧ groupSum [0xff, 0xff, 0xff, 0xff, 0x7f] = 2 ^ 35 - 1 :=
  ⟨⟨[0xff, 0xff, 0xff, 0xff], 0x7f, rfl, by decide, by decide, by decide⟩, by decide⟩

/-- Rejection: exactly a wrong or missing kind byte, a bare kind byte, or as many continuation bytes as
the type allows groups; nothing is consumed. -/
theorem C16_rejected_iff (q : Req) (k : Byte) (n : Nat)
    (hq : (q, k, n) ∈ [(Req.uint16, kUint16, 3), (.uint32, kUint32, 5), (.uint64, kUint64, 10),
      (.int32, kInt32, 5), (.int64, kInt64, 10)]) (b : Bytes) :
    readItem q b = .ok (b, q.invalid) ↔
      b.head? ≠ some k ∨ b = [k] ∨ ∃ cs, b = k :: cs ∧ n ≤ cs.length ∧ ∀ c ∈ cs.take n, 128 ≤ c.toNat := by
  have key : ∀ {α : Type} (f : Nat → α) (z : α) (e : Err) (g : α → Item), 0 < n →
      ((varRead k n f (b, z, some e) b >>= fun x =>
        (pure (x.1, Outcome.ofErr x.2.2 (g x.2.1)) : Go (Bytes × Outcome))) = .ok (b, .error e) ↔
      b.head? ≠ some k ∨ b = [k] ∨ ∃ cs, b = k :: cs ∧ n ≤ cs.length ∧ ∀ c ∈ cs.take n, 128 ≤ c.toNat) := by
    intro α f z e g hn
    have := varRead_err_iff k n f b b b z z e e
    rw [bind_eq_ok]
    constructor
    · rintro ⟨⟨r, v, e'⟩, h1, h2⟩
      cases e' with
      | none => simp [Outcome.ofErr] at h2
      | some e' =>
        simp [Outcome.ofErr] at h2
        obtain ⟨rfl, rfl⟩ := h2
        obtain ⟨⟨_, rfl, _⟩, h3⟩ := (varRead_err_iff ..).mp h1
        rcases h3 with h3 | h3 | ⟨cs, rfl, h4, _⟩
        · exact .inl h3
        · exact .inr (.inl h3)
        · exact .inr (.inr ⟨cs, rfl, h4⟩)
    · intro h
      refine ⟨(b, z, some e), this.mpr ⟨⟨rfl, rfl, rfl⟩, ?_⟩, by simp [Outcome.ofErr]⟩
      rcases h with h3 | h3 | ⟨cs, rfl, h4⟩
      · exact .inl h3
      · exact .inr (.inl h3)
      · refine .inr (.inr ⟨cs, rfl, h4, ?_⟩)
        rintro rfl
        have := h4.1; simp at this; omega
  simp only [List.mem_cons, Prod.mk.injEq, List.not_mem_nil, or_false] at hq
  rcases hq with ⟨rfl, rfl, rfl⟩ | ⟨rfl, rfl, rfl⟩ | ⟨rfl, rfl, rfl⟩ | ⟨rfl, rfl, rfl⟩ | ⟨rfl, rfl, rfl⟩ <;>
    simp only [readItem, decodeUint16_var, decodeUint32_var, decodeUint64_var, decodeInt32_var, decodeInt64_var,
      Req.invalid] <;>
    exact key _ _ _ _ (by decide)

/-! ## C20: bools and floats -/

/-- `Bool` succeeds exactly on the kind byte followed by 0 or 1. -/
theorem C20_bool_strict (b r : Bytes) (v : Bool) :
    readItem .bool b = .ok (r, .value (.bool v)) ↔ b = [kBool, if v then 1 else 0] ++ r := by
  rw [readItem_value_iff]
  constructor
  · rintro (⟨_, p, hp, rfl⟩ | ⟨_, _, h, _⟩)
    · cases hp; rfl
    · simp at h
  · rintro rfl; exact .inl ⟨.bool v, _, .bool v, rfl⟩

theorem C20_bool_rejects (c : Byte) (r : Bytes) (h0 : c ≠ 0) (h1 : c ≠ 1) :
    readItem .bool (kBool :: c :: r) = .ok (kBool :: c :: r, .error .InvalidBool) := by
  have h0' : ¬ c = 0#8 := h0
  have h1' : ¬ c = 1#8 := h1
  simp [readItem, decodeBool_spec, h0', h1', Outcome.ofErr]

/-- Every 4-byte payload is accepted as a float32, and re-encoding the result gives the same bytes. -/
theorem C20_float32_bijection (rt : Runtime) (b0 : Buffer) (hb : Fresh b0) (p t : Bytes) (hp : p.length = 4) :
    ∃ v, readItem .float32 (kFloat32 :: p ++ t) = .ok (t, .value (.float32 v)) ∧
      ∃ b', encodeFloat32 rt b0 v = .ok b' ∧ b'.Bytes = .ok (kFloat32 :: p) := by
  refine ⟨BitVec.ofNat 32 (fromBigEndian p), (readItem_value_iff ..).mpr (.inl ⟨.float32 _, _, .float32 p hp, rfl⟩), ?_⟩
  obtain ⟨b', h1, ha⟩ := encodeItem_spec rt b0 (.float32 (BitVec.ofNat 32 (fromBigEndian p))) hb.usable trivial
  refine ⟨b', h1, ?_⟩
  rw [ha.usable.bytes, ha.written, hb.written]
  have hlt := fromBigEndian_lt p
  rw [hp] at hlt
  have := bigEndian_fromBigEndian p
  rw [hp] at this
  simp only [wire, List.nil_append, BitVec.toNat_ofNat]
  rw [Nat.mod_eq_of_lt (by omega), this]

theorem C20_float64_bijection (rt : Runtime) (b0 : Buffer) (hb : Fresh b0) (p t : Bytes) (hp : p.length = 8) :
    ∃ v, readItem .float64 (kFloat64 :: p ++ t) = .ok (t, .value (.float64 v)) ∧
      ∃ b', encodeFloat64 rt b0 v = .ok b' ∧ b'.Bytes = .ok (kFloat64 :: p) := by
  refine ⟨BitVec.ofNat 64 (fromBigEndian p), (readItem_value_iff ..).mpr (.inl ⟨.float64 _, _, .float64 p hp, rfl⟩), ?_⟩
  obtain ⟨b', h1, ha⟩ := encodeItem_spec rt b0 (.float64 (BitVec.ofNat 64 (fromBigEndian p))) hb.usable trivial
  refine ⟨b', h1, ?_⟩
  rw [ha.usable.bytes, ha.written, hb.written]
  have hlt := fromBigEndian_lt p
  rw [hp] at hlt
  have := bigEndian_fromBigEndian p
  rw [hp] at this
  simp only [wire, List.nil_append, BitVec.toNat_ofNat]
  rw [Nat.mod_eq_of_lt (by omega), this]

example : ([0x7f, 0xa0, 0x00, 0x01] : Bytes).length = 4 := rfl

/-! ## C22: claimed sizes are not checked against the input -/

theorem C22_map_claims_any_size (size : BitVec 32) (k v : Byte) :
    ∃ b, b.length ≤ 9 ∧ decodeMap b k v = .ok ([], size, none) := by
  have hs := varint_leb128 4 size.toNat (by omega)
  refine ⟨kMap :: k :: v :: kUint32 :: leb128 size.toNat, ?_, ?_⟩
  · have := hs.1.length_le; simp; omega
  · exact (decodeMap_ok_iff ..).mpr ⟨_, hs.1, by simp, by rw [hs.2]; simp⟩

theorem C22_slice_claims_any_size (size : BitVec 32) (k : Byte) :
    ∃ b, b.length ≤ 8 ∧ decodeSlice b k = .ok ([], size, none) := by
  have hs := varint_leb128 4 size.toNat (by omega)
  refine ⟨kSlice :: k :: kUint32 :: leb128 size.toNat, ?_, ?_⟩
  · have := hs.1.length_le; simp; omega
  · exact (decodeSlice_ok_iff ..).mpr ⟨_, hs.1, by simp, by rw [hs.2]; simp⟩

/-- `String`, `Bytes` and `Error` return only bytes that are in the input, right before the unread rest. -/
theorem C22_payload_is_from_input (b r : Bytes) :
    (∀ v, decodeString b = .ok (r, v, none) → ∃ hd, b = hd ++ v ++ r ∧ 3 ≤ hd.length) ∧
    (∀ v, decodeError b = .ok (r, some v, none) → ∃ hd, b = hd ++ v ++ r ∧ 4 ≤ hd.length) ∧
    (∀ ret v, decodeBytes b ret = .ok (r, v, none) → ∃ hd, b = hd ++ v ++ r) := by
  refine ⟨?_, ?_, ?_⟩
  · intro v h
    obtain ⟨cs, hc, _, rfl⟩ := (decodeString_ok_iff ..).mp h
    have := hc.length_pos
    exact ⟨kString :: kUint32 :: cs, by simp, by simp; omega⟩
  · intro v h
    obtain ⟨cs, hc, _, rfl⟩ := (decodeError_ok_iff ..).mp h
    have := hc.length_pos
    exact ⟨kError :: kString :: kUint32 :: cs, by simp, by simp; omega⟩
  · intro ret v h
    rcases (decodeBytes_ok_iff ..).mp h with ⟨cs, hc, _, rfl⟩ | ⟨cs, hc, rfl, rfl, rfl⟩
    · exact ⟨kBytes :: kUint32 :: cs, by simp⟩
    · exact ⟨[], by simp⟩

example : decodeMap [2, 5, 8, 10, 0xff, 0xff, 0xff, 0xff, 0x0f] 5 8 = .ok ([], 0xffffffff#32, none) := by decide

end Props
