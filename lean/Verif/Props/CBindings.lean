import Verif.CApi.Cycle

/-!
# Properties of the C bindings (C39, C40, C58, C59)

`CApi.run std al c m` is the call `c` of a function of polyglot.h with memory `m`: it returns a value and the
memory afterwards, aborts the process, or has undefined behaviour.  `std` is the Rust standard library (two
versions of `read_exact`, see C54) and `al` the allocator (strict about sizes, or not).
-/

namespace Props

open Spec CApi
open Rust (Cursor Std Out DecodingError)

/-- A small memory for the examples: a status at 2, a decoder at 3 and an encoder at 4. -/
def cMem (input : Bytes) : Mem where
  obj p := if p = 2 then some (.status .Fail) else if p = 3 then some (.decoder ⟨input, 0⟩) else if p = 4 then some (.encoder ⟨[], 0⟩) else none
  next := 5

theorem cMem_ok (input : Bytes) : (cMem input).Ok := by
  refine ⟨by simp [cMem], fun p o h => ?_⟩
  simp only [cMem] at h ⊢
  split at h
  · omega
  · split at h
    · omega
    · split at h
      · omega
      · simp at h

/-! ## C39 -/

/-- A null encoder, decoder or buffer is reported: the status becomes NullPointer, the zero value of the
return type is returned and nothing else in memory changes. All functions but `polyglot_decode_none`. -/
theorem C39_null_reported_partial (std : Std) (al : Allocator) (c : Call) (st : Ptr) (hs : c.status = some st)
    (hn : c.nullArgument = true) (hd : ∀ a b, c ≠ .decode_none a b) (m : Mem) (hm : m.Ok) (s0 : Status)
    (hst : m.obj st = some (.status s0)) :
    run std al c m = .ret c.zero (m.set st (some (.status .NullPointer))) :=
  run_null std al c hs hn hd hst (hm.ne0 hst)

/-- The exception: `polyglot_decode_none` on a null decoder goes on and dereferences it. -/
theorem C39_false_decode_none (std : Std) (al : Allocator) (st : Ptr) (m : Mem) (hm : m.Ok) (s0 : Status)
    (hst : m.obj st = some (.status s0)) : run std al (.decode_none st 0) m = .ub :=
  run_decode_none_null std al st m hm.null (hm.ne0 hst) hst

/-- A null string is not checked for: `polyglot_encode_string` and `polyglot_encode_error` dereference it. -/
theorem C39_false_null_string (std : Std) (al : Allocator) (st e : Ptr) (m : Mem) (hm : m.Ok) (s0 : Status)
    (hst : m.obj st = some (.status s0)) (cur : Cursor) (he : m.obj e = some (.encoder cur)) :
    run std al (.encode_string st e 0) m = .ub ∧ run std al (.encode_error st e 0) m = .ub :=
  run_encode_string_null std al st e m hm.null (hm.ne0 hst) (hm.ne0 he)

/-- A string without a zero byte at its end is not noticed either: `polyglot_encode_string` and `polyglot_encode_error` read on past the
memory that it is in. -/
theorem C39_false_unterminated_string (std : Std) (al : Allocator) (st e p : Ptr) (m : Mem) (hm : m.Ok) (s0 : Status)
    (hst : m.obj st = some (.status s0)) (cur : Cursor) (he : m.obj e = some (.encoder cur)) (d : Bytes) (hp : m.obj p = some (.block d))
    (hz : (0 : Byte) ∉ d) :
    run std al (.encode_string st e p) m = .ub ∧ run std al (.encode_error st e p) m = .ub := by
  have hc : cstr p m = .ub := by
    have hl : load p m = .ret (.block d) m := by simp [load, hp]
    unfold cstr
    rw [bind_ret hl]
    show (if (0 : Byte) ∈ d then pure (d.takeWhile (· != 0)) else C.ub : C Bytes) m = .ub
    rw [if_neg hz]
    rfl
  constructor
  · refine ret_ub ?_
    simp only [CApi.encode_string]
    rw [bind_ret (check_ok (hm.ne0 hst) m)]
    simp only [if_neg (hm.ne0 he)]
    exact bind_ub hc _
  · refine ret_ub ?_
    simp only [CApi.encode_error]
    rw [bind_ret (check_ok (hm.ne0 hst) m)]
    simp only [if_neg (hm.ne0 he)]
    exact bind_ub hc _

/-- The string `ab` in two bytes of memory. -/
example (std : Std) (al : Allocator) : ∃ m : Mem, m.Ok ∧ run std al (.encode_string 2 4 5) m = .ub := by
  let m : Mem := { obj := fun p => if p = 5 then some (.block [97, 98]) else (cMem []).obj p, next := 6 }
  have hm : m.Ok := by
    refine ⟨by simp [m, cMem], fun p o h => ?_⟩
    simp only [m, cMem] at h ⊢
    repeat' split at h
    all_goals first | omega | cases h
  exact ⟨m, hm, (C39_false_unterminated_string std al 2 4 5 m hm .Fail (by simp [m, cMem]) ⟨[], 0⟩ (by simp [m, cMem]) [97, 98] (by simp [m]) (by decide)).1⟩

/-- A null status aborts the process in every function that has one, whatever the other arguments. -/
theorem C39_null_status_aborts (std : Std) (al : Allocator) (c : Call) (hs : c.status = some 0) (m : Mem) :
    run std al c m = .abort := run_null_status std al c hs m

/-- Freeing null does nothing. -/
theorem C39_null_free (std : Std) (al : Allocator) (c : Call) (hs : c.status = none) (hn : c.nullArgument = true) (m : Mem) :
    run std al c m = .ret .unit m := run_null_free std al c hs hn m

example (std : Std) (al : Allocator) : run std al (.encoder_buffer 2 4 0 7) (cMem []) =
    .ret .unit ((cMem []).set 2 (some (.status .NullPointer))) :=
  C39_null_reported_partial std al (.encoder_buffer 2 4 0 7) 2 rfl rfl (by simp) _ (cMem_ok []) .Fail rfl

/-! ## C40 -/

/-- An encode call on a live encoder does to it what the Rust encoder does, sets the status to Pass and changes
nothing else. -/
theorem C40_encode_call (std : Std) (al : Allocator) (c : Call) (m : Mem) (hm : m.Ok) (st e : Ptr) (i : Item)
    (hc : c.encodes m = some (st, e, i)) (s0 : Status) (cur : Cursor) (hst : m.obj st = some (.status s0))
    (he : m.obj e = some (.encoder cur)) (cur' : Cursor) (hr : Rust.encodeItem i cur = (.ok (), cur')) :
    run std al c m = .ret .unit ((m.set e (some (.encoder cur'))).set st (some (.status .Pass))) :=
  run_encode std al c hm hc hst he hr

/-- In terms of bytes: the encoder's bytes grow by the wire encoding of the item. -/
theorem C40_encode_appends (std : Std) (al : Allocator) (c : Call) (m : Mem) (hm : m.Ok) (st e : Ptr) (i : Item)
    (hc : c.encodes m = some (st, e, i)) (hk : Rust.Item.KindsOk i) (hf : i.Fits) (s0 : Status) (vec : Bytes)
    (hst : m.obj st = some (.status s0)) (he : m.obj e = some (.encoder ⟨vec, vec.length⟩)) :
    ∃ m', run std al c m = .ret .unit m' ∧ m'.obj st = some (.status .Pass) ∧
      m'.obj e = some (.encoder ⟨vec ++ wire i, (vec ++ wire i).length⟩) ∧
      ∀ p, p ≠ st → p ≠ e → m'.obj p = m.obj p := by
  have hne : e ≠ st := by rintro rfl; rw [hst] at he; simp at he
  have hw : Rust.encodeItem i ⟨vec, vec.length⟩ = (.ok (), ⟨vec ++ wire i, (vec ++ wire i).length⟩) := by
    rw [Rust.encodeItem_writes i hk hf, Rust.write_all]
    have : wire i ≠ [] := by cases i <;> simp [wire]
    rw [if_neg this]
    simp [Rust.writeAt]
  refine ⟨_, run_encode std al c hm hc hst he hw, set_same _ _ _, ?_, fun p h1 h2 => ?_⟩
  · rw [set_other _ _ hne, set_same]
  · rw [set_other _ _ h1, set_other _ _ h2]

/-- A string that is not UTF-8 is refused: status Fail, the encoder is untouched. -/
theorem C40_encode_string_utf8 (std : Std) (al : Allocator) (m : Mem) (hm : m.Ok) (st e p : Ptr) (s0 : Status) (cur : Cursor)
    (hst : m.obj st = some (.status s0)) (he : m.obj e = some (.encoder cur)) (v rest : Bytes)
    (hv : (0 : Byte) ∉ v) (hu : utf8 v = false) (hp : m.obj p = some (.block (v ++ 0 :: rest))) :
    run std al (.encode_string st e p) m = .ret .unit (m.set st (some (.status .Fail))) ∧
    run std al (.encode_error st e p) m = .ret .unit (m.set st (some (.status .Fail))) := by
  have htw : (v ++ 0 :: rest).takeWhile (· != 0) = v := by
    rw [show v ++ 0 :: rest = (v ++ [0]) ++ rest by simp, List.takeWhile_append]
    rw [takeWhile_cstr hv]; simp
  have hcs := cstr_ok hp (by simp)
  rw [htw] at hcs
  constructor
  · refine ret_ret (a := ()) ?_
    simp only [CApi.encode_string]
    rw [bind_ret (check_ok (hm.ne0 hst) m)]
    simp only [if_neg (hm.ne0 he)]
    rw [bind_ret hcs]
    simp only [hu, Bool.false_eq_true, if_false]
    exact setStatus_ok hst _
  · refine ret_ret (a := ()) ?_
    simp only [CApi.encode_error]
    rw [bind_ret (check_ok (hm.ne0 hst) m)]
    simp only [if_neg (hm.ne0 he)]
    rw [bind_ret hcs]
    simp only [hu, Bool.false_eq_true, if_false]
    exact setStatus_ok hst _

/-- A decode call that succeeds in Rust: status Pass, the decoder's cursor is where Rust leaves it, the result (and the
memory it points to) shows the item, and nothing else that existed has changed. -/
theorem C40_decode_success (std : Std) (al : Allocator) (c : Call) (m : Mem) (hm : m.Ok) (st d : Ptr) (q : Rust.Req)
    (hc : c.decodes = some (st, d, q)) (s0 : Status) (cur : Cursor) (hst : m.obj st = some (.status s0))
    (hd : m.obj d = some (.decoder cur)) (i : Item) (cur' : Cursor) (hr : Rust.readItem std q cur = (.ok i, cur'))
    (hn : Item.NoNul i) :
    ∃ v m', run std al c m = .ret v m' ∧ m'.obj st = some (.status .Pass) ∧ m'.obj d = some (.decoder cur') ∧
      Shows m' v i ∧ ∀ p, m.obj p ≠ none → p ≠ st → p ≠ d → m'.obj p = m.obj p := by
  obtain ⟨v, m', h1, h2, h3, h4, h5, _⟩ := run_decode_ok std al c hm hc hst hd hr hn
  refine ⟨v, m', h1, h2, h3, h4, fun p hp a b => ?_⟩
  cases hx : m.obj p with
  | none => exact absurd hx hp
  | some o => rw [← hx]; exact h5.frame p (hm.range _ _ hx).2 (by simp [a, b]) (by simp)

/-- A decode call that fails in Rust: status Fail, the zero value, the decoder's cursor where Rust leaves it. -/
theorem C40_decode_failure (std : Std) (al : Allocator) (c : Call) (m : Mem) (hm : m.Ok) (st d : Ptr) (q : Rust.Req)
    (hc : c.decodes = some (st, d, q)) (s0 : Status) (cur : Cursor) (hst : m.obj st = some (.status s0))
    (hd : m.obj d = some (.decoder cur)) (e : DecodingError) (cur' : Cursor) (hr : Rust.readItem std q cur = (.err e, cur')) :
    run std al c m = .ret c.zero ((m.set d (some (.decoder cur'))).set st (some (.status .Fail))) :=
  run_decode_err std al c hm hc hst hd hr

/-- `polyglot_decode_none` has the effect and the result of the Rust call, but the status keeps its old value. -/
theorem C40_decode_none_status (std : Std) (al : Allocator) (m : Mem) (hm : m.Ok) (st d : Ptr) (s0 : Status) (cur : Cursor)
    (hst : m.obj st = some (.status s0)) (hd : m.obj d = some (.decoder cur)) (b : Bool) (cur' : Cursor)
    (hr : Rust.decode_none std cur = (.ok b, cur')) :
    ∃ m', run std al (.decode_none st d) m = .ret (.bool b) m' ∧ m'.obj d = some (.decoder cur') ∧
      m'.obj st = some (.status s0) := by
  have hne : st ≠ d := by rintro rfl; rw [hst] at hd; simp at hd
  exact ⟨_, run_decode_none std al hm hst hd hr, set_same _ _ _, by rw [set_other _ _ hne]; exact hst⟩

/-- `polyglot_encoder_size` succeeds without setting the status either: an old Fail stays. -/
theorem C40_encoder_size_status (std : Std) (al : Allocator) (m : Mem) (hm : m.Ok) (st e : Ptr) (s0 : Status) (cur : Cursor)
    (hst : m.obj st = some (.status s0)) (he : m.obj e = some (.encoder cur)) :
    run std al (.encoder_size st e) m = .ret (.u32 (BitVec.ofNat 32 cur.vec.length)) m :=
  ret_ret (encoder_size_ok hm hst he)

/-- `polyglot_encoder_buffer` with enough room copies all bytes to the start of the block. -/
theorem C40_encoder_buffer (std : Std) (al : Allocator) (m : Mem) (hm : m.Ok) (st e p : Ptr) (s0 : Status) (cur : Cursor)
    (old : Bytes) (n : BitVec 32) (hst : m.obj st = some (.status s0)) (he : m.obj e = some (.encoder cur))
    (hp : m.obj p = some (.block old)) (hn : n.toNat ≤ old.length) (hc : cur.vec.length ≤ n.toNat) :
    run std al (.encoder_buffer st e p n) m =
      .ret .unit ((m.set p (some (.block (cur.vec ++ old.drop cur.vec.length)))).set st (some (.status .Pass))) :=
  ret_ret (f := fun _ => .unit) (a := ()) (encoder_buffer_ok hm hst he hp hn hc)

/-- With too little room it fails and the block is untouched (messages below 4 GiB). -/
theorem C40_encoder_buffer_small (std : Std) (al : Allocator) (m : Mem) (hm : m.Ok) (st e p : Ptr) (s0 : Status) (cur : Cursor)
    (old : Bytes) (n : BitVec 32) (hst : m.obj st = some (.status s0)) (he : m.obj e = some (.encoder cur))
    (hp : m.obj p = some (.block old)) (hc : n.toNat < cur.vec.length) (hl : cur.vec.length < 2 ^ 32) :
    run std al (.encoder_buffer st e p n) m = .ret .unit (m.set st (some (.status .Fail))) := by
  refine ret_ret (f := fun _ => .unit) (a := ()) ?_
  simp only [encoder_buffer]
  rw [bind_ret (check_ok (hm.ne0 hst) m)]
  simp only [if_neg (show ¬ (e = 0 ∨ p = 0) from fun h => h.elim (hm.ne0 he) (hm.ne0 hp))]
  rw [bind_ret (encoderCursor_ok he)]
  have hlt : n < BitVec.ofNat 32 cur.vec.length := by
    rw [BitVec.lt_def, GoV2.toNat_len32 hl]; exact hc
  simp only [if_pos hlt]
  rw [bind_ret (setStatus_ok hst _)]; rfl

/-- From 4 GiB on the room check is wrong: the size is reported modulo 2^32, and with a block of exactly that size
`polyglot_encoder_buffer` copies a proper prefix of the message and reports Pass. -/
theorem C40_false_four_gib (std : Std) (al : Allocator) (m : Mem) (hm : m.Ok) (st e p : Ptr) (s0 : Status) (cur : Cursor)
    (old : Bytes) (hst : m.obj st = some (.status s0)) (he : m.obj e = some (.encoder cur))
    (hp : m.obj p = some (.block old)) (hl : 2 ^ 32 ≤ cur.vec.length)
    (hold : old.length = cur.vec.length % 2 ^ 32) (h0 : old.length ≠ 0) :
    ∃ n : BitVec 32, run std al (.encoder_size st e) m = .ret (.u32 n) m ∧ n.toNat = old.length ∧
      ∃ m', run std al (.encoder_buffer st e p n) m = .ret .unit m' ∧ m'.obj st = some (.status .Pass) ∧
        m'.obj p = some (.block (cur.vec.take old.length)) ∧ cur.vec.take old.length ≠ cur.vec := by
  have hsp : st ≠ p := by rintro rfl; rw [hst] at hp; simp at hp
  refine ⟨BitVec.ofNat 32 cur.vec.length, ret_ret (encoder_size_ok hm hst he), by rw [BitVec.toNat_ofNat, hold], ?_⟩
  have hnlen : (BitVec.ofNat 32 cur.vec.length).toNat = old.length := by rw [BitVec.toNat_ofNat, hold]
  have hle : old.length ≤ cur.vec.length := by rw [hold]; exact Nat.mod_le _ _
  refine ⟨(m.set p (some (.block (cur.vec.take old.length)))).set st (some (.status .Pass)), ?_, set_same _ _ _, ?_, ?_⟩
  · refine ret_ret (f := fun _ => .unit) (a := ()) ?_
    simp only [encoder_buffer]
    rw [bind_ret (check_ok (hm.ne0 hst) m)]
    simp only [if_neg (show ¬ (e = 0 ∨ p = 0) from fun h => h.elim (hm.ne0 he) (hm.ne0 hp))]
    rw [bind_ret (encoderCursor_ok he)]
    simp only [if_neg (show ¬ (BitVec.ofNat 32 cur.vec.length < BitVec.ofNat 32 cur.vec.length) from BitVec.lt_irrefl _)]
    have hrs := rawSlice_ok hp (Nat.le_refl _)
    rw [List.take_length] at hrs
    rw [hnlen, bind_ret hrs]
    have hmin : min old.length cur.vec.length = old.length := by omega
    simp only [hmin, ne_eq, h0, not_false_eq_true, if_true]
    rw [bind_ret (load_some hp)]
    simp only [List.drop_length, List.append_nil]
    rw [bind_ret (store_some hp _)]
    exact setStatus_ok (s0 := s0) (by rw [set_other _ _ hsp]; exact hst) _
  · rw [set_other _ _ (Ne.symm hsp), set_same]
  · intro h
    have h1 := congrArg List.length h
    rw [List.length_take] at h1
    have h2 : cur.vec.length % 2 ^ 32 < 2 ^ 32 := Nat.mod_lt _ (by decide)
    omega

/-- Any sequence of items can be sent through memory by a C program (encode everything, ask for the size, copy out, free the encoder,
decode, free the decoder, freeing every string on the way): it gets the same items back, its memory is as before
except for the status, and nothing is leaked unless there are byte slices (see C59). -/
theorem C40_cycle (std : Std) (al : Allocator) (m : Mem) (hm : m.Ok) (st : Ptr) (s0 : Status)
    (hst : m.obj st = some (.status s0)) (is : List Item) (hk : ∀ i ∈ is, Rust.Item.KindsOk i)
    (hf : ∀ i ∈ is, i.Fits) (hu : ∀ i ∈ is, Rust.Item.Utf8Ok i) (hn : ∀ i ∈ is, Item.NoNul i)
    (hl : (wireAll is).length < 2 ^ 32) :
    ∃ m', cycle std al st is (is.map shape) m = .ret (some is) m' ∧
      ∀ p, p ≠ st → (m.obj p ≠ none ∨ is.any isBytes = false) → m'.obj p = m.obj p := by
  obtain ⟨m', h1, h2, _⟩ := cycle_ok std al hm hst is hk hf hu hn hl
  exact ⟨m', h1, h2⟩

/-- A string with a zero byte, which Go, Rust and TypeScript can send, cannot be received: status Fail and null, although
the decoder has consumed the string. -/
theorem C40_false_interior_nul (std : Std) (al : Allocator) (m : Mem) (hm : m.Ok) (st d : Ptr) (s0 : Status) (cur : Cursor)
    (hst : m.obj st = some (.status s0)) (hd : m.obj d = some (.decoder cur)) (v t : Bytes) (hv : (0 : Byte) ∈ v)
    (hu : utf8 v = true) (hf : v.length < 2 ^ 32) (hr : cur.rest = wire (.string v) ++ t) :
    run std al (.decode_string st d) m =
      .ret (.ptr 0) ((m.set d (some (.decoder (cur.adv (wire (.string v)).length)))).set st (some (.status .Fail))) := by
  refine run_decode_nul std al (.decode_string st d) hm rfl hst hd (i := .string v) ?_ (fun h => h hv)
  exact (Rust.readItem_value_iff ..).mpr (.inl ⟨_, t, .string v, wire_accepts hf, hu, hr, rfl⟩)

/-- The kind numbers of polyglot.h are the kind bytes of the wire format. -/
theorem C40_kind_numbers (k : Kind) : k.into.toU8 = k.value ∧ Rust.Kind.ofU8 k.value = k.into :=
  ⟨kind_into_value k, ofU8_value k⟩

example (std : Std) (al : Allocator) :
    ∃ m', cycle std al 2 [.slice 2 5, .string [104, 105], .string [], .nil, .error [33], .bytes [0, 0], .float64 77]
      ([.slice 2 5, .string [104, 105], .string [], .nil, .error [33], .bytes [0, 0], .float64 77].map shape) (cMem []) =
        .ret (some [.slice 2 5, .string [104, 105], .string [], .nil, .error [33], .bytes [0, 0], .float64 77]) m' ∧
      m'.obj 4 = some (.encoder ⟨[], 0⟩) := by
  obtain ⟨m', h1, h2⟩ := C40_cycle std al (cMem []) (cMem_ok []) 2 .Fail rfl
    [.slice 2 5, .string [104, 105], .string [], .nil, .error [33], .bytes [0, 0], .float64 77]
    (by decide) (by simp [Item.Fits]) (by simp [Rust.Item.Utf8Ok]; decide) (by simp [Item.NoNul])
    (by simp [wireAll, wire, size32, leb128])
  exact ⟨m', h1, (h2 4 (by decide) (.inl (by simp [cMem]))).trans rfl⟩

/-! ## C58 -/

/-- A call whose pointer arguments are valid (of the right type, or null where allowed) returns: no undefined behaviour and no abort.
It writes only to the objects named in its arguments, which keep their type (and size), frees only what it
is asked to free, and everything it allocates is at fresh addresses. -/
theorem C58_valid_call_safe (std : Std) (al : Allocator) (c : Call) (m : Mem) (hm : m.Ok) (hv : c.Valid al m) :
    ∃ v m', run std al c m = .ret v m' ∧ Evolves c.writes (c.frees m) m m' :=
  run_safe std al c hm hv

/-- Several calls, one after the other. -/
def runAll (std : Std) (al : Allocator) : List Call → C (List Val)
  | [] => return []
  | c :: cs => do return (← run std al c) :: (← runAll std al cs)

/-- Every call has valid arguments when its turn comes. -/
def ValidAll (std : Std) (al : Allocator) : Mem → List Call → Prop
  | _, [] => True
  | m, c :: cs => c.Valid al m ∧ ∀ v m', run std al c m = .ret v m' → ValidAll std al m' cs

/-- The objects freed by a sequence of calls. -/
def freesAll (std : Std) (al : Allocator) : Mem → List Call → List Ptr
  | _, [] => []
  | m, c :: cs => c.frees m ++ match run std al c m with
    | .ret _ m' => freesAll std al m' cs
    | _ => []

/-- A program that only makes valid calls never has undefined behaviour and is never aborted, however many
calls it makes; objects that none of its calls writes or frees are as before. -/
theorem C58_valid_program_safe (std : Std) (al : Allocator) (cs : List Call) : ∀ (m : Mem), m.Ok → ValidAll std al m cs →
    ∃ vs m', runAll std al cs m = .ret vs m' ∧ vs.length = cs.length ∧ m'.Ok ∧
      ∀ p, p < m.next → (∀ c ∈ cs, p ∉ c.writes) → p ∉ freesAll std al m cs → m'.obj p = m.obj p := by
  induction cs with
  | nil => intro m hm _; exact ⟨[], m, rfl, rfl, hm, fun _ _ _ _ => rfl⟩
  | cons c cs ih =>
    intro m hm ⟨hv, hall⟩
    obtain ⟨v, m1, h1, e1⟩ := run_safe std al c hm hv
    obtain ⟨vs, m2, h2, hl, hok, hfr⟩ := ih m1 e1.ok (hall v m1 h1)
    refine ⟨v :: vs, m2, ?_, by simp [hl], hok, fun p hp hw hf => ?_⟩
    · simp only [runAll]; rw [bind_ret h1, bind_ret h2]; rfl
    · simp only [freesAll, h1, List.mem_append, not_or] at hf
      rw [hfr p (Nat.lt_of_lt_of_le hp e1.next) (fun c' h => hw c' (by simp [h])) hf.2]
      exact e1.frame p hp (hw c (by simp)) hf.1

/-- Hostile input is harmless: a decoder over any bytes, and any sequence of decode calls on it, returns. -/
theorem C58_decoder_on_any_input (std : Std) (al : Allocator) (st d : Ptr) (cs : List Call) :
    (∀ c ∈ cs, (∃ q, c.decodes = some (st, d, q)) ∨ c = .decode_none st d) → ∀ (m : Mem), m.Ok → ∀ (s0 : Status) (cur : Cursor),
      m.obj st = some (.status s0) → m.obj d = some (.decoder cur) →
    ∃ vs m', runAll std al cs m = .ret vs m' ∧ vs.length = cs.length := by
  intro hcs m hm s0 cur hst hd
  suffices h : ValidAll std al m cs by
    obtain ⟨vs, m', h1, h2, _⟩ := C58_valid_program_safe std al cs m hm h
    exact ⟨vs, m', h1, h2⟩
  have key : ∀ (cs : List Call), (∀ c ∈ cs, (∃ q, c.decodes = some (st, d, q)) ∨ c = .decode_none st d) → ∀ (m : Mem), m.Ok →
      StatusAt m st → (∃ c, m.obj d = some (.decoder c)) → ValidAll std al m cs := by
    intro cs
    induction cs with
    | nil => intros; trivial
    | cons c cs ih =>
      intro hcs m hm hst hd
      have hval : c.Valid al m ∧ c.writes = [st, d] ∧ c.frees m = [] := by
        have h0 : d ≠ 0 := by obtain ⟨x, hx⟩ := hd; exact hm.ne0 hx
        rcases hcs c (by simp) with ⟨q, hq⟩ | rfl
        · cases c
          all_goals simp only [Call.decodes, Option.some.injEq, Prod.mk.injEq, reduceCtorEq] at hq
          all_goals obtain ⟨rfl, rfl, rfl⟩ := hq
          all_goals exact ⟨⟨hst, .inr hd⟩, rfl, rfl⟩
        · exact ⟨⟨hst, .inr hd, h0⟩, rfl, rfl⟩
      refine ⟨hval.1, fun v m' hr => ?_⟩
      obtain ⟨v', m1, h1, e1⟩ := run_safe std al c hm hval.1
      rw [hr] at h1
      cases h1
      rw [hval.2.1, hval.2.2] at e1
      refine ih (fun c' h => hcs c' (by simp [h])) m' e1.ok (hst.evolve hm e1 (by simp)) ?_
      obtain ⟨x, hx⟩ := hd
      have ht := e1.types d (hm.range _ _ hx).2 (by simp)
      rw [hx] at ht
      cases hy : m'.obj d with
      | none => rw [hy] at ht; simp at ht
      | some o => rw [hy] at ht; cases o <;> simp [Obj.type] at ht; exact ⟨_, rfl⟩
  exact key cs hcs m hm ⟨_, hst⟩ ⟨_, hd⟩

/-- Every encoder that was created can be freed, once, and then memory is as before apart from the status. -/
theorem C58_create_free (std : Std) (al : Allocator) (m : Mem) (hm : m.Ok) (st : Ptr) (s0 : Status)
    (hst : m.obj st = some (.status s0)) :
    ∃ e m1 m2, run std al (.new_encoder st) m = .ret (.ptr e) m1 ∧ run std al (.free_encoder e) m1 = .ret .unit m2 ∧
      m2.obj = (m.set st (some (.status .Pass))).obj ∧ run std al (.free_encoder e) m2 = .ub := by
  have hok : (m.set st (some (.status .Pass))).Ok := hm.set hst _
  have he : ((m.set st (some (.status .Pass))).push (.encoder ⟨[], 0⟩)).obj m.next = some (.encoder ⟨[], 0⟩) :=
    push_next (m.set st (some (.status .Pass))) _
  have h0 : m.next ≠ 0 := by have := hm.low; omega
  have hnone : (((m.set st (some (.status .Pass))).push (.encoder ⟨[], 0⟩)).set m.next none).obj m.next = none := set_same _ _ _
  refine ⟨m.next, _, _, ret_ret (new_encoder_ok hm hst), ret_ret (a := ()) (m' := ((m.set st (some (.status .Pass))).push (.encoder ⟨[], 0⟩)).set m.next none) ?_, ?_, ?_⟩
  · simp only [free_encoder, ne_eq, h0, not_false_eq_true, if_true]
    rw [bind_ret (encoderCursor_ok he)]; exact release_ok he
  · funext p
    by_cases hp : p = m.next
    · subst hp; rw [set_same]; exact hok.fresh.symm
    · rw [set_other _ _ hp]; exact push_ne (m := m.set st (some (.status .Pass))) _ hp
  · refine ret_ub ?_
    simp only [free_encoder, ne_eq, h0, not_false_eq_true, if_true]
    refine bind_ub ?_ _
    simp only [encoderCursor]
    exact bind_ub (load_none hnone) _

example (std : Std) (al : Allocator) (input : Bytes) :
    ∃ vs m', runAll std al [.decode_string 2 3, .decode_none 2 3, .decode_bytes 2 3, .decode_map 2 3 .U8 .Any] (cMem input) = .ret vs m' ∧
      vs.length = 4 :=
  C58_decoder_on_any_input std al 2 3 _ (by simp [Call.decodes]) _ (cMem_ok input) .Fail ⟨input, 0⟩ rfl rfl

/-- The same for decoders: a decoder over caller's bytes starts at position 0 with its own copy of them, can be freed, once, and then
memory is as before apart from the status. -/
theorem C58_create_free_decoder (std : Std) (al : Allocator) (m : Mem) (hm : m.Ok) (st p : Ptr) (s0 : Status) (v : Bytes) (hl : v.length < 2 ^ 32)
    (hst : m.obj st = some (.status s0)) (hp : m.obj p = some (.block v)) :
    ∃ d m1 m2, run std al (.new_decoder st p (BitVec.ofNat 32 v.length)) m = .ret (.ptr d) m1 ∧ m1.obj d = some (.decoder ⟨v, 0⟩) ∧
      m.obj d = none ∧ m1.obj st = some (.status .Pass) ∧
      run std al (.free_decoder d) m1 = .ret .unit m2 ∧
      m2.obj = (m.set st (some (.status .Pass))).obj ∧ run std al (.free_decoder d) m2 = .ub := by
  have hok : (m.set st (some (.status .Pass))).Ok := hm.set hst _
  have he : ((m.set st (some (.status .Pass))).push (.decoder ⟨v, 0⟩)).obj m.next = some (.decoder ⟨v, 0⟩) :=
    push_next (m.set st (some (.status .Pass))) _
  have h0 : m.next ≠ 0 := by have := hm.low; omega
  have hnone : (((m.set st (some (.status .Pass))).push (.decoder ⟨v, 0⟩)).set m.next none).obj m.next = none := set_same _ _ _
  refine ⟨m.next, (m.set st (some (.status .Pass))).push (.decoder ⟨v, 0⟩), _, ret_ret ?_, he, hm.fresh, push_old hok _ (set_same _ _ _),
    ret_ret (a := ()) (m' := ((m.set st (some (.status .Pass))).push (.decoder ⟨v, 0⟩)).set m.next none) ?_, ?_, ?_⟩
  · simp only [new_decoder]
    rw [bind_ret (check_ok (hm.ne0 hst) _)]
    simp only [if_neg (hm.ne0 hp)]
    rw [GoV2.toNat_len32 hl, bind_ret (rawSlice_ok hp (Nat.le_refl _)), List.take_length, bind_ret (setStatus_ok hst _)]
    rfl
  · simp only [free_decoder, ne_eq, h0, not_false_eq_true, if_true]
    rw [bind_ret (decoderCursor_ok he)]; exact release_ok he
  · funext p
    by_cases hp : p = m.next
    · subst hp; rw [set_same]; exact hok.fresh.symm
    · rw [set_other _ _ hp]; exact push_ne (m := m.set st (some (.status .Pass))) _ hp
  · refine ret_ub ?_
    simp only [free_decoder, ne_eq, h0, not_false_eq_true, if_true]
    refine bind_ub ?_ _
    simp only [decoderCursor]
    exact bind_ub (load_none hnone) _

example (std : Std) (al : Allocator) : let m := (cMem []).push (.block [1, 2, 3])
    ∃ d m1 m2, run std al (.new_decoder 2 (cMem []).next 3) m = .ret (.ptr d) m1 ∧ run std al (.free_decoder d) m1 = .ret .unit m2 ∧
      m2.obj = (m.set 2 (some (.status .Pass))).obj := by
  obtain ⟨d, m1, m2, h1, _, _, _, h2, h3, _⟩ := C58_create_free_decoder std al ((cMem []).push (.block [1, 2, 3])) ((cMem_ok []).push _) 2
    (cMem []).next .Fail [1, 2, 3] (by decide) rfl rfl
  exact ⟨d, m1, m2, h1, h2, h3⟩

/-! ## C59 -/

/-- What `polyglot_decode_bytes` returned for an empty slice can never be freed: `polyglot_free_decode_bytes`
deallocates a pointer that was not allocated, with any allocator. -/
theorem C59_false_free_empty (std : Std) (al : Allocator) (m : Mem) (hm : m.Ok) (b : Ptr)
    (hb : m.obj b = some (.buffer dangling 0)) : run std al (.free_decode_bytes b) m = .ub := by
  refine ret_ub ?_
  simp only [free_decode_bytes, ne_eq, hm.ne0 hb, not_false_eq_true, if_true]
  rw [bind_ret (load_some hb)]
  simp only
  rw [bind_ret (show rawSlice dangling (BitVec.toNat (0 : BitVec 32)) m = .ret [] m from rfl)]
  refine bind_ub ?_ _
  simp only [dealloc]
  exact bind_ub (load_none hm.one) _

/-- What it returned for a longer slice is deallocated with size 1: undefined behaviour on every allocator that
relies on sizes, unless the slice has exactly one byte. -/
theorem C59_false_free_strict (std : Std) (al : Allocator) (hal : al.strict = true) (m : Mem) (hm : m.Ok) (b data : Ptr) (v : Bytes)
    (hl : v.length < 2 ^ 32) (h1 : 2 ≤ v.length)
    (hb : m.obj b = some (.buffer data (BitVec.ofNat 32 v.length))) (hd : m.obj data = some (.block v)) :
    run std al (.free_decode_bytes b) m = .ub := by
  refine ret_ub ?_
  simp only [free_decode_bytes, ne_eq, hm.ne0 hb, not_false_eq_true, if_true]
  rw [bind_ret (load_some hb)]
  simp only
  have hrs := rawSlice_ok hd (Nat.le_refl _)
  rw [GoV2.toNat_len32 hl, bind_ret hrs]
  refine bind_ub ?_ _
  simp only [dealloc]
  rw [bind_ret (load_some hd)]
  simp only [hal, true_and, ne_eq, show ¬ v.length = 1 by omega, not_false_eq_true, if_true]
  rfl

/-- With an allocator that ignores sizes (as `malloc` does) a non-empty slice is freed properly: its bytes and
the buffer structure are gone and nothing else has changed. -/
theorem C59_free_partial (std : Std) (al : Allocator) (hal : al.strict = false) (m : Mem) (hm : m.Ok) (b data : Ptr) (v : Bytes)
    (hl : v.length < 2 ^ 32)
    (hb : m.obj b = some (.buffer data (BitVec.ofNat 32 v.length))) (hd : m.obj data = some (.block v)) :
    run std al (.free_decode_bytes b) m = .ret .unit ((m.set data none).set b none) := by
  have hne : b ≠ data := by rintro rfl; rw [hb] at hd; simp at hd
  refine ret_ret (f := fun _ => .unit) (a := ()) ?_
  simp only [free_decode_bytes, ne_eq, hm.ne0 hb, not_false_eq_true, if_true]
  rw [bind_ret (load_some hb)]
  simp only
  have hrs := rawSlice_ok hd (Nat.le_refl _)
  rw [GoV2.toNat_len32 hl, bind_ret hrs, bind_ret (dealloc_ok hd (by simp [hal]))]
  exact release_ok (o := .buffer data (BitVec.ofNat 32 v.length)) (by rw [set_other _ _ hne]; exact hb)

/-- Strings and errors are freed properly with every allocator. -/
theorem C59_free_string (std : Std) (al : Allocator) (m : Mem) (hm : m.Ok) (s : Ptr) (v : Bytes) (hv : (0 : Byte) ∉ v)
    (hs : m.obj s = some (.block (v ++ [0]))) :
    run std al (.free_decode_string s) m = .ret .unit (m.set s none) ∧ run std al (.free_decode_error s) m = .ret .unit (m.set s none) :=
  ⟨ret_ret (f := fun _ => .unit) (a := ()) (free_string_ok hm hv hs), ret_ret (f := fun _ => .unit) (a := ()) (free_string_ok hm hv hs)⟩

/-- A string or error that was decoded can be freed, whatever the allocator, and then nothing of it is left: memory is as before
apart from the status and the decoder. -/
theorem C59_string_lifecycle (std : Std) (al : Allocator) (m : Mem) (hm : m.Ok) (st d : Ptr) (s0 : Status) (cur : Cursor)
    (hst : m.obj st = some (.status s0)) (hd : m.obj d = some (.decoder cur)) (v t : Bytes) (hn : (0 : Byte) ∉ v)
    (hu : utf8 v = true) (hf : v.length < 2 ^ 32) :
    (cur.rest = wire (.string v) ++ t → ∃ s m1 m2, run std al (.decode_string st d) m = .ret (.ptr s) m1 ∧
      run std al (.free_decode_string s) m1 = .ret .unit m2 ∧ ∀ p, p ≠ st → p ≠ d → m2.obj p = m.obj p) ∧
    (cur.rest = wire (.error v) ++ t → ∃ s m1 m2, run std al (.decode_error st d) m = .ret (.ptr s) m1 ∧
      run std al (.free_decode_error s) m1 = .ret .unit m2 ∧ ∀ p, p ≠ st → p ≠ d → m2.obj p = m.obj p) := by
  have frame : ∀ {s : Ptr} {m1 : Mem}, Evolves [st, d] [] m m1 → m.obj s = none → (∀ p, Val.ptr s ≠ .ptr p → m.obj p = none → m1.obj p = none) →
      ∀ p, p ≠ st → p ≠ d → (m1.set s none).obj p = m.obj p := by
    intro s m1 h5 h6 h7 p h1 h2
    by_cases hp : p = s
    · subst hp; rw [set_same, h6]
    · rw [set_other _ _ hp]
      cases hx : m.obj p with
      | none => exact h7 p (by simpa using fun h => hp h.symm) hx
      | some o => rw [← hx]; exact h5.frame p (hm.range _ _ hx).2 (by simp [h1, h2]) (by simp)
  constructor
  · intro hr
    have hread : Rust.readItem std .string cur = (.ok (.string v), cur.adv (wire (.string v)).length) :=
      (Rust.readItem_value_iff ..).mpr (.inl ⟨_, t, .string v, wire_accepts hf, hu, hr, rfl⟩)
    obtain ⟨w, m1, h1, _, _, h4, h5, h6, h7⟩ := run_decode_ok std al (.decode_string st d) hm rfl hst hd hread hn
    generalize hi : Item.string v = i at h4
    cases h4 <;> simp only [reduceCtorEq, Item.string.injEq] at hi
    rename_i s v' hs hnv
    subst hi
    exact ⟨s, m1, _, h1, (C59_free_string std al m1 h5.ok s _ hn hs).1, frame h5 (h6 s rfl) (h7 rfl)⟩
  · intro hr
    have hread : Rust.readItem std .error cur = (.ok (.error v), cur.adv (wire (.error v)).length) :=
      (Rust.readItem_value_iff ..).mpr (.inl ⟨_, t, .error v, wire_accepts hf, hu, hr, rfl⟩)
    obtain ⟨w, m1, h1, _, _, h4, h5, h6, h7⟩ := run_decode_ok std al (.decode_error st d) hm rfl hst hd hread hn
    generalize hi : Item.error v = i at h4
    cases h4 <;> simp only [reduceCtorEq, Item.error.injEq] at hi
    rename_i s v' hs hnv
    subst hi
    exact ⟨s, m1, _, h1, (C59_free_string std al m1 h5.ok s _ hn hs).2, frame h5 (h6 s rfl) (h7 rfl)⟩

example (std : Std) (al : Allocator) : ∃ s m1 m2, run std al (.decode_string 2 3) (cMem (wire (.string [104, 105]))) = .ret (.ptr s) m1 ∧
    run std al (.free_decode_string s) m1 = .ret .unit m2 ∧ ∀ p, p ≠ 2 → p ≠ 3 → m2.obj p = (cMem (wire (.string [104, 105]))).obj p :=
  (C59_string_lifecycle std al _ (cMem_ok _) 2 3 .Fail _ rfl rfl [104, 105] [] (by decide) (by decide) (by decide)).1 (by simp [Cursor.rest])

/-- The empty slice really occurs: decoding and freeing the wire encoding of an empty byte slice. -/
example (std : Std) (al : Allocator) : ∃ b m', run std al (.decode_bytes 2 3) (cMem [4, 10, 0]) = .ret (.ptr b) m' ∧
    run std al (.free_decode_bytes b) m' = .ub := by
  have hr : Rust.readItem std .bytes ⟨[4, 10, 0], 0⟩ = (.ok (.bytes []), ⟨[4, 10, 0], 3⟩) :=
    (Rust.readItem_value_iff ..).mpr (.inl ⟨[4, 10, 0], [], .bytes [], by
      have := wire_accepts (i := .bytes []) (by simp [Item.Fits])
      simpa [wire, size32, leb128, kBytes, kUint32] using this, trivial, rfl, rfl⟩)
  obtain ⟨v, m', h1, _, _, h4, h5, _⟩ := run_decode_ok std al (.decode_bytes 2 3) (cMem_ok [4, 10, 0]) rfl (s0 := .Fail) rfl rfl hr trivial
  generalize hi : Item.bytes [] = i at h4
  cases h4 <;> simp only [reduceCtorEq, Item.bytes.injEq] at hi
  · exact ⟨_, m', h1, C59_false_free_empty std al m' h5.ok _ (by assumption)⟩
  · exact absurd hi.symm (by assumption)

end Props
