import Verif.GoV2.Spare

/-!
# C07 - C10, C21: the Go v2 buffer

`Buffer.Usable` (no spare capacity, offset within the array) is what `NewBuffer`, `NewBufferSize` and
every operation on such a buffer establish; this is part of the theorems (C08).
-/

namespace Props

open Spec GoV2

/-! ## C07: append-only -/

/-- Every encoder call, with arguments of any size, and every `Write` only appends. -/
theorem C07_encode_append_only (rt : Runtime) (b0 : Buffer) (hb : b0.Usable) (i : Item) :
    ∃ b before new, b0.Bytes = .ok before ∧ encodeItem rt b0 i = .ok b ∧
      b.Bytes = .ok (before ++ new) ∧ b.Len = b0.Len + new.length ∧ b.Usable := by
  obtain ⟨b, he, ha⟩ := encodeItem_exact rt b0 i hb
  exact ⟨b, _, wireV2 i, hb.bytes, he, by rw [ha.usable.bytes, ha.written], ha.offset, ha.usable⟩

theorem C07_write_append_only (rt : Runtime) (b0 : Buffer) (hb : b0.Usable) (v : Bytes) :
    ∃ b before, b0.Bytes = .ok before ∧ b0.Write rt v = .ok (b, v.length) ∧
      b.Bytes = .ok (before ++ v) ∧ b.Len = b0.Len + v.length ∧ b.Usable := by
  obtain ⟨b, he, ha⟩ := Write_spec rt b0 v hb
  exact ⟨b, _, hb.bytes, he, by rw [ha.usable.bytes, ha.written], ha.offset, ha.usable⟩

example : ({ arr := [9, 9, 9], len := 3, offset := 3 } : Buffer).Usable := by decide

/-! ## C08: the buffer is a resettable byte log -/

/-- Any admissible history on a fresh buffer: no call panics, every `Write` returns the length of its
argument, `Bytes()` is the abstract log, `Len()` its length, and `Len() ≤ Cap()`. -/
theorem C08_buffer_is_a_log (rt : Runtime) (b0 : Buffer) (hb : Fresh b0) (ops : List LogOp)
    (hadm : Admissible [] ops) (hfit : ∀ i, LogOp.encode i ∈ ops → i.FitsV2) :
    ∃ b, runOps rt b0 ops = .ok (b, ops.map expected) ∧
      b.Bytes = .ok (logAfter [] ops) ∧ b.Len = (logAfter [] ops).length ∧
      (logAfter [] ops).length ≤ b.Cap ∧ b0.Cap ≤ b.Cap ∧ b.Usable := by
  obtain ⟨b, he, hu, hw, hm⟩ := runOps_spec rt ops b0 hb.usable (by rw [hb.written]; exact hadm) hfit
  rw [hb.written] at hw
  have hl := written_length hu
  rw [hw] at hl
  have := hu.2.1
  have := hu.2.2
  refine ⟨b, he, by rw [hu.bytes, hw], ?_, ?_, hm, hu⟩
  · show b.offset = _; omega
  · show _ ≤ b.arr.length; omega

/-- The same for values of any size: `LogOp.exact` is what v2 appends for them (C04 for the deviation from 2^28 bytes on). -/
theorem C08_any_size (rt : Runtime) (b0 : Buffer) (hb : Fresh b0) (ops : List LogOp)
    (hadm : Admissible [] (ops.map LogOp.exact)) :
    ∃ b, runOps rt b0 ops = .ok (b, ops.map expected) ∧
      b.Bytes = .ok (logAfter [] (ops.map LogOp.exact)) ∧ b.Len = (logAfter [] (ops.map LogOp.exact)).length ∧
      (logAfter [] (ops.map LogOp.exact)).length ≤ b.Cap ∧ b0.Cap ≤ b.Cap ∧ b.Usable := by
  obtain ⟨b, he, hu, hw, hm⟩ := runOps_exact rt ops b0 hb.usable (by rw [hb.written]; exact hadm)
  rw [hb.written] at hw
  have hl := written_length hu
  rw [hw] at hl
  have := hu.2.1
  have := hu.2.2
  refine ⟨b, he, by rw [hu.bytes, hw], ?_, ?_, hm, hu⟩
  · show b.offset = _; omega
  · show _ ≤ b.arr.length; omega

/-- A history with a byte slice of any length. -/
example (v : Bytes) : Admissible [] ([LogOp.encode (.bytes v), .reset, .write [1]].map LogOp.exact) := by
  simp [Admissible, LogOp.exact]

example : Admissible [] [.write [1, 2], .encode (.uint8 3), .rewind 2, .reset, .grow 7, .write [4]] ∧
    logAfter [] [.write [1, 2], .encode (.uint8 3), .rewind 2, .reset, .grow 7, .write [4]] = [4] := by
  constructor
  · simp [Admissible, LogOp.apply, wire]
  · simp [logAfter, LogOp.apply]

/-- `NewBufferSize` accepts every non-negative size, and only those. -/
theorem C08_NewBufferSize (n : Int) : (∃ b, NewBufferSize n = .ok b ∧ b.Bytes = .ok [] ∧ b.Cap = n) ↔ 0 ≤ n := by
  constructor
  · rintro ⟨b, h, _, hc⟩; rw [← hc]; omega
  · intro h
    have : ¬ n < 0 := by omega
    refine ⟨_, by simp only [NewBufferSize, this, if_false]; rfl, ?_, ?_⟩
    · simp [Buffer.Bytes, Buffer.cap]; try omega
    · simp [Buffer.Cap, Buffer.cap]; omega

/-! ## C09: Grow -/

theorem C09_grow (rt : Runtime) (b0 : Buffer) (hb : b0.Usable) (n : Nat) :
    ∃ b, b0.Grow rt n = .ok b ∧ b.Usable ∧ b.Len = b0.Len ∧ b.Bytes = b0.Bytes ∧
      b0.Cap ≤ b.Cap ∧
      -- at least `n` more bytes fit, and growing again by at most `n` changes nothing
      b.Len + n ≤ b.Cap ∧ (∀ m : Nat, m ≤ n → b.Grow rt m = .ok b) ∧
      -- nothing happens if there was room, otherwise the growth is geometric or by `n`
      (b0.Len + n ≤ b0.Cap → b = b0) ∧
      (¬ b0.Len + n ≤ b0.Cap → 2 * b0.Cap ≤ b.Cap ∨ b0.Cap + n ≤ b.Cap) := by
  obtain ⟨b, he, g⟩ := Grow_spec rt b0 n hb
  have h0 := hb.2.1
  have h1 := hb.2.2
  have hroom := g.room
  have hmono := g.mono
  have hoff := g.offset
  have hlen : b.Len + n ≤ b.Cap := by
    show b.offset + n ≤ b.cap
    unfold Buffer.cap at *; omega
  refine ⟨b, he, g.usable, g.offset, by rw [g.usable.bytes, hb.bytes, g.written], g.mono, hlen, ?_, ?_, ?_⟩
  · intro m hm
    apply Grow_noop
    have : b.offset + n ≤ b.cap := hlen
    omega
  · intro h
    have h' : b0.offset + n ≤ b0.cap := h
    exact g.same (by omega)
  · intro h
    have h' : ¬ b0.offset + n ≤ b0.cap := h
    exact g.big (by unfold Buffer.cap at *; omega)

example : ({ arr := mk0 4, len := 4, offset := 3 } : Buffer).Usable ∧
    ¬ (3 : Int) + (2 : Nat) ≤ (4 : Nat) := by decide

/-! ## C10: encoding never panics

Full claim: on every buffer from any constructor.  False for `NewBufferFromBytes` given a slice with
spare capacity. -/

/-- After any history on a buffer from `NewBuffer`, `NewBufferSize`, or `NewBufferFromBytes` applied to
a slice without spare capacity, no encoder call panics, whatever its argument and whatever was encoded before (`LogOp.exact`:
what v2 appends for values of any size).  Missing with respect to
C10: `NewBufferFromBytes` of a slice with spare capacity, where it is false (below). -/
theorem C10_no_panic_partial (rt : Runtime) (b0 : Buffer)
    (hb : Fresh b0 ∨ ∃ arr, b0 = NewBufferFromBytes arr arr.length) (ops : List LogOp)
    (hadm : Admissible [] (ops.map LogOp.exact)) (i : Item) :
    ∃ b rs b', runOps rt b0 ops = .ok (b, rs) ∧ encodeItem rt b i = .ok b' := by
  have hu : b0.Usable ∧ b0.written = [] := by
    rcases hb with h | ⟨arr, rfl⟩
    · exact ⟨h.usable, h.written⟩
    · exact ⟨⟨rfl, by simp [NewBufferFromBytes], by simp [NewBufferFromBytes]⟩,
        by simp [Buffer.written, NewBufferFromBytes]⟩
  obtain ⟨b, he, hu', _, _⟩ := runOps_exact rt ops b0 hu.1 (by rw [hu.2]; exact hadm)
  obtain ⟨b', he', _⟩ := encodeItem_exact rt b i hu'
  exact ⟨b, _, b', he, he'⟩

example : Fresh NewBuffer ∧ Admissible [] ([.encode (.bytes [1])].map LogOp.exact) := ⟨.inl rfl, by simp [Admissible, LogOp.exact]⟩

/-- C10 is false: on `NewBufferFromBytes(make([]byte, 0, c))` *every* encoder call panics as soon as the
capacity suffices for the item (while `Write` works, next theorem). -/
theorem C10_false_spare_capacity (rt : Runtime) (arr : Bytes) (i : Item)
    (hcap : 11 + payload i ≤ arr.length) :
    encodeItem rt (NewBufferFromBytes arr 0) i = .panic := by
  apply encodeItem_spare_panics
  · simp [NewBufferFromBytes, Buffer.cap]; omega
  · simp [NewBufferFromBytes]

example : 11 + payload (.string [1, 2, 3]) ≤ (mk0 64).length := by decide

theorem C10_write_works_on_spare_capacity (rt : Runtime) (arr v : Bytes) (len : Nat)
    (hcap : v.length ≤ arr.length) :
    ∃ b, (NewBufferFromBytes arr len).Write rt v = .ok (b, v.length) ∧ b.Bytes = .ok v := by
  obtain ⟨b, h1, h2⟩ := Write_spare rt (NewBufferFromBytes arr len) 0 v rfl
    (by simpa [NewBufferFromBytes, Buffer.cap] using hcap)
  exact ⟨b, h1, by simpa using h2⟩

/-- Worse, when the header still fits below `len` but the payload does not, `String` neither panics nor
grows: it silently writes a truncated payload behind a header that announces the full length. -/
theorem C10_false_silent_truncation (rt : Runtime) (arr : Bytes) (len : Nat) (v : Bytes)
    (hv : v.length < 2 ^ 32) (hlen : len ≤ arr.length) (hcap : 7 + v.length ≤ arr.length)
    (hhd : (kString :: size32 v.length).length ≤ len)
    (hshort : len < (wire (.string v)).length) :
    ∃ b, encodeString rt (NewBufferFromBytes arr len) v = .ok b ∧
      b.Bytes = .ok ((wire (.string v)).take len) ∧ (wire (.string v)).take len ≠ wire (.string v) := by
  have hw : wire (.string v) = kString :: size32 v.length ++ v := rfl
  have hl : (wire (.string v)).length = (kString :: size32 v.length).length + v.length := by
    rw [hw, List.length_append]
  obtain ⟨b, h1, h2⟩ := encodeString_spare_truncates rt (NewBufferFromBytes arr len) 0 v rfl
    (by simpa [NewBufferFromBytes, Buffer.cap] using hlen) hv
    (by simpa [NewBufferFromBytes, Buffer.cap] using hcap)
    (by simpa [NewBufferFromBytes] using hhd)
    (by simp only [NewBufferFromBytes, Nat.zero_add]; omega)
  refine ⟨b, h1, ?_, ?_⟩
  · rw [h2]
    simp only [NewBufferFromBytes, List.take_zero, List.nil_append, Nat.zero_add]
    rw [hw, List.take_append, List.take_of_length_le hhd]
  · intro h
    have := congrArg List.length h
    rw [List.length_take] at this
    omega

example : (kString :: size32 3).length ≤ 4 ∧ 4 < (wire (.string [1, 2, 3])).length := by
  simp [size32, leb128, wire]

/-! ## C21: no leaks across Reset -/

/-- Whatever happened before a `Reset`, with values of any size, afterwards `Bytes()` consists only of what was written since. -/
theorem C21_reset_forgets (rt : Runtime) (b0 : Buffer) (hb : Fresh b0) (before after : List LogOp)
    (hadm : Admissible [] (before.map LogOp.exact)) (hadm' : Admissible [] (after.map LogOp.exact)) :
    ∃ b rs, runOps rt b0 (before ++ .reset :: after) = .ok (b, rs) ∧
      b.Bytes = .ok (logAfter [] (after.map LogOp.exact)) := by
  have hadm2 : ∀ (l : Bytes) (xs ys : List LogOp), Admissible l xs → Admissible (logAfter l xs) ys →
      Admissible l (xs ++ ys) := by
    intro l xs ys
    induction xs generalizing l with
    | nil => intro _ h; exact h
    | cons x xs ih =>
      intro h1 h2
      cases x <;> simp only [List.cons_append, Admissible] at h1 ⊢
      case rewind k => exact ⟨h1.1, ih _ h1.2 h2⟩
      all_goals exact ih _ h1 h2
  obtain ⟨b, he, hbs, _⟩ := C08_any_size rt b0 hb (before ++ .reset :: after) (by
    rw [List.map_append]
    exact hadm2 _ _ _ hadm hadm')
  refine ⟨b, _, he, ?_⟩
  rw [hbs]
  simp [logAfter, List.foldl_append, LogOp.apply, LogOp.exact]

example : Admissible [] ([.write [0xde, 0xad], .rewind 1].map LogOp.exact) ∧ Admissible [] ([.write [1], .rewind 1].map LogOp.exact) := by
  simp [Admissible, LogOp.apply, LogOp.exact]

end Props
