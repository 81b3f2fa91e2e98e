import Verif.GoV2.HeapApi

/-!
# C49, C50, C69 - C71: memory shared between slices (Go v2)

In `GoV2.Heap` a slice is a reference: an array of the memory, a start, a length and a capacity.  `s.bytes h` is what the
slice contains when the memory is `h`.
-/

namespace Props

open Spec GoV2 GoV2.Heap

/-- The buffer is in order: its slice exists, is as long as its capacity, and the write position is inside it.  Part of the
theorems below is that calls keep it so. -/
def BufferOk (p : HBuffer) (h : Heap) : Prop := p.b.Ok h ∧ (p.view h).Usable

theorem bytes_call {p : HBuffer} {h : Heap} (o : p.b.Ok h) (u : (p.view h).Usable) :
    ∃ s, p.Bytes h = .ok (s, h) ∧ s.Ok h ∧ s.bytes h = (p.view h).written ∧ s.arr = p.b.arr ∧ s.off = p.b.off ∧ s.len = p.offset.toNat := by
  obtain ⟨u1, u2, u3⟩ := u
  have hc : ((p.view h).arr.length : Int) = p.b.cap := by exact_mod_cast full_length o
  have hoff : (p.view h).offset = p.offset := rfl
  rw [hoff] at u2 u3
  have := o.fits
  refine ⟨⟨p.b.arr, p.b.off, p.offset.toNat, p.b.cap⟩, ?_, ⟨?_, o.arr, o.fits⟩, ?_, rfl, rfl, rfl⟩
  · rw [HBuffer.Bytes, Slice.slice, if_pos (by omega)]; rfl
  · show p.offset.toNat ≤ p.b.cap; omega
  · simp only [Slice.bytes, Buffer.written, HBuffer.view, Slice.full, List.take_take]
    congr 1; omega

/-- New buffers are in order and have their own array. -/
theorem NewBuffer_ok (h : Heap) : ∃ p h', Heap.NewBuffer h = .ok (p, h') ∧ BufferOk p h' ∧ (p.view h').written = [] ∧ p.b.arr = h.next ∧
    ∀ a < h.next, h'.mem a = h.mem a := by
  refine ⟨_, _, rfl, ⟨⟨?_, ?_, ?_⟩, ?_⟩, ?_, rfl, ?_⟩
  · exact Nat.le_refl _
  · exact Nat.lt_succ_self _
  · simp [Heap.alloc]
  · refine ⟨?_, by simp [HBuffer.view], by simp [HBuffer.view]⟩
    simp [HBuffer.view, Slice.full, Heap.alloc]
  · simp [Buffer.written, HBuffer.view]
  · intro a ha; simp only [Heap.alloc]; rw [if_neg (by omega)]

/-! ## C50: the buffer keeps no reference to encoded data -/

/-- A program calls methods of its buffers and writes into its own slices, in any order; no slice it uses lies in the array
of a buffer, and no two buffers share an array.  Then no call panics, at the end every buffer contains what the arguments
contained when they were passed, and the program's slices contain exactly what it wrote itself.  Values may have any size;
`LogOp.exact` says what the encoders append for them (from 2^28 bytes on not the wire format, see C04). -/
theorem C50_program_any (rt : Runtime) (h : Heap) (bufs : List HBuffer) (acts : List Act)
    (hbuf : ∀ (i : Nat) p, bufs[i]? = some p → BufferOk p h)
    (hsep : ∀ (i j : Nat) p q, i ≠ j → bufs[i]? = some p → bufs[j]? = some q → p.b.arr ≠ q.b.arr)
    (huse : ∀ a ∈ acts, a.Uses bufs.length fun w => w.Ok h ∧ ∀ (i : Nat) p, bufs[i]? = some p → w.arr ≠ p.b.arr)
    (hlog : ∀ (i : Nat) p before, bufs[i]? = some p → p.Bytes h = .ok (before, h) →
      Admissible (before.bytes h) ((asked i acts h).map LogOp.exact)) :
    ∃ bufs' h', runActs rt bufs acts h = .ok (bufs', h') ∧ bufs'.length = bufs.length ∧
      (∀ (i : Nat) p q, bufs[i]? = some p → bufs'[i]? = some q → BufferOk q h' ∧
        ∃ before after, p.Bytes h = .ok (before, h) ∧ q.Bytes h' = .ok (after, h') ∧
          after.bytes h' = logAfter (before.bytes h) ((asked i acts h).map LogOp.exact)) ∧
      ∀ w : Slice, w.Ok h → (∀ (i : Nat) p, bufs[i]? = some p → w.arr ≠ p.b.arr) → w.bytes h' = w.bytes (ownWrites acts h) := by
  obtain ⟨bufs', h', r1, r2, r3, r4, r5⟩ := runActs_spec rt acts bufs h h
    (fun w => w.Ok h ∧ ∀ (i : Nat) p, bufs[i]? = some p → w.arr ≠ p.b.arr) ⟨hbuf, hsep⟩
    (fun w hw => ⟨hw.1, hw.2, rfl⟩) huse (by
      intro i p e
      obtain ⟨s, s1, _, s3, _⟩ := bytes_call (hbuf i p e).1 (hbuf i p e).2
      have := hlog i p s e s1
      rw [s3] at this; exact this)
  refine ⟨bufs', h', r1, r2, ?_, ?_⟩
  · intro i p q e1 e2
    obtain ⟨s, s1, _, s3, _⟩ := bytes_call (hbuf i p e1).1 (hbuf i p e1).2
    obtain ⟨t, t1, _, t3, _⟩ := bytes_call (r3.each i q e2).1 (r3.each i q e2).2
    refine ⟨r3.each i q e2, s, t, s1, t1, ?_⟩
    rw [t3, s3]; exact r4 i p q e1 e2
  · intro w ow hw
    simp only [Slice.bytes, r5 w ⟨ow, hw⟩]

/-- The same for values below 2^28 bytes, where the encoders append the wire format. -/
theorem C50_program (rt : Runtime) (h : Heap) (bufs : List HBuffer) (acts : List Act)
    (hbuf : ∀ (i : Nat) p, bufs[i]? = some p → BufferOk p h)
    (hsep : ∀ (i j : Nat) p q, i ≠ j → bufs[i]? = some p → bufs[j]? = some q → p.b.arr ≠ q.b.arr)
    (huse : ∀ a ∈ acts, a.Uses bufs.length fun w => w.Ok h ∧ ∀ (i : Nat) p, bufs[i]? = some p → w.arr ≠ p.b.arr)
    (hlog : ∀ (i : Nat) p before, bufs[i]? = some p → p.Bytes h = .ok (before, h) →
      Admissible (before.bytes h) (asked i acts h) ∧ ∀ x, LogOp.encode x ∈ asked i acts h → x.FitsV2) :
    ∃ bufs' h', runActs rt bufs acts h = .ok (bufs', h') ∧ bufs'.length = bufs.length ∧
      (∀ (i : Nat) p q, bufs[i]? = some p → bufs'[i]? = some q → BufferOk q h' ∧
        ∃ before after, p.Bytes h = .ok (before, h) ∧ q.Bytes h' = .ok (after, h') ∧
          after.bytes h' = logAfter (before.bytes h) (asked i acts h)) ∧
      ∀ w : Slice, w.Ok h → (∀ (i : Nat) p, bufs[i]? = some p → w.arr ≠ p.b.arr) → w.bytes h' = w.bytes (ownWrites acts h) := by
  obtain ⟨bufs', h', r1, r2, r3, r4⟩ := C50_program_any rt h bufs acts hbuf hsep huse (by
    intro i p before e1 e2
    obtain ⟨l1, l2⟩ := hlog i p before e1 e2
    exact (admissible_exact _ _ l2).mpr l1)
  refine ⟨bufs', h', r1, r2, ?_, r4⟩
  intro i p q e1 e2
  obtain ⟨k1, before, after, k2, k3, k4⟩ := r3 i p q e1 e2
  refine ⟨k1, before, after, k2, k3, ?_⟩
  rw [k4]; exact logAfter_exact _ _ (hlog i p before e1 k2).2

/-- A memory with a buffer of two bytes (array 1) and a slice of three (array 0). -/
def small : Heap := { mem := fun a => if a = 0 then [7, 8, 9] else if a = 1 then [0, 0] else [], next := 2 }

/-- Encode the slice, then overwrite it: the hypotheses of `C50_program` hold, and the operation asked for has the old
contents. -/
example : ∃ p : HBuffer, BufferOk p small ∧ (Act.call 0 (.bytes ⟨0, 0, 3, 3⟩)).Uses 1 (fun w => w.Ok small ∧ w.arr ≠ p.b.arr) ∧
    (Act.poke ⟨0, 0, 3, 3⟩ 1 5).Uses 1 (fun w => w.Ok small ∧ w.arr ≠ p.b.arr) ∧
    (match asked 0 [.call 0 (.bytes ⟨0, 0, 3, 3⟩), .poke ⟨0, 0, 3, 3⟩ 1 5, .call 0 (.write ⟨0, 0, 3, 3⟩)] small with
      | [.encode (.bytes x), .write y] => x = [7, 8, 9] ∧ y = [7, 5, 9]
      | _ => False) := by
  have o : (⟨0, 0, 3, 3⟩ : Slice).Ok small := ⟨by decide, by decide, by decide⟩
  refine ⟨⟨⟨1, 0, 2, 2⟩, 0⟩, ⟨⟨by decide, by decide, by decide⟩, by decide⟩, ⟨by decide, trivial, ?_⟩, ⟨⟨o, by decide⟩, by decide⟩, ?_⟩
  · intro w e
    cases e
    exact ⟨o, by decide⟩
  · exact ⟨by decide, by decide⟩

/-- `NewBufferFromBytes(w)`: as long as `Cap()` is what it was, everything written is in the caller's slice as well; once
`Cap()` has changed, no call writes into the caller's slice any more.  Values of any size. -/
theorem C50_NewBufferFromBytes (rt : Runtime) (h : Heap) (w : Slice) (ow : w.Ok h) (hlen : w.len = w.cap) (cs : List Call)
    (hadm : Admissible [] ((cs.map (Call.op h)).map LogOp.exact))
    (hcs : ∀ c ∈ cs, c.Proper ∧ (∀ x, c.arg = some x → x.Ok h ∧ x.arr ≠ w.arr)) :
    ∃ q h', runCalls rt (Heap.NewBufferFromBytes w) cs h = .ok (q, h') ∧ BufferOk q h' ∧
      (∃ s, q.Bytes h' = .ok (s, h') ∧ s.bytes h' = logAfter [] ((cs.map (Call.op h)).map LogOp.exact)) ∧ w.cap ≤ q.b.cap ∧
      (q.b.cap = w.cap → (w.bytes h').take (logAfter [] ((cs.map (Call.op h)).map LogOp.exact)).length = logAfter [] ((cs.map (Call.op h)).map LogOp.exact)) ∧
      (q.b.cap ≠ w.cap → ∀ cs2 q2 h2, Admissible (logAfter [] ((cs.map (Call.op h)).map LogOp.exact)) ((cs2.map (Call.op h')).map LogOp.exact) →
        (∀ c ∈ cs2, c.Proper ∧ (∀ x, c.arg = some x → x.Ok h' ∧ x.arr ≠ q.b.arr)) →
        runCalls rt q cs2 h' = .ok (q2, h2) → w.bytes h2 = w.bytes h') := by
  have u : ((Heap.NewBufferFromBytes w).view h).Usable := by
    refine ⟨?_, by simp [Heap.NewBufferFromBytes, HBuffer.view], by simp [Heap.NewBufferFromBytes, HBuffer.view]⟩
    simp only [Heap.NewBufferFromBytes, HBuffer.view, full_length ow]; exact hlen
  have hw0 : ((Heap.NewBufferFromBytes w).view h).written = [] := by
    simp [Heap.NewBufferFromBytes, HBuffer.view, Buffer.written]
  obtain ⟨q, h', r1, r2, r3, r4, r5, r6, r7, r8⟩ := runCalls_any rt cs (Heap.NewBufferFromBytes w) h ow u (by rw [hw0]; exact hadm) hcs
  rw [hw0] at r4
  have e0 : (Heap.NewBufferFromBytes w).b = w := rfl
  rw [e0] at r7 r8
  obtain ⟨s, s1, s2, s3, s4, s5, s6⟩ := bytes_call r2 r3
  refine ⟨q, h', r1, ⟨r2, r3⟩, ⟨s, s1, by rw [s3, r4]⟩, ?_, ?_, ?_⟩
  · rcases r8 with r8 | r8
    · rw [r8]; exact Nat.le_refl _
    · omega
  · intro hc
    rcases r8 with r8 | r8
    · have hl : (logAfter [] ((cs.map (Call.op h)).map LogOp.exact)).length = s.len := by rw [← r4, ← s3, bytes_length s2]
      have hle : s.len ≤ w.len := by
        have := r3.2.2
        have e : ((q.view h').arr.length : Int) = q.b.cap := by exact_mod_cast full_length r2
        have e2 : (q.view h').offset = q.offset := rfl
        rw [e2, e, r8] at this
        omega
      rw [hl, ← r4, ← s3]
      simp only [Slice.bytes, s4, s5, r8, List.take_take]
      congr 1; omega
    · omega
  · intro hc cs2 q2 h2 hadm2 hcs2 hrun
    rcases r8 with r8 | ⟨r8, _⟩
    · exact absurd (by rw [r8]) hc
    · obtain ⟨q3, h3, t1, _, _, _, _, t6, _⟩ := runCalls_any rt cs2 q h' r2 r3 (by rw [r4]; exact hadm2) hcs2
      rw [t1] at hrun
      cases hrun
      have := ow.arr
      simp only [Slice.bytes, t6 w.arr (by omega) (by omega)]

/-- Both cases occur: two bytes fit, three more do not. -/
example : ∃ q h', runCalls ⟨fun _ _ => 0⟩ (Heap.NewBufferFromBytes ⟨1, 0, 2, 2⟩) [.encode (.uint8 5)] small = .ok (q, h') ∧ q.b.cap = 2 ∧
    (⟨1, 0, 2, 2⟩ : Slice).bytes h' = [8, 5] := by
  refine ⟨_, _, rfl, ?_, ?_⟩ <;> decide

/-! ## C69: the slice returned by `Bytes()` -/

/-- A slice obtained from `Bytes()` keeps its contents while the buffer is only appended to, whether or not the buffer is
reallocated, and whether or not the calls' arguments are parts of that slice; the buffer then contains the old contents
followed by the new (`LogOp.exact`: what the encoders append, for values of any size). -/
theorem C69_stable (rt : Runtime) (h : Heap) (p : HBuffer) (hp : BufferOk p h) (s : Slice) (hs : p.Bytes h = .ok (s, h)) (cs : List Call)
    (hcs : ∀ c ∈ cs, c.Proper ∧ c.Forward ∧ (∀ w, c.arg = some w → w.Ok h ∧ ∀ a i, w.Elem a i → p.b.Reach a i → s.Elem a i)) :
    ∃ q h', runCalls rt p cs h = .ok (q, h') ∧ BufferOk q h' ∧ s.bytes h' = s.bytes h ∧
      ∃ t, q.Bytes h' = .ok (t, h') ∧ t.bytes h' = logAfter (s.bytes h) ((cs.map (Call.op h)).map LogOp.exact) := by
  obtain ⟨s', s1, s2, s3, s4, s5, s6⟩ := bytes_call hp.1 hp.2
  rw [hs] at s1; cases s1
  obtain ⟨q, h', r1, r2, r3, r4, r5⟩ := runCalls_forward rt cs p h hp.1 hp.2 (by
    intro c hc
    obtain ⟨c1, c2, c3⟩ := hcs c hc
    refine ⟨c1, c2, fun w hw => ⟨(c3 w hw).1, ?_⟩⟩
    have := (c3 w hw).2
    simp only [Slice.Elem, Slice.Reach, s4, s5, s6] at this
    by_cases h0 : w.len = 0
    · exact .inl h0
    by_cases ha : w.arr = p.b.arr
    · right; right
      have h2 := this w.arr (max w.off (p.b.off + p.offset.toNat))
      simp only [ha, true_and] at h2
      omega
    · exact .inr (.inl ha))
  obtain ⟨t, t1, _, t3, _⟩ := bytes_call r2 r3
  refine ⟨q, h', r1, ⟨r2, r3⟩, (r5 s s2 (.inr (.inr (.inl (by omega))))).2, t, t1, ?_⟩
  rw [t3, r4, s3]

/-- Appending a part of the buffer's own output. -/
example : ∃ (p : HBuffer) (s : Slice), BufferOk p small ∧ p.Bytes small = .ok (s, small) ∧ s.bytes small = [0] ∧
    s.Ok small ∧ ∀ a i, s.Elem a i → p.b.Reach a i → s.Elem a i := by
  refine ⟨⟨⟨1, 0, 2, 2⟩, 1⟩, ⟨1, 0, 1, 2⟩, ⟨⟨by decide, by decide, by decide⟩, by decide⟩, rfl, by decide, ⟨by decide, by decide, by decide⟩, fun _ _ h _ => h⟩

/-- The limit of C69: after `Reset` the next `Write` that fits overwrites the slice. -/
theorem C69_until_reset (rt : Runtime) (h : Heap) (p : HBuffer) (hp : BufferOk p h) (s : Slice) (hs : p.Bytes h = .ok (s, h)) (w : Slice)
    (ow : w.Ok h) (hfit : w.len ≤ p.b.cap) :
    ∃ q h', runCalls rt p [.reset, .write w] h = .ok (q, h') ∧
      s.bytes h' = (w.bytes h ++ (s.bytes h).drop w.len).take s.len := by
  obtain ⟨s', s1, s2, s3, s4, s5, s6⟩ := bytes_call hp.1 hp.2
  rw [hs] at s1; cases s1
  have hl := hp.1.len
  have hf := hp.1.fits
  have hwl := bytes_length ow
  have hmin : min p.b.cap (w.bytes h).length = w.len := by omega
  refine ⟨⟨p.b, w.len⟩, h.set p.b.arr (overwrite (h.mem p.b.arr) p.b.off (w.bytes h)), ?_, ?_⟩
  · rw [runCalls, bind_ok (x := Call.run rt p .reset) (a := p.Reset) (h' := h) rfl, runCalls]
    rw [bind_ok (x := Call.run rt p.Reset (.write w)) (a := ⟨p.b, w.len⟩)
      (h' := h.set p.b.arr (overwrite (h.mem p.b.arr) p.b.off (w.bytes h)))]
    · rfl
    · rw [Call.run, HBuffer.Write]
      simp only [bind_assoc, pure_bind]
      rw [bind_ok (a := p.Reset) (h' := h) (by
        rw [HBuffer.Grow, if_neg (by simp only [HBuffer.Reset]; omega)]; rfl)]
      rw [bind_ok (a := p.b) (h' := h) (by
        rw [Slice.slice, if_pos (by simp only [HBuffer.Reset]; omega)]
        simp only [HBuffer.Reset, Int.toNat_natCast, Int.toNat_zero, Nat.add_zero, Nat.sub_zero]
        have : p.b.len = p.b.cap := by rw [← full_length hp.1]; exact hp.2.1
        rw [← this]
        show Go.ok ((⟨p.b.arr, p.b.off, p.b.len, p.b.len⟩ : Slice), h) = _
        congr 2
        obtain ⟨⟨x1, x2, x3, x4⟩, x5⟩ := p
        simp only at this
        rw [this])]
      rw [bind_ok (x := w.read) (a := w.bytes h) (h' := h) rfl]
      have hn : min p.b.len (w.bytes h).length = w.len := by
        have : p.b.len = p.b.cap := by rw [← full_length hp.1]; exact hp.2.1
        omega
      rw [bind_ok (a := w.len) (h' := h.set p.b.arr (overwrite (h.mem p.b.arr) p.b.off (w.bytes h))) (by
        simp only [Slice.copy, hn]
        rw [← hwl, List.take_length])]
      simp only [HBuffer.Reset, Int.zero_add]
      rfl
  · apply List.ext_getElem?
    intro i
    generalize hv : w.bytes h = v at hwl
    simp only [Slice.bytes, window_get, Heap.set, s4, if_true]
    by_cases hi : i < s.len
    · rw [if_pos hi, overwrite_get (by rw [hwl]; omega), List.getElem?_take_of_lt hi, s5, hwl, List.getElem?_append, hwl]
      by_cases hw : i < w.len
      · rw [if_pos (by omega), if_pos hw]
        congr 1; omega
      · rw [if_neg (by omega), if_neg hw, List.getElem?_drop, window_get, if_pos (by omega)]
        congr 1; omega
    · rw [if_neg hi, List.getElem?_eq_none (by simp; omega)]

/-! ## C70: encoding the buffer's own output -/

/-- `Encoder.Bytes(buf.Bytes())` and `buf.Write(buf.Bytes())`, or any part of `Bytes()`: what is appended is a correct copy,
whether the call reallocates or not. -/
theorem C70_own_output (rt : Runtime) (h : Heap) (p : HBuffer) (hp : BufferOk p h) (s : Slice) (hs : p.Bytes h = .ok (s, h)) (w : Slice)
    (ow : w.Ok h) (hw : ∀ a i, w.Elem a i → s.Elem a i) :
    (∃ q h' t, runCalls rt p [.write w] h = .ok (q, h') ∧ q.Bytes h' = .ok (t, h') ∧ t.bytes h' = s.bytes h ++ w.bytes h) ∧
    (w.len < 2 ^ 28 → ∃ q h' t, runCalls rt p [.bytes w] h = .ok (q, h') ∧ q.Bytes h' = .ok (t, h') ∧
      t.bytes h' = s.bytes h ++ wire (.bytes (w.bytes h))) := by
  constructor
  · obtain ⟨q, h', r1, _, _, t, r2, r3⟩ := C69_stable rt h p hp s hs [.write w] (by
      intro c hc
      rw [List.mem_singleton] at hc; subst hc
      refine ⟨trivial, trivial, ?_⟩
      rintro x ⟨rfl⟩; exact ⟨ow, fun a i e _ => hw a i e⟩)
    exact ⟨q, h', t, r1, r2, r3⟩
  · intro hl
    obtain ⟨q, h', r1, _, _, t, r2, r3⟩ := C69_stable rt h p hp s hs [.bytes w] (by
      intro c hc
      rw [List.mem_singleton] at hc; subst hc
      refine ⟨trivial, trivial, ?_⟩
      rintro x ⟨rfl⟩; exact ⟨ow, fun a i e _ => hw a i e⟩)
    refine ⟨q, h', t, r1, r2, ?_⟩
    rw [r3]
    show s.bytes h ++ wireV2 (.bytes (w.bytes h)) = _
    rw [wireV2_eq_wire]
    show (w.bytes h).length < _
    rw [bytes_length ow]; exact hl

/-- The limit: an argument in the free part of the buffer is overwritten by the header before it is copied (12 bytes, two
of them written; the argument is the byte behind them). -/
theorem C70_free_part : ∃ (h : Heap) (p : HBuffer) (w : Slice) (q : HBuffer) (h' : Heap) (t : Slice),
    BufferOk p h ∧ w.Ok h ∧ w.bytes h = [99] ∧ runCalls ⟨fun _ _ => 0⟩ p [.bytes w] h = .ok (q, h') ∧ q.Bytes h' = .ok (t, h') ∧
    t.bytes h' = [1, 2] ++ [4, 10, 1, 4] ∧ wire (.bytes [99]) = [4, 10, 1, 99] := by
  refine ⟨⟨fun _ => [1, 2, 99, 0, 0, 0, 0, 0, 0, 0, 0, 0], 1⟩, ⟨⟨0, 0, 12, 12⟩, 2⟩, ⟨0, 2, 1, 1⟩, _, _, _,
    ⟨⟨by decide, by decide, by decide⟩, by decide⟩, ⟨by decide, by decide, by decide⟩, by decide, rfl, rfl, by decide, by simp [wire, size32, leb128, kBytes, kUint32, kUint8]⟩

/-! ## C71: buffers do not interfere -/

/-- Without writes by the program, what buffer `i` is asked for is the sequence of its own calls. -/
theorem asked_calls (i : Nat) (h : Heap) : ∀ acts : List Act, (∀ a ∈ acts, ∃ i c, a = .call i c) →
    asked i acts h = (acts.filterMap fun a => match a with
      | .call j c => if j = i then some c else none
      | .poke _ _ _ => none).map (Call.op h) := by
  intro acts
  induction acts with
  | nil => intro _; rfl
  | cons a as ih =>
    intro hn
    obtain ⟨j, c, rfl⟩ := hn _ (List.mem_cons_self ..)
    have := ih (fun a ha => hn a (List.mem_cons_of_mem _ ha))
    simp only [asked, List.filterMap_cons]
    by_cases hj : j = i
    · simp only [hj, if_true, List.map_cons, this]
    · simp only [hj, if_false, this]

/-- Interleaved calls on several buffers: each ends up as if its own calls had been made alone (values of any size). -/
theorem C71_independent (rt : Runtime) (h : Heap) (bufs : List HBuffer) (acts : List Act)
    (hbuf : ∀ (i : Nat) p, bufs[i]? = some p → BufferOk p h)
    (hsep : ∀ (i j : Nat) p q, i ≠ j → bufs[i]? = some p → bufs[j]? = some q → p.b.arr ≠ q.b.arr)
    (huse : ∀ a ∈ acts, a.Uses bufs.length fun w => w.Ok h ∧ ∀ (i : Nat) p, bufs[i]? = some p → w.arr ≠ p.b.arr)
    (hnopoke : ∀ a ∈ acts, ∃ i c, a = .call i c)
    (hlog : ∀ (i : Nat) p before, bufs[i]? = some p → p.Bytes h = .ok (before, h) →
      Admissible (before.bytes h) ((asked i acts h).map LogOp.exact)) :
    ∃ bufs' h', runActs rt bufs acts h = .ok (bufs', h') ∧
      ∀ (i : Nat) p q, bufs[i]? = some p → bufs'[i]? = some q →
        ∃ q1 h1 t t1, runCalls rt p (acts.filterMap fun a => match a with
            | .call j c => if j = i then some c else none
            | .poke _ _ _ => none) h = .ok (q1, h1) ∧
          q.Bytes h' = .ok (t, h') ∧ q1.Bytes h1 = .ok (t1, h1) ∧ t.bytes h' = t1.bytes h1 := by
  obtain ⟨bufs', h', r1, r2, r3, _⟩ := C50_program_any rt h bufs acts hbuf hsep huse hlog
  refine ⟨bufs', h', r1, ?_⟩
  intro i p q e1 e2
  obtain ⟨_, s, t, s1, t1, hfin⟩ := r3 i p q e1 e2
  obtain ⟨s', s1', _, s3, _⟩ := bytes_call (hbuf i p e1).1 (hbuf i p e1).2
  rw [s1'] at s1; cases s1
  let cs := acts.filterMap fun a => match a with
    | .call j c => if j = i then some c else none
    | .poke _ _ _ => none
  have hcs : asked i acts h = cs.map (Call.op h) := by
    exact asked_calls i h acts hnopoke
  have hmem : ∀ c ∈ cs, Act.call i c ∈ acts := by
    intro c hc
    obtain ⟨a, ha, e⟩ := List.mem_filterMap.mp hc
    cases a with
    | poke _ _ _ => cases e
    | call j d =>
      simp only at e
      split at e
      · rename_i hj; cases e; rw [← hj]; exact ha
      · cases e
  have l1 := hlog i p s e1 s1'
  obtain ⟨q1, h1, g1, g2, g3, g4, _⟩ := runCalls_any rt cs p h (hbuf i p e1).1 (hbuf i p e1).2
    (by rw [← s3, ← hcs]; exact l1) (by
      intro c hc
      obtain ⟨u1, u2, u3⟩ := huse _ (hmem c hc)
      exact ⟨u2, fun w hw => ⟨(u3 w hw).1, (u3 w hw).2 i p e1⟩⟩)
  obtain ⟨t', t1', _, t3', _⟩ := bytes_call g2 g3
  exact ⟨q1, h1, t, t', g1, t1, t1', by rw [hfin, t3', g4, hcs, s3]⟩

/-! ## C49: decoded data does not alias the input -/

/-- No decoder method other than `Bytes` writes to memory (their values are copies: numbers and strings), and the unread
part is a part of the input. -/
theorem C49_no_writes (rt : Runtime) (h : Heap) (b : Slice) (ob : b.Ok h) (q : Req) (hq : (HReq.plain q).Proper) :
    match hreadItem rt (.plain q) b h, readItem q (b.bytes h) with
    | .ok ((rest, o), h'), .ok (rest', o') => h' = h ∧ o = .plain o' ∧ rest.bytes h = rest' ∧ ∀ a i, rest.Elem a i → b.Elem a i
    | .panic, .panic => True
    | _, _ => False := by
  have := plain_sim rt ob q hq
  unfold SimR at this
  revert this
  cases hreadItem rt (.plain q) b h with
  | panic => cases readItem q (b.bytes h) <;> exact id
  | ok r =>
    cases readItem q (b.bytes h) with
    | panic => exact id
    | ok y =>
      obtain ⟨⟨r, o⟩, h'⟩ := r
      rintro ⟨e0, e1, e2, e3, e4⟩
      exact ⟨e0, e4, e3, fun a i => e1.elem⟩

/-- `Bytes(scratch)` where the scratch slice, up to its capacity, shares no memory with the input: the value is the payload,
the input and everything else outside the scratch slice is unchanged, and the value shares no memory with the input: it
keeps its contents whatever is written into the input's memory later. -/
theorem C49_bytes (rt : Runtime) (h : Heap) (b scratch : Slice) (ob : b.Ok h) (os : scratch.Ok h)
    (hd : ∀ a i, scratch.Reach a i → ¬ b.Elem a i) :
    match hreadItem rt (.bytes scratch) b h, readItem (.bytes []) (b.bytes h) with
    | .ok ((rest, o), h'), .ok (rest', o') => o.now h' = o' ∧ rest.bytes h' = rest' ∧
        (∀ w : Slice, w.Ok h → (∀ a i, scratch.Reach a i → ¬ w.Elem a i) → w.bytes h' = w.bytes h) ∧
        (∀ later : Heap, (∀ a i, ¬ b.Elem a i → (later.mem a)[i]? = (h'.mem a)[i]?) → o.now later = o')
    | .panic, .panic => True
    | _, _ => False := by
  have := read_sim rt ob (.bytes scratch) trivial (by rintro s ⟨rfl⟩; exact os)
  unfold SimG at this
  simp only [HReq.req] at this
  revert this
  cases hreadItem rt (.bytes scratch) b h with
  | panic => cases readItem (.bytes []) (b.bytes h) <;> exact id
  | ok r =>
    cases readItem (.bytes []) (b.bytes h) with
    | panic => exact id
    | ok y =>
      obtain ⟨⟨r, o⟩, h'⟩ := r
      obtain ⟨y1, y2⟩ := y
      intro e
      have frame : ∀ w : Slice, w.Ok h → (∀ a i, scratch.Reach a i → ¬ w.Elem a i) → w.bytes h' = w.bytes h := by
        intro w ow hw
        apply bytes_congr
        intro i hi
        apply e.cells _ ow.arr
        rintro s ⟨rfl⟩ hr
        exact hw _ _ hr ⟨rfl, by omega, by omega⟩
      refine ⟨e.outcome, ?_, frame, ?_⟩
      · refine Eq.trans ?_ e.unread
        exact frame r e.ok fun a i hr he => hd a i hr (e.rest.elem he)
      · intro later hl
        have hout := e.outcome
        cases o with
        | plain o => exact hout
        | bytes v =>
          refine Eq.trans ?_ hout
          simp only [HOutcome.now]
          congr 2
          apply bytes_congr
          intro i hi
          apply hl
          intro he
          obtain ⟨v1, v2⟩ := e.value v rfl
          rcases v2 with v2 | ⟨s, hs, v2⟩
          · have := ob.arr
            have := he.1
            omega
          · cases hs
            exact hd _ _ (v2 v.arr (v.off + i) ⟨rfl, by omega, by omega⟩) he

/-- A whole session: when the scratch slices passed to `Bytes` share no memory with the input and with each other, then at
the end of the session all values that were read are what the input contained, and the input is unchanged. -/
theorem C49_session (rt : Runtime) (h : Heap) (b : Slice) (ob : b.Ok h) (qs : List HReq) (hq : ∀ q ∈ qs, q.Proper)
    (hs : ∀ s ∈ scratches qs, s.Ok h ∧ ∀ a i, s.Reach a i → ¬ b.Elem a i)
    (hp : (scratches qs).Pairwise fun s t => ∀ a i, s.Reach a i → ¬ t.Reach a i) :
    match hreadAll rt qs b h, readAll (qs.map HReq.req) (b.bytes h) with
    | .ok ((rest, os), h'), .ok (rest', os') => os.map (HOutcome.now h') = os' ∧ rest.bytes h' = rest' ∧ b.bytes h' = b.bytes h
    | .panic, .panic => True
    | _, _ => False := by
  have := hreadAll_spec rt qs b h ob hq hs hp
  revert this
  cases hreadAll rt qs b h with
  | panic => cases readAll (qs.map HReq.req) (b.bytes h) <;> exact id
  | ok r =>
    cases readAll (qs.map HReq.req) (b.bytes h) with
    | panic => exact id
    | ok y =>
      obtain ⟨⟨r, os⟩, h'⟩ := r
      obtain ⟨y1, y2⟩ := y
      rintro ⟨e1, e2, e3, e4, e5⟩
      exact ⟨e1, e3, e5 b ob fun s hs' => (hs s hs').2⟩

/-- The nil slice as scratch always qualifies. -/
example (b : Slice) : ∀ a i, (⟨0, 0, 0, 0⟩ : Slice).Reach a i → ¬ b.Elem a i := by
  rintro a i ⟨_, h1, h2⟩ _
  simp only at h1 h2
  omega

/-- The condition on the scratch slices cannot be dropped: passing the value of one `Bytes` call as the scratch slice of the
next overwrites it. -/
theorem C49_reused_scratch : ∃ (h : Heap) (b : Slice) (v w rest : Slice) (h1 h2 : Heap) (rest2 : Slice), b.Ok h ∧
    b.bytes h = wire (.bytes [1, 2]) ++ wire (.bytes [3]) ∧
    hreadItem ⟨fun _ _ => 0⟩ (.bytes ⟨0, 0, 0, 0⟩) b h = .ok ((rest, .bytes v), h1) ∧ v.bytes h1 = [1, 2] ∧
    hreadItem ⟨fun _ _ => 0⟩ (.bytes v) rest h1 = .ok ((rest2, .bytes w), h2) ∧ w.bytes h2 = [3] ∧ v.bytes h2 = [3, 2] := by
  refine ⟨⟨fun _ => [4, 10, 2, 1, 2, 4, 10, 1, 3], 1⟩, ⟨0, 0, 9, 9⟩, _, _, _, _, _, _, ⟨by decide, by decide, by decide⟩,
    by simp [Slice.bytes, wire, size32, leb128, kBytes, kUint32, kUint8], rfl, by decide, rfl, by decide, by decide⟩

/-- Nor the condition on the input: a scratch slice over the unread input destroys what has not been read. -/
theorem C49_scratch_in_input : ∃ (h : Heap) (b scratch v rest : Slice) (h1 : Heap), b.Ok h ∧ scratch.Ok h ∧
    b.bytes h = wire (.bytes [1, 2]) ++ wire (.uint8 3) ∧
    hreadItem ⟨fun _ _ => 0⟩ (.bytes scratch) b h = .ok ((rest, .bytes v), h1) ∧ rest.bytes h1 = [1, 2] := by
  refine ⟨⟨fun _ => [4, 10, 2, 1, 2, 8, 3], 1⟩, ⟨0, 0, 7, 7⟩, ⟨0, 5, 2, 2⟩, _, _, _, ⟨by decide, by decide, by decide⟩,
    ⟨by decide, by decide, by decide⟩, by simp [Slice.bytes, wire, size32, leb128, kBytes, kUint32, kUint8], rfl, by decide⟩

end Props
