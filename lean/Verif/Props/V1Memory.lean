import Verif.GoV1.HeapApi
import Verif.Props.WireFormat

/-!
# C79 - C81: memory shared between slices (Go v1)

A v1 `Buffer` is itself a slice (`type Buffer []byte`): a reference to an array of the memory, a start, a length and a
capacity.  `s.bytes h` is what the slice `s` contains when the memory is `h`; `Heap.Bytes p` is the slice `p.Bytes()`.
-/

namespace Props.V1Mem

open GoV2 (Runtime)
open GoV2.Heap (Heap Slice H)

/-- A memory with a buffer that contains two bytes and has two spare ones (array 1), and a slice of three (array 0). -/
def small : Heap := { mem := fun a => if a = 0 then [7, 8, 9] else if a = 1 then [3, 4, 0, 0] else [], next := 2 }

def buf : Slice := ⟨1, 0, 2, 4⟩

def own : Slice := ⟨0, 0, 3, 3⟩

theorem buf_ok : buf.Ok small := ⟨by decide, by decide, by decide⟩

theorem own_ok : own.Ok small := ⟨by decide, by decide, by decide⟩

end Props.V1Mem

namespace Props

open Spec GoV1 GoV1.Heap GoV1.Heap.Call
open GoV2 (Runtime Outcome)
open GoV2.Heap (Heap Slice H Apart SimR SimG bytes_congr bytes_length bind_ok)

/-! ## C79: buffers keep no reference to what was encoded, and do not interfere -/

/-- New buffers are empty and have their own array. -/
theorem C79_NewBuffer (h : Heap) : ∃ p h', Heap.NewBuffer h = .ok (p, h') ∧ p.Ok h' ∧ (Heap.Bytes p).bytes h' = [] ∧ p.arr = h.next ∧
    ∀ a < h.next, h'.mem a = h.mem a := by
  refine ⟨_, _, rfl, ⟨?_, ?_, ?_⟩, ?_, rfl, ?_⟩
  · exact Nat.zero_le _
  · exact Nat.lt_succ_self _
  · simp [Heap.alloc]
  · simp [Heap.Bytes, Slice.bytes]
  · intro a ha; simp only [Heap.alloc]; rw [if_neg (by omega)]

/-- A program calls methods of its buffers and writes into its own slices, in any order; no slice it uses lies in the array
of a buffer, and no two buffers share an array.  Then no call panics, at the end every buffer contains what the arguments
(byte slices and kinds) contained when they were passed, and the program's slices contain exactly what it wrote itself. -/
theorem C79_program (rt : Runtime) (h : Heap) (bufs : List Slice) (acts : List Act)
    (hbuf : ∀ (i : Nat) p, bufs[i]? = some p → p.Ok h)
    (hsep : ∀ (i j : Nat) p q, i ≠ j → bufs[i]? = some p → bufs[j]? = some q → p.arr ≠ q.arr)
    (huse : ∀ a ∈ acts, a.Uses bufs.length fun w => w.Ok h ∧ ∀ (i : Nat) p, bufs[i]? = some p → w.arr ≠ p.arr)
    (hfit : ∀ i, i < bufs.length → ∀ x, LogOp.encode x ∈ asked i acts h → x.Fits) :
    ∃ bufs' h', runActs rt bufs acts h = .ok (bufs', h') ∧ bufs'.length = bufs.length ∧
      (∀ (i : Nat) p q, bufs[i]? = some p → bufs'[i]? = some q → q.Ok h' ∧
        (Heap.Bytes q).bytes h' = logAfter ((Heap.Bytes p).bytes h) (asked i acts h)) ∧
      ∀ w : Slice, w.Ok h → (∀ (i : Nat) p, bufs[i]? = some p → w.arr ≠ p.arr) → w.bytes h' = w.bytes (ownWrites acts h) := by
  obtain ⟨bufs', h', r1, r2, r3, r4, r5⟩ := runActs_spec rt acts bufs h h
    (fun w => w.Ok h ∧ ∀ (i : Nat) p, bufs[i]? = some p → w.arr ≠ p.arr) ⟨hbuf, hsep⟩
    (fun w hw => ⟨hw.1, hw.2, rfl⟩) huse hfit
  refine ⟨bufs', h', r1, r2, fun i p q e1 e2 => ⟨r3.each i q e2, r4 i p q e1 e2⟩, ?_⟩
  intro w ow hw
  simp only [Slice.bytes, r5 w ⟨ow, hw⟩]

/-- Encode the slice, then overwrite it: the hypotheses of `C79_program` hold, and the operations asked for have the contents
of the moment. -/
example : V1Mem.buf.Ok V1Mem.small ∧ V1Mem.own.arr ≠ V1Mem.buf.arr ∧
    (Act.call 0 (.bytes V1Mem.own)).Uses 1 (fun w => w.Ok V1Mem.small ∧ w.arr ≠ V1Mem.buf.arr) ∧
    (Act.poke V1Mem.own 1 5).Uses 1 (fun w => w.Ok V1Mem.small ∧ w.arr ≠ V1Mem.buf.arr) ∧
    (match asked 0 [.call 0 (.bytes V1Mem.own), .poke V1Mem.own 1 5, .call 0 (.write V1Mem.own)] V1Mem.small with
      | [.encode (.bytes x), .write y] => x = [7, 8, 9] ∧ y = [7, 5, 9]
      | _ => False) := by
  refine ⟨V1Mem.buf_ok, by decide, ⟨by decide, trivial, ?_⟩, ⟨⟨V1Mem.own_ok, by decide⟩, by decide⟩, ?_⟩
  · intro w e
    simp only [Call.args, List.mem_singleton] at e
    subst e
    exact ⟨V1Mem.own_ok, by decide⟩
  · exact ⟨by decide, by decide⟩

/-- Without writes by the program, what buffer `i` is asked for is the sequence of its own calls. -/
theorem V1Mem.asked_calls (i : Nat) (h : Heap) : ∀ acts : List Act, (∀ a ∈ acts, ∃ i c, a = .call i c) →
    asked i acts h = (acts.filterMap fun a => match a with
      | .call j c => if j = i then some c else none
      | .poke _ _ _ => none).map (Call.op h) := by
  intro acts
  induction acts with
  | nil => intro _; rfl
  | cons a as ih =>
    intro hn
    obtain ⟨j, c, rfl⟩ := hn _ (List.mem_cons_self ..)
    have := ih (fun a ha => hn a (List.mem_cons_of_mem _ ha))
    simp only [asked, List.filterMap_cons]
    by_cases hj : j = i
    · simp only [hj, if_true, List.map_cons, this]
    · simp only [hj, if_false, this]

/-- Interleaved calls on several buffers: each ends up as if its own calls had been made alone. -/
theorem C79_independent (rt : Runtime) (h : Heap) (bufs : List Slice) (acts : List Act)
    (hbuf : ∀ (i : Nat) p, bufs[i]? = some p → p.Ok h)
    (hsep : ∀ (i j : Nat) p q, i ≠ j → bufs[i]? = some p → bufs[j]? = some q → p.arr ≠ q.arr)
    (huse : ∀ a ∈ acts, a.Uses bufs.length fun w => w.Ok h ∧ ∀ (i : Nat) p, bufs[i]? = some p → w.arr ≠ p.arr)
    (hnopoke : ∀ a ∈ acts, ∃ i c, a = .call i c)
    (hfit : ∀ i, i < bufs.length → ∀ x, LogOp.encode x ∈ asked i acts h → x.Fits) :
    ∃ bufs' h', runActs rt bufs acts h = .ok (bufs', h') ∧
      ∀ (i : Nat) p q, bufs[i]? = some p → bufs'[i]? = some q →
        ∃ q1 h1, runCalls rt p (acts.filterMap fun a => match a with
            | .call j c => if j = i then some c else none
            | .poke _ _ _ => none) h = .ok (q1, h1) ∧
          (Heap.Bytes q).bytes h' = (Heap.Bytes q1).bytes h1 := by
  obtain ⟨bufs', h', r1, r2, r3, _⟩ := C79_program rt h bufs acts hbuf hsep huse hfit
  refine ⟨bufs', h', r1, ?_⟩
  intro i p q e1 e2
  obtain ⟨_, hfin⟩ := r3 i p q e1 e2
  have hi : i < bufs.length := by
    rcases Nat.lt_or_ge i bufs.length with hi | hi
    · exact hi
    · rw [List.getElem?_eq_none hi] at e1; cases e1
  let cs := acts.filterMap fun a => match a with
    | .call j c => if j = i then some c else none
    | .poke _ _ _ => none
  have hcs : asked i acts h = cs.map (Call.op h) := V1Mem.asked_calls i h acts hnopoke
  have hmem : ∀ c ∈ cs, Act.call i c ∈ acts := by
    intro c hc
    obtain ⟨a, ha, e⟩ := List.mem_filterMap.mp hc
    cases a with
    | poke _ _ _ => cases e
    | call j d =>
      simp only at e
      split at e
      · rename_i hj; cases e; rw [← hj]; exact ha
      · cases e
  obtain ⟨q1, h1, g1, g2, g3, g4⟩ := runCalls_any rt cs p h (hbuf i p e1) (by
      intro c hc
      obtain ⟨u1, u2, u3⟩ := huse _ (hmem c hc)
      refine ⟨u2, fun w hw => ⟨(u3 w hw).1, (u3 w hw).2 i p e1⟩, ?_⟩
      intro x hx
      apply hfit i hi
      rw [hcs, List.mem_map]
      exact ⟨c, hc, hx⟩)
  exact ⟨q1, h1, g1, by rw [hfin, hcs]; exact g3.symm⟩

/-! ## C80: the slice returned by `Bytes()` -/

/-- A slice obtained from `Bytes()` keeps its contents until `Reset`, whether or not the buffer is reallocated, and whether
or not the calls' arguments are parts of that slice; the buffer then contains the old contents followed by the new. -/
theorem C80_stable (rt : Runtime) (h : Heap) (p : Slice) (hp : p.Ok h) (cs : List Call)
    (hcs : ∀ c ∈ cs, c.Proper ∧ c ≠ .reset ∧ (∀ w ∈ c.args, w.Ok h ∧ ∀ a i, w.Elem a i → p.Reach a i → (Heap.Bytes p).Elem a i) ∧
      ∀ i, c.op h = .encode i → i.Fits) :
    ∃ q h', runCalls rt p cs h = .ok (q, h') ∧ q.Ok h' ∧ (Heap.Bytes p).bytes h' = (Heap.Bytes p).bytes h ∧
      (Heap.Bytes q).bytes h' = logAfter ((Heap.Bytes p).bytes h) (cs.map (Call.op h)) := by
  have hl := hp.len
  obtain ⟨q, h', r1, r2, r3, r4⟩ := runCalls_forward rt cs p h hp (by
    intro c hc
    obtain ⟨c1, c2, c3, c4⟩ := hcs c hc
    refine ⟨c1, ?_, fun w hw => ⟨(c3 w hw).1, ?_⟩, c4⟩
    · cases c <;> first | trivial | exact absurd rfl c2
    · have := (c3 w hw).2
      simp only [Slice.Elem, Slice.Reach, Heap.Bytes] at this
      by_cases h0 : w.len = 0
      · exact .inl h0
      by_cases ha : w.arr = p.arr
      · right; right
        have h2 := this w.arr (max w.off (p.off + p.len))
        simp only [ha, true_and] at h2
        omega
      · exact .inr (.inl ha))
  exact ⟨q, h', r1, r2, r4.bytes hp (.inr (.inr (.inl (Nat.le_refl _)))), r3⟩

/-- Appending the buffer's own output. -/
example : ∀ c ∈ [Call.write V1Mem.buf, .encode (.uint8 5)], c.Proper ∧ c ≠ .reset ∧
    (∀ w ∈ c.args, w.Ok V1Mem.small ∧ ∀ a i, w.Elem a i → V1Mem.buf.Reach a i → (Heap.Bytes V1Mem.buf).Elem a i) := by
  intro c hc
  simp only [List.mem_cons, List.not_mem_nil, or_false] at hc
  rcases hc with rfl | rfl
  · refine ⟨trivial, by simp, ?_⟩
    intro w hw
    simp only [Call.args, List.mem_singleton] at hw
    subst hw
    exact ⟨V1Mem.buf_ok, fun _ _ h _ => h⟩
  · exact ⟨trivial, by simp, by simp [Call.args]⟩

/-- The limit of C80: after `Reset` the next `Write` that fits overwrites the slice. -/
theorem C80_until_reset (rt : Runtime) (h : Heap) (p : Slice) (hp : p.Ok h) (w : Slice) (ow : w.Ok h) (hfit : w.len ≤ p.cap) :
    ∃ q h', runCalls rt p [.reset, .write w] h = .ok (q, h') ∧
      (Heap.Bytes p).bytes h' = (w.bytes h ++ ((Heap.Bytes p).bytes h).drop w.len).take p.len := by
  have hl := hp.len
  have hf := hp.fits
  have hwl := bytes_length ow
  refine ⟨⟨p.arr, p.off, w.len, p.cap⟩, h.set p.arr (GoV2.overwrite (h.mem p.arr) p.off (w.bytes h)), ?_, ?_⟩
  · rw [runCalls, bind_ok (x := Call.run rt p .reset) (a := ⟨p.arr, p.off, 0, p.cap⟩) (h' := h) (by
      rw [Call.run, Heap.Reset, Slice.slice, if_pos (by omega)]; rfl), runCalls]
    rw [bind_ok (x := Call.run rt ⟨p.arr, p.off, 0, p.cap⟩ (.write w)) (a := ⟨p.arr, p.off, w.len, p.cap⟩)
      (h' := h.set p.arr (GoV2.overwrite (h.mem p.arr) p.off (w.bytes h)))]
    · rfl
    · rw [Call.run, bind_ok (a := (⟨p.arr, p.off, w.len, p.cap⟩, w.len)) (h' := h.set p.arr (GoV2.overwrite (h.mem p.arr) p.off (w.bytes h)))]
      · rfl
      · rw [Heap.Write, if_neg (by simp only []; omega)]
        rw [bind_ok (a := ⟨p.arr, p.off, p.cap, p.cap⟩) (h' := h) (by
          rw [Slice.slice, if_pos (by simp only []; omega)]
          simp only [Int.toNat_natCast, Nat.add_zero, Nat.sub_zero]; rfl)]
        rw [bind_ok (x := w.read) (a := w.bytes h) (h' := h) rfl]
        have hn : min p.cap (w.bytes h).length = w.len := by omega
        rw [bind_ok (a := w.len) (h' := h.set p.arr (GoV2.overwrite (h.mem p.arr) p.off (w.bytes h))) (by
          simp only [Slice.copy, hn]
          rw [← hwl, List.take_length])]
        rw [bind_ok (a := ⟨p.arr, p.off, w.len, p.cap⟩) (h' := h.set p.arr (GoV2.overwrite (h.mem p.arr) p.off (w.bytes h)))]
        · rfl
        · rw [Slice.slice, if_pos (by simp only []; omega)]
          have e : (((0 : Nat) : Int) + (w.len : Int)).toNat = w.len := by omega
          simp only [e]; rfl
  · apply List.ext_getElem?
    intro i
    generalize hv : w.bytes h = v at hwl
    simp only [Heap.Bytes, Slice.bytes, GoV2.Heap.window_get, Heap.set, if_true]
    by_cases hi : i < p.len
    · rw [if_pos hi, GoV2.Heap.overwrite_get (by rw [hwl]; omega), List.getElem?_take_of_lt hi, hwl, List.getElem?_append, hwl]
      by_cases hw : i < w.len
      · rw [if_pos (by omega), if_pos hw]
        congr 1; omega
      · rw [if_neg (by omega), if_neg hw, List.getElem?_drop, GoV2.Heap.window_get, if_pos (by omega)]
        congr 1; omega
    · rw [if_neg hi, List.getElem?_eq_none (by simp; omega)]

/-- `Encoder.Bytes(buf.Bytes())` and `buf.Write(buf.Bytes())`, or any part of `Bytes()`: what is appended is a correct copy,
whether the call reallocates or not. -/
theorem C80_own_output (rt : Runtime) (h : Heap) (p : Slice) (hp : p.Ok h) (w : Slice) (ow : w.Ok h)
    (hw : ∀ a i, w.Elem a i → (Heap.Bytes p).Elem a i) :
    (∃ q h', runCalls rt p [.write w] h = .ok (q, h') ∧ (Heap.Bytes q).bytes h' = (Heap.Bytes p).bytes h ++ w.bytes h) ∧
    (w.len < 2 ^ 32 → ∃ q h', runCalls rt p [.bytes w] h = .ok (q, h') ∧
      (Heap.Bytes q).bytes h' = (Heap.Bytes p).bytes h ++ wire (.bytes (w.bytes h))) := by
  constructor
  · obtain ⟨q, h', r1, _, _, r3⟩ := C80_stable rt h p hp [.write w] (by
      intro c hc
      rw [List.mem_singleton] at hc; subst hc
      refine ⟨trivial, by simp, ?_, ?_⟩
      · intro x hx
        simp only [Call.args, List.mem_singleton] at hx
        subst hx; exact ⟨ow, fun a i e _ => hw a i e⟩
      · intro i e; cases e)
    exact ⟨q, h', r1, r3⟩
  · intro hl
    obtain ⟨q, h', r1, _, _, r3⟩ := C80_stable rt h p hp [.bytes w] (by
      intro c hc
      rw [List.mem_singleton] at hc; subst hc
      refine ⟨trivial, by simp, ?_, ?_⟩
      · intro x hx
        simp only [Call.args, List.mem_singleton] at hx
        subst hx; exact ⟨ow, fun a i e _ => hw a i e⟩
      · intro i e; cases e
        show (w.bytes h).length < _
        rw [bytes_length ow]; exact hl)
    exact ⟨q, h', r1, r3⟩

/-- The limit: an argument in the free part of the buffer is overwritten by the header before it is copied (12 bytes, two
of them written; the argument is the byte behind them). -/
theorem C80_free_part : ∃ (h : Heap) (p w q : Slice) (h' : Heap), p.Ok h ∧ w.Ok h ∧ w.bytes h = [99] ∧
    runCalls ⟨fun _ _ => 0⟩ p [.bytes w] h = .ok (q, h') ∧
    (Heap.Bytes q).bytes h' = [1, 2] ++ [4, 10, 1, 4] ∧ wire (.bytes [99]) = [4, 10, 1, 99] := by
  have key : ∀ (rt : Runtime) (b : Slice) (v : BitVec 32) (hw : 8 ≤ 32), ¬ v ≥ continuation →
      Heap.varintLoop rt b v hw = b.append rt [v.setWidth 8] := by
    intro rt b v hw hv; rw [Heap.varintLoop, dif_neg hv]
  have hm : match runCalls ⟨fun _ _ => 0⟩ ⟨0, 0, 2, 12⟩ [.bytes ⟨0, 2, 1, 1⟩] ⟨fun _ => [1, 2, 99, 0, 0, 0, 0, 0, 0, 0, 0, 0], 1⟩ with
      | .ok (q, h') => (Heap.Bytes q).bytes h' = [1, 2] ++ [4, 10, 1, 4]
      | .panic => False := by
    simp only [runCalls, Call.run, Heap.encodeBytes, Heap.encodeUint32]
    rw [show (fun (x : Slice × Nat) => Heap.varintLoop ⟨fun _ _ => 0⟩ x.1 (BitVec.ofNat 32 1) (by decide)) =
      fun x => x.1.append ⟨fun _ _ => 0⟩ [(BitVec.ofNat 32 1).setWidth 8] from funext fun x => key _ _ _ _ (by decide)]
    rfl
  revert hm
  cases e : runCalls ⟨fun _ _ => 0⟩ ⟨0, 0, 2, 12⟩ [.bytes ⟨0, 2, 1, 1⟩] ⟨fun _ => [1, 2, 99, 0, 0, 0, 0, 0, 0, 0, 0, 0], 1⟩ with
  | panic => exact False.elim
  | ok r =>
    intro hm
    exact ⟨_, _, _, r.1, r.2, ⟨by decide, by decide, by decide⟩, ⟨by decide, by decide, by decide⟩, by decide, e, hm,
      by simp [wire, size32, leb128, kBytes, kUint32]⟩

/-! ## C81: decoded data does not alias the input -/

/-- No decoder method other than `Bytes` writes to memory (their values are copies: numbers and strings), and the unread
part is a part of the input. -/
theorem C81_no_writes (rt : Runtime) (h : Heap) (b : Slice) (ob : b.Ok h) (q : Req) (hq : ∀ ret, q ≠ .bytes ret) :
    match hreadItem rt (.plain q) b h, readItem q (b.bytes h) with
    | .ok ((rest, o), h'), .ok (rest', o') => h' = h ∧ o = .plain o' ∧ rest.bytes h = rest' ∧ ∀ a i, rest.Elem a i → b.Elem a i
    | .panic, .panic => True
    | _, _ => False := by
  have := plain_sim rt ob q (by cases q <;> first | trivial | exact absurd rfl (hq _))
  unfold SimR at this
  revert this
  cases hreadItem rt (.plain q) b h with
  | panic => cases readItem q (b.bytes h) <;> exact id
  | ok r =>
    cases readItem q (b.bytes h) with
    | panic => exact id
    | ok y =>
      obtain ⟨⟨r, o⟩, h'⟩ := r
      rintro ⟨e0, e1, e2, e3, e4⟩
      exact ⟨e0, e4, e3, fun a i => e1.elem⟩

/-- `Bytes(scratch)` where the scratch slice, up to its capacity, shares no memory with the input (or is nil): the value is
what the contents determine, the input and everything else outside the scratch slice is unchanged, and the value shares no
memory with the input: it keeps its contents whatever is written into the input's memory later. -/
theorem C81_bytes (rt : Runtime) (h : Heap) (b : Slice) (scratch : Option Slice) (ob : b.Ok h) (os : ∀ s, scratch = some s → s.Ok h)
    (hd : ∀ s, scratch = some s → ∀ a i, s.Reach a i → ¬ b.Elem a i) :
    match hreadItem rt (.bytes scratch) b h, readItem (.bytes (scratch.map fun s => s.bytes h)) (b.bytes h) with
    | .ok ((rest, o), h'), .ok (rest', o') => o.now h' = o' ∧ rest.bytes h' = rest' ∧
        (∀ w : Slice, w.Ok h → (∀ s, scratch = some s → ∀ a i, s.Reach a i → ¬ w.Elem a i) → w.bytes h' = w.bytes h) ∧
        (∀ later : Heap, (∀ a i, ¬ b.Elem a i → (later.mem a)[i]? = (h'.mem a)[i]?) → o.now later = o')
    | .panic, .panic => True
    | _, _ => False := by
  have := read_sim rt ob (.bytes scratch) trivial os
  unfold SimG at this
  simp only [HReq.req] at this
  revert this
  generalize readItem (.bytes (scratch.map fun s => s.bytes h)) (b.bytes h) = y
  cases hreadItem rt (.bytes scratch) b h with
  | panic => cases y <;> exact id
  | ok r =>
    cases y with
    | panic => exact id
    | ok y =>
      obtain ⟨⟨r, o⟩, h'⟩ := r
      obtain ⟨y1, y2⟩ := y
      intro e
      have frame : ∀ w : Slice, w.Ok h → (∀ s, scratch = some s → ∀ a i, s.Reach a i → ¬ w.Elem a i) → w.bytes h' = w.bytes h := by
        intro w ow hw
        apply bytes_congr
        intro i hi
        apply e.cells _ ow.arr
        intro s hs hr
        exact hw s hs _ _ hr ⟨rfl, by omega, by omega⟩
      refine ⟨e.outcome, ?_, frame, ?_⟩
      · refine Eq.trans ?_ e.unread
        exact frame r e.ok fun s hs a i hr he => hd s hs a i hr (e.rest.elem he)
      · intro later hl
        have hout := e.outcome
        cases o with
        | plain o => exact hout
        | bytes v =>
          cases v with
          | none => exact hout
          | some v =>
            refine Eq.trans ?_ hout
            simp only [HOutcome.now]
            congr 2
            apply bytes_congr
            intro i hi
            apply hl
            intro he
            obtain ⟨v1, v2⟩ := e.value v rfl
            rcases v2 v.arr (v.off + i) ⟨rfl, by omega, by omega⟩ with v2 | ⟨s, hs, v2⟩
            · have := ob.arr
              have := he.1
              omega
            · exact hd s hs _ _ v2 he

/-- A whole session: when the scratch slices passed to `Bytes` share no memory with the input and with each other, then at
the end of the session all values that were read are what the input (and the tails of longer scratch slices) contained, and
the input is unchanged. -/
theorem C81_session (rt : Runtime) (h : Heap) (b : Slice) (ob : b.Ok h) (qs : List HReq) (hq : ∀ q ∈ qs, q.Proper)
    (hs : ∀ s ∈ scratches qs, s.Ok h ∧ ∀ a i, s.Reach a i → ¬ b.Elem a i)
    (hp : (scratches qs).Pairwise fun s t => ∀ a i, s.Reach a i → ¬ t.Reach a i) :
    match hreadAll rt qs b h, readAll (qs.map (HReq.req h)) (b.bytes h) with
    | .ok ((rest, os), h'), .ok (rest', os') => os.map (HOutcome.now h') = os' ∧ rest.bytes h' = rest' ∧ b.bytes h' = b.bytes h
    | .panic, .panic => True
    | _, _ => False := by
  have := hreadAll_spec rt qs b h ob hq hs hp
  revert this
  cases hreadAll rt qs b h with
  | panic => cases readAll (qs.map (HReq.req h)) (b.bytes h) <;> exact id
  | ok r =>
    cases readAll (qs.map (HReq.req h)) (b.bytes h) with
    | panic => exact id
    | ok y =>
      obtain ⟨⟨r, os⟩, h'⟩ := r
      obtain ⟨y1, y2⟩ := y
      rintro ⟨e1, e2, e3, e4, e5⟩
      exact ⟨e1, e3, e5 b ob fun s hs' => (hs s hs').2⟩

/-- A session with a nil scratch slice meets the conditions. -/
example (b : Slice) : (∀ s ∈ scratches [.bytes none, .plain .uint8, .bytes none], s.Ok V1Mem.small ∧ ∀ a i, s.Reach a i → ¬ b.Elem a i) := by
  intro s hs; simp [scratches, HReq.scratch] at hs

/-- The round trip over memory: a non-empty payload read with a nil scratch slice arrives in a new array of exactly its
length, and no memory that existed before has changed. -/
theorem C81_fresh (rt : Runtime) (h : Heap) (b : Slice) (ob : b.Ok h) (v r : Bytes) (hv : v.length < 2 ^ 32) (hne : v ≠ [])
    (hb : b.bytes h = wire (.bytes v) ++ r) :
    ∃ rest s h', hreadItem rt (.bytes none) b h = .ok ((rest, .bytes (some s)), h') ∧ s.bytes h' = v ∧ h.next ≤ s.arr ∧
      rest.bytes h' = r ∧ ∀ a < h.next, h'.mem a = h.mem a := by
  have hs := read_sim rt ob (.bytes none) trivial (by intro s hs; cases hs)
  have hc : readItem (.bytes none) (b.bytes h) = .ok (r, .value (.bytes v)) := by
    have := (decodeBytes_ok_iff (b.bytes h) r none (bytesResult none v)).mpr ⟨_, v, wire_accepts (i := .bytes v) hv, hb, rfl⟩
    simp only [readItem, this, Go.bind_ok]
    cases v with
    | nil => exact absurd rfl hne
    | cons x xs => rfl
  unfold SimG at hs
  simp only [HReq.req, Option.map_none, hc] at hs
  cases hx : hreadItem rt (.bytes none) b h with
  | panic => rw [hx] at hs; exact hs.elim
  | ok x =>
    obtain ⟨⟨rest, o⟩, h'⟩ := x
    rw [hx] at hs
    simp only at hs
    have hcell : ∀ a < h.next, h'.mem a = h.mem a := by
      intro a ha
      apply List.ext_getElem?
      intro i
      exact hs.cells a ha i (by intro s e; cases e)
    have hout := hs.outcome
    cases o with
    | plain o =>
      simp only [HOutcome.now] at hout
      subst hout
      simp only [hreadItem] at hx
      cases hd : Heap.decodeBytes rt b none h with
      | panic => rw [GoV2.Heap.bind_panic hd] at hx; cases hx
      | ok y =>
        obtain ⟨⟨y1, y2, y3⟩, y4⟩ := y
        rw [bind_ok hd] at hx
        cases y3 <;> cases hx
    | bytes w =>
      cases w with
      | none =>
        simp only [HOutcome.now, Outcome.value.injEq, Item.bytes.injEq] at hout
        exact absurd hout.symm hne
      | some s =>
        simp only [HOutcome.now, Outcome.value.injEq, Item.bytes.injEq] at hout
        obtain ⟨v1, v2⟩ := hs.value s rfl
        refine ⟨rest, s, h', rfl, hout, ?_, ?_, hcell⟩
        · have hlen : 0 < s.len := by
            rw [← bytes_length v1, hout]
            cases v with
            | nil => exact absurd rfl hne
            | cons x xs => simp
          rcases v2 s.arr s.off ⟨rfl, Nat.le_refl _, by omega⟩ with h1 | ⟨_, h1, _⟩
          · exact h1
          · cases h1
        · have h2 := hs.unread
          have h3 := hs.ok
          simp only at h2 h3
          rw [← h2]
          simp only [Slice.bytes, hcell _ h3.arr]

/-- The condition on the scratch slices cannot be dropped: passing the value of one `Bytes` call as the scratch slice of the
next overwrites it (and the second value keeps the tail of the first). -/
theorem C81_reused_scratch : ∃ (h : Heap) (b : Slice) (v w rest : Slice) (h1 h2 : Heap) (rest2 : Slice), b.Ok h ∧
    b.bytes h = wire (.bytes [1, 2]) ++ wire (.bytes [3]) ∧
    hreadItem ⟨fun _ _ => 0⟩ (.bytes none) b h = .ok ((rest, .bytes (some v)), h1) ∧ v.bytes h1 = [1, 2] ∧
    hreadItem ⟨fun _ _ => 0⟩ (.bytes (some v)) rest h1 = .ok ((rest2, .bytes (some w)), h2) ∧ w.bytes h2 = [3, 2] ∧ v.bytes h2 = [3, 2] := by
  let h : Heap := ⟨fun _ => [4, 10, 2, 1, 2, 4, 10, 1, 3], 1⟩
  let b : Slice := ⟨0, 0, 9, 9⟩
  have hm : (match hreadItem ⟨fun _ _ => 0⟩ (.bytes none) b h with
      | .ok ((rest, .bytes (some v)), h1) => v.bytes h1 == [1, 2] &&
        match hreadItem ⟨fun _ _ => 0⟩ (.bytes (some v)) rest h1 with
        | .ok ((_, .bytes (some w)), h2) => w.bytes h2 == [3, 2] && v.bytes h2 == [3, 2]
        | _ => false
      | _ => false) = true := by
    simp only [hreadItem, Heap.decodeBytes, Heap.decodeUint32, Std.Legacy.Range.forIn_eq_forIn_range']
    rfl
  split at hm
  · rename_i rest v h1 e1
    rw [Bool.and_eq_true] at hm
    obtain ⟨m1, hm⟩ := hm
    split at hm
    · rename_i rest2 w h2 e2
      rw [Bool.and_eq_true] at hm
      exact ⟨h, b, v, w, rest, h1, h2, rest2, ⟨by decide, by decide, by decide⟩,
        by simp [h, b, Slice.bytes, wire, size32, leb128, kBytes, kUint32], e1, eq_of_beq m1, e2, eq_of_beq hm.1, eq_of_beq hm.2⟩
    · cases hm
  · cases hm

/-- Nor the condition on the input: a scratch slice over the unread input destroys what has not been read. -/
theorem C81_scratch_in_input : ∃ (h : Heap) (b scratch v rest : Slice) (h1 : Heap), b.Ok h ∧ scratch.Ok h ∧
    b.bytes h = wire (.bytes [1, 2]) ++ wire (.uint8 3) ∧
    hreadItem ⟨fun _ _ => 0⟩ (.bytes (some scratch)) b h = .ok ((rest, .bytes (some v)), h1) ∧ rest.bytes h1 = [1, 2] := by
  let h : Heap := ⟨fun _ => [4, 10, 2, 1, 2, 8, 3], 1⟩
  let b : Slice := ⟨0, 0, 7, 7⟩
  let scratch : Slice := ⟨0, 5, 2, 2⟩
  have hm : (match hreadItem ⟨fun _ _ => 0⟩ (.bytes (some scratch)) b h with
      | .ok ((rest, .bytes (some _)), h1) => rest.bytes h1 == [1, 2]
      | _ => false) = true := by
    simp only [hreadItem, Heap.decodeBytes, Heap.decodeUint32, Std.Legacy.Range.forIn_eq_forIn_range']
    rfl
  split at hm
  · rename_i rest v h1 e1
    exact ⟨h, b, scratch, v, rest, h1, ⟨by decide, by decide, by decide⟩, ⟨by decide, by decide, by decide⟩,
      by simp [h, b, Slice.bytes, wire, size32, leb128, kBytes, kUint32, kUint8], e1, eq_of_beq hm⟩
  · cases hm

end Props
