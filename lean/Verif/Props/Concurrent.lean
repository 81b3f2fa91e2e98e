import Verif.GoV2.HeapMany
import Verif.GoV1.HeapMany
import Verif.GoV2.HeapPool
import Verif.Props.V2Memory

/-!
# C82, C83: goroutines that share memory

`runMany rt ds steps`: several goroutines, goroutine `i` with a decoder over the slice `ds[i]`, make the calls `steps` in this
order.  The inputs may be the same slice or overlap.
-/

namespace Props

open Spec GoV2.Heap

/-- v2: decoders over shared inputs do not interfere.  In every interleaving in which no two scratch slices overlap and none
lies in an input, each decoder gets exactly what it would get alone, nobody's input changes, and the program panics only if
one of the decoders would panic alone. -/
theorem C82_v2 (rt : GoV2.Runtime) (h : Heap) (ds : List Slice) (steps : List (Nat × HReq))
    (hd : ∀ (i : Nat) p, ds[i]? = some p → p.Ok h) (hq : ∀ x ∈ steps, x.1 < ds.length ∧ x.2.Proper)
    (hs : ∀ s ∈ scratches (steps.map Prod.snd), s.Ok h ∧ ∀ (i : Nat) p, ds[i]? = some p → ∀ a k, s.Reach a k → ¬ p.Elem a k)
    (hp : (scratches (steps.map Prod.snd)).Pairwise fun s t => ∀ a i, s.Reach a i → ¬ t.Reach a i) :
    match runMany rt ds steps h with
    | .ok ((ds', outs), h') => ∀ (i : Nat) p, ds[i]? = some p → p.bytes h' = p.bytes h ∧ ∃ r, ds'[i]? = some r ∧
        GoV2.readAll ((mine i steps).map HReq.req) (p.bytes h) = .ok (r.bytes h', (mine i outs).map (HOutcome.now h'))
    | .panic => ∃ (i : Nat) (p : Slice), ds[i]? = some p ∧ GoV2.readAll ((mine i steps).map HReq.req) (p.bytes h) = .panic := by
  have := runMany_spec rt steps ds h hd hq hs hp
  revert this
  cases runMany rt ds steps h with
  | panic => exact id
  | ok r =>
    obtain ⟨⟨ds', outs⟩, h'⟩ := r
    rintro ⟨k1, k2⟩ i p e
    exact ⟨k2 p (hd i p e) fun s hs' => (hs s hs').2 i p e, k1 i p e⟩

/-- The nil slice as scratch meets the conditions, for any number of calls. -/
example (steps : List (Nat × HReq)) (hn : ∀ s ∈ scratches (steps.map Prod.snd), s = (⟨0, 0, 0, 0⟩ : Slice)) :
    (scratches (steps.map Prod.snd)).Pairwise (fun s t => ∀ a i, s.Reach a i → ¬ t.Reach a i) ∧
    ∀ s ∈ scratches (steps.map Prod.snd), ∀ (p : Slice) a k, s.Reach a k → ¬ p.Elem a k := by
  have key : ∀ a i, ¬ (⟨0, 0, 0, 0⟩ : Slice).Reach a i := by
    rintro a i ⟨_, h1, h2⟩
    simp only at h1 h2
    omega
  constructor
  · apply List.pairwise_of_forall_mem_list
    intro s hs t _ a i hr
    rw [hn s hs] at hr
    exact (key a i hr).elim
  · intro s hs p a k hr
    rw [hn s hs] at hr
    exact (key a k hr).elim

/-- Two goroutines read the same input, interleaved. -/
example : ∃ ds' outs h', runMany ⟨fun _ _ => 0⟩ [⟨0, 0, 7, 7⟩, ⟨0, 0, 7, 7⟩]
      [(0, .bytes ⟨0, 0, 0, 0⟩), (1, .bytes ⟨0, 0, 0, 0⟩), (1, .plain .uint8), (0, .plain .uint8)]
      ⟨fun _ => [4, 10, 2, 1, 2, 8, 3], 1⟩ = .ok ((ds', outs), h') ∧
    (mine 0 outs).map (HOutcome.now h') = [.value (.bytes [1, 2]), .value (.uint8 3)] ∧
    (mine 1 outs).map (HOutcome.now h') = [.value (.bytes [1, 2]), .value (.uint8 3)] := by
  refine ⟨_, _, _, rfl, by decide, by decide⟩

/-- The condition on the scratch slices cannot be dropped: two goroutines that pass the same scratch slice. -/
theorem C82_shared_scratch : ∃ (h : Heap) (a b scratch : Slice) (ds' : List Slice) (outs : List (Nat × HOutcome)) (h' : Heap),
    a.Ok h ∧ b.Ok h ∧ scratch.Ok h ∧ a.bytes h = wire (.bytes [1]) ∧ b.bytes h = wire (.bytes [2]) ∧
    runMany ⟨fun _ _ => 0⟩ [a, b] [(0, .bytes scratch), (1, .bytes scratch)] h = .ok ((ds', outs), h') ∧
    (mine 0 outs).map (HOutcome.now h') = [.value (.bytes [2])] := by
  refine ⟨⟨fun a => if a = 0 then [4, 10, 1, 1] else if a = 1 then [4, 10, 1, 2] else [0], 3⟩, ⟨0, 0, 4, 4⟩, ⟨1, 0, 4, 4⟩, ⟨2, 0, 1, 1⟩, _, _, _,
    ⟨by decide, by decide, by decide⟩, ⟨by decide, by decide, by decide⟩, ⟨by decide, by decide, by decide⟩, ?_, ?_, rfl, by decide⟩ <;>
    simp [Slice.bytes, wire, size32, leb128, kBytes, kUint32]

/-- v1: the same.  (What a v1 `Bytes` call returns depends on the contents of its scratch slice, see C26, hence `HReq.req h`.) -/
theorem C82_v1 (rt : GoV2.Runtime) (h : Heap) (ds : List Slice) (steps : List (Nat × GoV1.Heap.HReq))
    (hd : ∀ (i : Nat) p, ds[i]? = some p → p.Ok h) (hq : ∀ x ∈ steps, x.1 < ds.length ∧ x.2.Proper)
    (hs : ∀ s ∈ GoV1.Heap.scratches (steps.map Prod.snd), s.Ok h ∧ ∀ (i : Nat) p, ds[i]? = some p → ∀ a k, s.Reach a k → ¬ p.Elem a k)
    (hp : (GoV1.Heap.scratches (steps.map Prod.snd)).Pairwise fun s t => ∀ a i, s.Reach a i → ¬ t.Reach a i) :
    match GoV1.Heap.runMany rt ds steps h with
    | .ok ((ds', outs), h') => ∀ (i : Nat) p, ds[i]? = some p → p.bytes h' = p.bytes h ∧ ∃ r, ds'[i]? = some r ∧
        GoV1.readAll ((mine i steps).map (GoV1.Heap.HReq.req h)) (p.bytes h) = .ok (r.bytes h', (mine i outs).map (GoV1.Heap.HOutcome.now h'))
    | .panic => ∃ (i : Nat) (p : Slice), ds[i]? = some p ∧ GoV1.readAll ((mine i steps).map (GoV1.Heap.HReq.req h)) (p.bytes h) = .panic := by
  have := GoV1.Heap.runMany_spec rt steps ds h hd hq hs hp
  revert this
  cases GoV1.Heap.runMany rt ds steps h with
  | panic => exact id
  | ok r =>
    obtain ⟨⟨ds', outs⟩, h'⟩ := r
    rintro ⟨k1, k2⟩ i p e
    exact ⟨k2 p (hd i p e) fun s hs' => (hs s hs').2 i p e, k1 i p e⟩

/-! ## C83: the pool over memory -/

open GoV2 GoV2.HeapPool
open GoV2.Pool (Ptr Gid Ev owner opsSince Disciplined)

/-- Two buffers that exist - whoever owns them, or the pool - never share an array, in any interleaving (no client
discipline is needed for this). -/
theorem C83_disjoint (rt : Runtime) (m0 : Heap) (s : MState) (h : List Ev) (hr : Runs rt m0 s h) (p q : Ptr) (b c : HBuffer)
    (hpq : p ≠ q) (hb : s.buf p = some b) (hc : s.buf q = some c) : ∀ a i, b.b.Reach a i → ¬ c.b.Reach a i := by
  intro a i h1 h2
  exact (runs_abs rt m0 hr).1.apart p q b c hpq hb hc (h1.1.symm.trans h2.1)

/-- Over memory too, in any interleaving, `Bytes()` of the owner of a pooled buffer is what it wrote since it got it. -/
theorem C83_contents (rt : Runtime) (m0 : Heap) (s : MState) (h : List Ev) (hr : Runs rt m0 s h) (hd : Disciplined h) (g : Gid) (p : Ptr)
    (ho : owner h p = some g) : ∃ b t, s.buf p = some b ∧ b.Bytes s.mem = .ok (t, s.mem) ∧
      t.bytes s.mem = logAfter [] ((opsSince h p).map LogOp.exact) := by
  obtain ⟨k1, k2⟩ := runs_abs rt m0 hr
  obtain ⟨b, hb, hu, hw⟩ := (Pool.inv_run rt h _ hd k2).owned p g ho
  simp only [MState.abs] at hb
  cases e : s.buf p with
  | none => rw [e] at hb; cases hb
  | some c =>
    rw [e] at hb; cases hb
    obtain ⟨t, t1, _, t3, _⟩ := bytes_call (k1.each p c e) hu
    exact ⟨c, t, rfl, t1, by rw [t3]; exact hw⟩

/-- No call of an owner panics, in any interleaving. -/
theorem C83_no_panic (rt : Runtime) (m0 : Heap) (s : MState) (h : List Ev) (hr : Runs rt m0 s h) (g : Gid) (p : Ptr) (c : Call)
    (hc : c.Proper) (ha : ∀ w, c.arg = some w → Foreign s w) (hd : Disciplined (.use g p (c.op s.mem) :: h)) :
    ∃ b b' m, s.buf p = some b ∧ c.run rt b s.mem = .ok (b', m) := by
  obtain ⟨k1, k2⟩ := runs_abs rt m0 hr
  obtain ⟨ho, hadm, hd⟩ := hd
  obtain ⟨b, hb, hu, hw⟩ := (Pool.inv_run rt h _ hd k2).owned p g ho
  simp only [MState.abs] at hb
  cases e : s.buf p with
  | none => rw [e] at hb; cases hb
  | some b =>
    rw [e] at hb; cases hb
    obtain ⟨b', m, r1, _⟩ := call_spec rt (k1.each p b e) hu c hc (fun w hw => ⟨(ha w hw).1, .inr (.inl ((ha w hw).2 p b e))⟩) (by
      rintro k rfl
      rw [hw]; exact hadm k rfl)
    exact ⟨b, b', m, rfl, r1⟩

/-- Slices of the goroutines are not touched by anybody's calls on buffers. -/
theorem C83_own_slices (rt : Runtime) (m0 : Heap) (s : MState) (h : List Ev) (hr : Runs rt m0 s h) (p : Ptr) (b b' : HBuffer) (c : Call)
    (m : Heap) (hb : s.buf p = some b) (hc : c.Proper) (ha : ∀ w, c.arg = some w → Foreign s w) (hrun : c.run rt b s.mem = .ok (b', m))
    (w : Slice) (hw : Foreign s w) : w.bytes m = w.bytes s.mem :=
  step_frame rt ((runs_abs rt m0 hr).1.each p b hb) hb hc ha hrun w hw

/-- The limit: a slice obtained from `Bytes()` must not be used after `Put`.  Goroutine 0 gets a buffer, writes `[7]`, calls
`Bytes()` (the slice `t`) and puts the buffer; goroutine 1 gets it and writes `[9]`: now `t` contains `[9]`. -/
theorem C83_put_invalidates (rt : Runtime) : ∃ (m0 : Heap) (s s' : MState) (h h' : List Ev) (b : HBuffer) (t : Slice),
    Runs rt m0 s h ∧ Disciplined h ∧ owner h 0 = some 0 ∧ s.buf 0 = some b ∧ b.Bytes s.mem = .ok (t, s.mem) ∧ t.bytes s.mem = [7] ∧
    Runs rt m0 s' h' ∧ Disciplined h' ∧ h' = .use 1 0 (.write [9]) :: .hit 1 0 :: .putCommit 0 0 :: .putReset 0 0 :: h ∧
    t.bytes s'.mem = [9] := by
  let m0 : Heap := ⟨fun _ => [7, 9], 1⟩
  have r0 : Runs rt m0 _ [] := .init
  have r1 := r0.miss (g := 0) (p := 0) (b := ⟨⟨1, 0, 512, 512⟩, 0⟩) (m := m0.alloc (mk0 512)) rfl rfl
  have r2 := r1.use (g := 0) (p := 0) (c := .write ⟨0, 0, 1, 2⟩) (b := ⟨⟨1, 0, 512, 512⟩, 0⟩)
    (b' := ⟨⟨1, 0, 512, 512⟩, 1⟩) (m := (m0.alloc (mk0 512)).set 1 (overwrite (mk0 512) 0 [7])) rfl trivial (by
      rintro w ⟨rfl⟩
      refine ⟨⟨by decide, by decide, by decide⟩, ?_⟩
      intro p b e
      simp only [MState.set] at e
      split at e
      · cases e; decide
      · cases e) rfl
  have r3 := r2.putReset (g := 0) (p := 0) (b := ⟨⟨1, 0, 512, 512⟩, 1⟩) rfl
  have r4 := r3.putCommit (g := 0) (p := 0) (List.mem_cons_self ..)
  have r5 := r4.hit (g := 1) (p := 0) (List.mem_cons_self ..)
  have r6 := r5.use (g := 1) (p := 0) (c := .write ⟨0, 1, 1, 1⟩) (b := ⟨⟨1, 0, 512, 512⟩, 0⟩)
    (b' := ⟨⟨1, 0, 512, 512⟩, 1⟩)
    (m := ((m0.alloc (mk0 512)).set 1 (overwrite (mk0 512) 0 [7])).set 1 (overwrite (overwrite (mk0 512) 0 [7]) 0 [9])) rfl trivial (by
      rintro w ⟨rfl⟩
      refine ⟨⟨by decide, by decide, by decide⟩, ?_⟩
      intro p b e
      simp only [MState.set] at e
      split at e
      · cases e; decide
      · cases e) rfl
  refine ⟨m0, _, _, _, _, ⟨⟨1, 0, 512, 512⟩, 1⟩, ⟨1, 0, 1, 512⟩, r2, ?_, rfl, rfl, rfl, by decide, r6, ?_, rfl, by decide⟩
  · exact ⟨rfl, (by intro k e; cases e), trivial⟩
  · exact ⟨rfl, (by intro k e; cases e), rfl, rfl, (by intro k e; cases e), trivial⟩

end Props
