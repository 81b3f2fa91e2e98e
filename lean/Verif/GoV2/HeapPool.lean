import Verif.GoV2.HeapApi
import Verif.GoV2.Pool

/-!
# /repo/v2/pool.go over memory

`Pool.lean` describes a pooled buffer by its contents.  Here the buffers refer to arrays of one memory, which the goroutines
also use for their own slices; the events and the client discipline are those of `Pool.lean`.
-/

namespace GoV2.HeapPool

open Spec GoV2.Heap
open GoV2.Pool (Ptr Gid Ev owner opsSince Disciplined)

/-- The memory, the buffers that exist, the contents of the `sync.Pool`, and the calls of `Put` under way. -/
structure MState where
  mem : Heap
  buf : Ptr → Option HBuffer
  pooled : List Ptr
  pending : List (Gid × Ptr)

def MState.set (s : MState) (m : Heap) (p : Ptr) (b : HBuffer) : MState :=
  { s with mem := m, buf := fun q => if q = p then some b else s.buf q }

/-- The slice lies in no buffer's array. -/
def Foreign (s : MState) (w : Slice) : Prop := w.Ok s.mem ∧ ∀ p b, s.buf p = some b → w.arr ≠ b.b.arr

/-- The states that goroutines can reach from an empty pool and a memory `m0`, with the history that leads there (newest
step first, each operation with the contents its argument had at the time of the call).  Arguments of calls and the slices that
goroutines write to themselves lie in no buffer's array. -/
inductive Runs (rt : Runtime) (m0 : Heap) : MState → List Ev → Prop
  | init : Runs rt m0 { mem := m0, buf := fun _ => none, pooled := [], pending := [] } []
  /-- v2/pool.go 35-42, `v != nil` -/
  | hit {s h g p} : Runs rt m0 s h → p ∈ s.pooled → Runs rt m0 { s with pooled := s.pooled.erase p } (.hit g p :: h)
  /-- v2/pool.go 35-41, `v == nil`: `NewBuffer()` -/
  | miss {s h g p b m} : Runs rt m0 s h → s.buf p = none → Heap.NewBuffer s.mem = .ok (b, m) →
      Runs rt m0 (s.set m p b) (.miss g p :: h)
  /-- a goroutine makes a buffer with `NewBufferSize` -/
  | alloc {s h g p n b m} : Runs rt m0 s h → s.buf p = none → Heap.NewBufferSize n s.mem = .ok (b, m) →
      Runs rt m0 (s.set m p b) (.alloc g p (b.view m) :: h)
  | use {s h g p b c b' m} : Runs rt m0 s h → s.buf p = some b → Call.Proper c → (∀ w, c.arg = some w → Foreign s w) →
      c.run rt b s.mem = .ok (b', m) → Runs rt m0 (s.set m p b') (.use g p (c.op s.mem) :: h)
  /-- v2/pool.go 46: `b.Reset()` -/
  | putReset {s h g p b} : Runs rt m0 s h → s.buf p = some b →
      Runs rt m0 { s.set s.mem p b.Reset with pending := (g, p) :: s.pending } (.putReset g p :: h)
  /-- v2/pool.go 47: `p.pool.Put(b)` -/
  | putCommit {s h g p} : Runs rt m0 s h → (g, p) ∈ s.pending →
      Runs rt m0 { s with pooled := p :: s.pooled, pending := s.pending.erase (g, p) } (.putCommit g p :: h)
  /-- v2/pool.go 45 -/
  | putNil {s h g} : Runs rt m0 s h → Runs rt m0 s (.putNil g :: h)
  | collect {s h p} : Runs rt m0 s h → p ∈ s.pooled → Runs rt m0 { s with pooled := s.pooled.erase p } (.collect p :: h)
  /-- a goroutine writes into a slice of its own -/
  | poke {s h w k v} : Runs rt m0 s h → Foreign s w → k < w.len → Runs rt m0 { s with mem := s.mem.poke w k v } h

/-- The same state with the buffers by contents. -/
def MState.abs (s : MState) : Pool.State :=
  { heap := fun p => (s.buf p).map fun b => b.view s.mem, pooled := s.pooled, pending := s.pending }

structure Good (s : MState) : Prop where
  each : ∀ p b, s.buf p = some b → b.b.Ok s.mem
  apart : ∀ p q b c, p ≠ q → s.buf p = some b → s.buf q = some c → b.b.arr ≠ c.b.arr

theorem good_set {s : MState} (g : Good s) {m : Heap} {p : Ptr} {b : HBuffer} (ob : b.b.Ok m) (hn : s.mem.next ≤ m.next)
    (hk : ∀ q c, q ≠ p → s.buf q = some c → m.mem c.b.arr = s.mem.mem c.b.arr ∧ c.b.arr ≠ b.b.arr) :
    Good (s.set m p b) ∧ (s.set m p b).abs = s.abs.set p (b.view m) := by
  have hb : ∀ q c, (s.set m p b).buf q = some c → (q = p ∧ c = b) ∨ (q ≠ p ∧ s.buf q = some c) := by
    intro q c e
    simp only [MState.set] at e
    split at e
    · rename_i h; cases e; exact .inl ⟨h, rfl⟩
    · rename_i h; exact .inr ⟨h, e⟩
  refine ⟨⟨?_, ?_⟩, ?_⟩
  · intro q c e
    rcases hb q c e with ⟨_, rfl⟩ | ⟨hq, e⟩
    · exact ob
    · exact ok_of_mem (g.each q c e) hn (by show (m.mem _).length = _; rw [(hk q c hq e).1])
  · intro q r c d hqr e1 e2
    rcases hb q c e1 with ⟨hq, rfl⟩ | ⟨hq, f1⟩ <;> rcases hb r d e2 with ⟨hr, rfl⟩ | ⟨hr, f2⟩
    · exact absurd (hq.trans hr.symm) hqr
    · exact (hk r d hr f2).2.symm
    · exact (hk q c hq f1).2
    · exact g.apart q r c d hqr f1 f2
  · simp only [MState.abs, Pool.State.set, MState.set, Pool.State.mk.injEq, and_true]
    funext q
    by_cases hq : q = p
    · simp [hq]
    · simp only [hq, if_false]
      cases e : s.buf q with
      | none => rfl
      | some c =>
        simp only [Option.map_some]
        rw [view_congr (hk q c hq e).1]

theorem view_NewBuffer {m m' : Heap} {b : HBuffer} (h : Heap.NewBuffer m = .ok (b, m')) :
    b.view m' = GoV2.NewBuffer ∧ b.b.Ok m' ∧ b.b.arr = m.next ∧ m'.next = m.next + 1 ∧ ∀ a < m.next, m'.mem a = m.mem a := by
  have : Heap.NewBuffer m = .ok ((⟨⟨m.next, 0, 512, 512⟩, 0⟩ : HBuffer), m.alloc (mk0 512)) := rfl
  rw [this] at h
  cases h
  refine ⟨?_, ⟨Nat.le_refl _, Nat.lt_succ_self _, by simp [Heap.alloc]⟩, rfl, rfl, ?_⟩
  · simp only [HBuffer.view, Slice.full, Heap.alloc, if_true, GoV2.NewBuffer, List.drop_zero]
    rw [List.take_of_length_le (by simp)]; rfl
  · intro a ha; simp only [Heap.alloc]; rw [if_neg (by omega)]

theorem view_NewBufferSize {m m' : Heap} {n : Int} {b : HBuffer} (h : Heap.NewBufferSize n m = .ok (b, m')) :
    GoV2.NewBufferSize n = .ok (b.view m') ∧ b.b.Ok m' ∧ b.b.arr = m.next ∧ m'.next = m.next + 1 ∧ ∀ a < m.next, m'.mem a = m.mem a := by
  by_cases hn : n < 0
  · have : Heap.NewBufferSize n m = .panic := by
      unfold Heap.NewBufferSize
      rw [bind_panic (x := make n) (by rw [make, if_pos hn])]
    rw [this] at h; cases h
  · have : Heap.NewBufferSize n m = .ok ((⟨⟨m.next, 0, n.toNat, n.toNat⟩, 0⟩ : HBuffer), m.alloc (mk0 n.toNat)) := by
      unfold Heap.NewBufferSize
      rw [bind_ok (x := make n) (by rw [make, if_neg hn])]; rfl
    rw [this] at h
    cases h
    refine ⟨?_, ⟨Nat.le_refl _, Nat.lt_succ_self _, by simp [Heap.alloc]⟩, rfl, rfl, ?_⟩
    · unfold GoV2.NewBufferSize
      rw [if_neg hn]
      simp only [HBuffer.view, Slice.full, Heap.alloc, if_true, List.drop_zero]
      rw [List.take_of_length_le (by simp)]
    · intro a ha; simp only [Heap.alloc]; rw [if_neg (by omega)]

/-- Every run over memory is, by contents, a run of `Pool.lean`. -/
theorem runs_abs (rt : Runtime) (m0 : Heap) {s : MState} {h : List Ev} (hr : Runs rt m0 s h) :
    Good s ∧ Pool.run rt h = some s.abs := by
  induction hr with
  | init => exact ⟨⟨(fun _ _ e => by cases e), (fun _ _ _ _ _ e => by cases e)⟩, rfl⟩
  | hit hr hp ih => exact ⟨⟨ih.1.each, ih.1.apart⟩, Pool.run_cons ih.2 (by simp [Pool.step, MState.abs, hp])⟩
  | @miss s h g p b m hr hp hb ih =>
    obtain ⟨v1, v2, v3, v4, v5⟩ := view_NewBuffer hb
    obtain ⟨g1, g2⟩ := good_set ih.1 (p := p) v2 (by omega) (by
      intro q c _ e
      have := (ih.1.each q c e).arr
      exact ⟨v5 _ this, by omega⟩)
    refine ⟨g1, Pool.run_cons ih.2 ?_⟩
    rw [g2, v1, Pool.step, if_pos (by simp [MState.abs, hp])]
  | @alloc s h g p n b m hr hp hb ih =>
    obtain ⟨v1, v2, v3, v4, v5⟩ := view_NewBufferSize hb
    obtain ⟨g1, g2⟩ := good_set ih.1 (p := p) v2 (by omega) (by
      intro q c _ e
      have := (ih.1.each q c e).arr
      exact ⟨v5 _ this, by omega⟩)
    refine ⟨g1, Pool.run_cons ih.2 ?_⟩
    rw [g2, Pool.step, if_pos (by simp [MState.abs, hp])]
  | @use s h g p b c b' m hr hp hc ha hrun ih =>
    have ob := ih.1.each p b hp
    have hrf := call_refines rt ob c hc (fun w hw => ⟨(ha w hw).1, .inr (.inl ((ha w hw).2 p b hp))⟩)
    unfold Refines at hrf
    rw [hrun] at hrf
    cases hy : runOp rt (b.view s.mem) (c.op s.mem) with
    | panic => rw [hy] at hrf; exact hrf.elim
    | ok r =>
      rw [hy] at hrf
      obtain ⟨e1, e2, e3⟩ := hrf
      obtain ⟨g1, g2⟩ := good_set ih.1 (p := p) e2 e3.next (by
        intro q d hq e
        have h1 := (ih.1.each q d e).arr
        have h2 := ih.1.apart q p d b hq e hp
        exact ⟨e3.mem h1 h2, e3.arr h1 h2⟩)
      refine ⟨g1, Pool.run_cons ih.2 ?_⟩
      rw [g2, e1]
      simp [Pool.step, MState.abs, hp, hy]
  | @putReset s h g p b hr hp ih =>
    have ob := ih.1.each p b hp
    obtain ⟨g1, g2⟩ := good_set ih.1 (p := p) (b := b.Reset) (m := s.mem) ob (Nat.le_refl _) (by
      intro q d hq e
      exact ⟨rfl, ih.1.apart q p d b hq e hp⟩)
    refine ⟨⟨g1.each, g1.apart⟩, Pool.run_cons ih.2 ?_⟩
    have e2 : ({ s.set s.mem p b.Reset with pending := (g, p) :: s.pending } : MState).abs =
        { (s.set s.mem p b.Reset).abs with pending := (g, p) :: s.pending } := rfl
    rw [e2, g2]
    simp [Pool.step, MState.abs, hp, Pool.State.set]
    rfl
  | putCommit hr hp ih => exact ⟨⟨ih.1.each, ih.1.apart⟩, Pool.run_cons ih.2 (by simp [Pool.step, MState.abs, hp])⟩
  | putNil hr ih => exact ⟨ih.1, Pool.run_cons ih.2 (by simp [Pool.step])⟩
  | collect hr hp ih => exact ⟨⟨ih.1.each, ih.1.apart⟩, Pool.run_cons ih.2 (by simp [Pool.step, MState.abs, hp])⟩
  | @poke s h w k v hr hf hk ih =>
    have hmem : ∀ a, ((s.mem.poke w k v).mem a).length = (s.mem.mem a).length := by
      intro a; simp only [Heap.poke, Heap.set]; split
      · rename_i e; rw [List.length_set, e]
      · rfl
    have hv : ∀ p b, s.buf p = some b → (s.mem.poke w k v).mem b.b.arr = s.mem.mem b.b.arr := by
      intro p b e
      simp only [Heap.poke, Heap.set]; rw [if_neg]; exact (hf.2 p b e).symm
    refine ⟨⟨fun p b e => ok_of_mem (ih.1.each p b e) (Nat.le_refl _) (hmem _), ih.1.apart⟩, ?_⟩
    rw [ih.2]
    simp only [MState.abs, Option.some.injEq, Pool.State.mk.injEq, and_true]
    funext p
    cases e : s.buf p with
    | none => rfl
    | some b => simp only [Option.map_some]; rw [view_congr (hv p b e)]

/-- Memory that belongs to no buffer is changed by the goroutines' own writes only. -/
theorem step_frame (rt : Runtime) {s : MState} {p : Ptr} {b b' : HBuffer} {c : Call} {m : Heap} (ob : b.b.Ok s.mem) (hp : s.buf p = some b)
    (hc : c.Proper) (ha : ∀ w, c.arg = some w → Foreign s w) (hrun : c.run rt b s.mem = .ok (b', m)) (w : Slice) (hw : Foreign s w) :
    w.bytes m = w.bytes s.mem := by
  have hrf := call_refines rt ob c hc (fun w hw => ⟨(ha w hw).1, .inr (.inl ((ha w hw).2 p b hp))⟩)
  unfold Refines at hrf
  rw [hrun] at hrf
  cases hy : runOp rt (b.view s.mem) (c.op s.mem) with
  | panic => rw [hy] at hrf; exact hrf.elim
  | ok r =>
    rw [hy] at hrf
    obtain ⟨_, _, e3⟩ := hrf
    simp only [Slice.bytes, e3.mem hw.1.arr (hw.2 p b hp)]

end GoV2.HeapPool
