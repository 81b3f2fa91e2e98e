import Verif.GoV2.Pool

/-!
# Properties of the v2 buffer pool under every interleaving (C19, C21)

`run rt h = some s`: `s` is the state after the interleaving `h` (newest step first).
`Disciplined h`: clients only use and put buffers they own.  `owner h p`: who got `p` and has not put it
since.  All three are about the history, see GoV2/Pool.lean.
-/

namespace Props

open Spec GoV2 GoV2.Pool

/-- Every `Get`, whether it hits or misses, returns a buffer that is empty and usable, that no goroutine
owns, that is not in the pool and that nobody is about to put into it. -/
theorem C19_get_empty_and_exclusive (rt : Runtime) (h : List Ev) (hd : Disciplined h) (s s' : State)
    (hr : run rt h = some s) (g : Gid) (p : Ptr) (e : Ev) (he : e = .hit g p ∨ e = .miss g p)
    (hs : step rt s e = some s') :
    owner h p = none ∧ p ∉ s'.pooled ∧ (∀ g', (g', p) ∉ s'.pending) ∧
      ∃ b, s'.heap p = some b ∧ b.Len = 0 ∧ b.Bytes = .ok [] ∧ b.Usable := by
  have i := inv_run rt h s hd hr
  have hd' : Disciplined (e :: h) := by rcases he with rfl | rfl <;> exact hd
  have i' := inv_step rt i e hd' hs
  have ho' : owner (e :: h) p = some g := by rcases he with rfl | rfl <;> simp [owner]
  have hops : opsSince (e :: h) p = [] := by rcases he with rfl | rfl <;> simp [opsSince]
  obtain ⟨hnp, hnq⟩ := i'.owned_not_pooled ho'
  obtain ⟨b, hb, hu, hw⟩ := i'.owned p g ho'
  refine ⟨?_, hnp, ?_, b, hb, ?_, ?_, hu⟩
  · rcases he with rfl | rfl
    · simp only [step] at hs
      split at hs
      · rename_i hp; exact (i.pooled p hp).1
      · simp at hs
    · simp only [step] at hs
      split at hs
      · rename_i hp
        cases ho : owner h p with
        | none => rfl
        | some g' =>
          obtain ⟨b', hb', _⟩ := i.owned p g' ho
          rw [hp] at hb'; cases hb'
      · simp at hs
  · intro g' hg'; exact hnq (List.mem_map.mpr ⟨_, hg', rfl⟩)
  · have hl := written_length hu
    rw [hw, hops] at hl
    simp [logAfter] at hl
    have := hu.2.1
    show b.offset = 0
    omega
  · rw [hu.bytes, hw, hops]; rfl

/-- While a goroutine owns a buffer nobody else can get it: it is neither in the pool nor on its way. -/
theorem C19_owned_is_unreachable (rt : Runtime) (h : List Ev) (hd : Disciplined h) (s : State)
    (hr : run rt h = some s) (g : Gid) (p : Ptr) (ho : owner h p = some g) :
    (∀ g', step rt s (.hit g' p) = none) ∧ (∀ g', step rt s (.miss g' p) = none) ∧
      (∀ g', step rt s (.putCommit g' p) = none) := by
  have i := inv_run rt h s hd hr
  obtain ⟨hnp, hnq⟩ := i.owned_not_pooled ho
  obtain ⟨b, hb, _⟩ := i.owned p g ho
  refine ⟨fun g' => by simp [step, hnp], fun g' => by simp [step, hb], fun g' => ?_⟩
  have : (g', p) ∉ s.pending := fun h => hnq (List.mem_map.mpr ⟨_, h, rfl⟩)
  simp [step, this]

/-- No operation of an owner panics, in any interleaving. -/
theorem C19_use_never_panics (rt : Runtime) (h : List Ev) (s : State) (hr : run rt h = some s)
    (g : Gid) (p : Ptr) (op : LogOp) (hd : Disciplined (.use g p op :: h)) :
    ∃ s', step rt s (.use g p op) = some s' := by
  have i := inv_run rt h s hd.tail hr
  obtain ⟨ho, hadm, _⟩ := hd
  obtain ⟨b, hb, hu, hw⟩ := i.owned p g ho
  obtain ⟨b', hr', _⟩ := runOp_exact rt b op hu (by rw [hw]; exact hadm)
  exact ⟨s.set p b', by simp only [step, hb, hr']⟩

/-- A put by the owner always goes through. -/
theorem C19_put_completes (rt : Runtime) (h : List Ev) (s : State) (hr : run rt h = some s)
    (g : Gid) (p : Ptr) (hd : Disciplined (.putReset g p :: h)) :
    ∃ s', step rt s (.putReset g p) = some s' ∧ ∃ s'', step rt s' (.putCommit g p) = some s'' ∧ p ∈ s''.pooled := by
  have i := inv_run rt h s hd.tail hr
  obtain ⟨b, hb, _⟩ := i.owned p g hd.1
  exact ⟨_, by simp only [step, hb]; rfl, _, by simp [step]; rfl, by simp⟩

/-- C21 for pooled buffers: whatever other goroutines do and whatever the buffer held in earlier lives,
`Bytes()` is exactly what the owner wrote since it got the buffer.  Values of any size: `LogOp.exact` puts
what the encoders really append in the place of the wire format; below `2^28` bytes they are the same, see
`C21_pooled_wire`. -/
theorem C21_pooled_contents (rt : Runtime) (h : List Ev) (hd : Disciplined h) (s : State)
    (hr : run rt h = some s) (g : Gid) (p : Ptr) (ho : owner h p = some g) :
    ∃ b, s.heap p = some b ∧ b.Bytes = .ok (logAfter [] ((opsSince h p).map LogOp.exact)) := by
  obtain ⟨b, hb, hu, hw⟩ := (inv_run rt h s hd hr).owned p g ho
  exact ⟨b, hb, by rw [hu.bytes, hw]⟩

/-- The same in terms of the wire format, for values below `2^28` bytes. -/
theorem C21_pooled_wire (rt : Runtime) (h : List Ev) (hd : Disciplined h) (s : State)
    (hr : run rt h = some s) (g : Gid) (p : Ptr) (ho : owner h p = some g)
    (hfit : ∀ i, LogOp.encode i ∈ opsSince h p → i.FitsV2) :
    ∃ b, s.heap p = some b ∧ b.Bytes = .ok (logAfter [] (opsSince h p)) := by
  obtain ⟨b, hb, hu⟩ := C21_pooled_contents rt h hd s hr g p ho
  exact ⟨b, hb, by rw [hu, logAfter_exact _ _ hfit]⟩

/-- Two goroutines pass one buffer through the pool while a third is inside `Put` with another one. -/
def demoHistory : List Ev :=
  [.use 1 0 (.write [9]), .hit 1 0, .putCommit 0 0, .putReset 2 1, .putReset 0 0,
   .use 0 0 (.write [1, 2, 3]), .miss 2 1, .miss 0 0]

example : Disciplined demoHistory ∧ owner demoHistory 0 = some 1 ∧ opsSince demoHistory 0 = [.write [9]] := by
  refine ⟨?_, rfl, rfl⟩
  simp [Disciplined, demoHistory, owner]

example (rt : Runtime) : ∃ s, run rt demoHistory = some s := by
  have h0 : Disciplined [Ev.use 0 0 (.write [1, 2, 3]), .miss 2 1, .miss 0 0] := by
    simp [Disciplined, owner]
  have r0 : run rt [Ev.miss 2 1, .miss 0 0] = some ((init.set 0 NewBuffer).set 1 NewBuffer) := by
    have a : step rt init (.miss 0 0) = some (init.set 0 NewBuffer) := by
      rw [step, if_pos (show init.heap 0 = none from rfl)]
    have b : step rt (init.set 0 NewBuffer) (.miss 2 1) = some ((init.set 0 NewBuffer).set 1 NewBuffer) := by
      rw [step, if_pos (show (init.set 0 NewBuffer).heap 1 = none from rfl)]
    exact run_cons (run_cons (h := []) (s := init) (by rw [run]) a) b
  have ⟨s1, e1⟩ := C19_use_never_panics rt [.miss 2 1, .miss 0 0] _ r0 0 0 (.write [1, 2, 3]) h0
  have r1 : run rt [Ev.use 0 0 (.write [1, 2, 3]), .miss 2 1, .miss 0 0] = some s1 := run_cons r0 e1
  have h1 : Disciplined [Ev.putReset 0 0, .use 0 0 (.write [1, 2, 3]), .miss 2 1, .miss 0 0] := by
    simp [Disciplined, owner]
  have i1 := inv_run rt _ _ h0 r1
  obtain ⟨b0, hb0, _⟩ := i1.owned 0 0 rfl
  obtain ⟨b1, hb1, _⟩ := i1.owned 1 2 rfl
  let s2 : State := { s1.set 0 b0.Reset with pending := (0, 0) :: s1.pending }
  have r2 := run_cons (e := .putReset 0 0) (s' := s2) r1 (by simp [step, hb0, s2])
  let s3 : State := { s2.set 1 b1.Reset with pending := (2, 1) :: s2.pending }
  have r3 := run_cons (e := .putReset 2 1) (s' := s3) r2 (by
    have : s2.heap 1 = some b1 := by simp [s2, State.set, hb1]
    simp [step, this, s3])
  have ⟨s4, e4⟩ : ∃ s4, step rt s3 (.putCommit 0 0) = some s4 ∧ 0 ∈ s4.pooled := by
    simp [step, s3, s2]
  have r4 := run_cons r3 e4.1
  have ⟨s5, e5⟩ : ∃ s5, step rt s4 (.hit 1 0) = some s5 := by
    simp [step, e4.2]
  have r5 := run_cons r4 e5
  obtain ⟨s6, e6⟩ := C19_use_never_panics rt _ s5 r5 1 0 (.write [9]) (by simp [Disciplined, owner])
  exact ⟨s6, run_cons r5 e6⟩

/-- The discipline is needed: if a client puts the same buffer twice, two goroutines get it. -/
theorem C19_double_put_breaks_exclusivity (rt : Runtime) : ∃ s,
    run rt [.hit 2 0, .hit 1 0, .putCommit 0 0, .putReset 0 0, .putCommit 0 0, .putReset 0 0, .miss 0 0] = some s ∧
    owner [.hit 1 0, .putCommit 0 0, .putReset 0 0, .putCommit 0 0, .putReset 0 0, .miss 0 0] 0 = some 1 ∧
    owner [.hit 2 0, .hit 1 0, .putCommit 0 0, .putReset 0 0, .putCommit 0 0, .putReset 0 0, .miss 0 0] 0 = some 2 := by
  refine ⟨_, by simp [run, step, init, State.set]; rfl, rfl, rfl⟩

end Props
