import Verif.GoV2.Log

/-!
# Model of /repo/v2/pool.go under arbitrary interleavings

Goroutines are numbered, buffers are heap cells named by pointers.  A history is a list of atomic
steps, **newest first**.  `sync.Pool` is the run time's: `Get` returns any pooled pointer and removes
it, or nil, at any time; `Put` adds a pointer; pooled pointers may be dropped at any time (garbage
collection).  `Pool.Put` is *two* atomic steps (`b.Reset()`, then `p.pool.Put(b)`), between which other
goroutines run.  Simplification: an operation of the owning goroutine on its buffer (`use`) is one
atomic step; data races inside one operation are not modelled.
-/

namespace GoV2.Pool

open Spec

abbrev Ptr := Nat
abbrev Gid := Nat

/-- The atomic steps of goroutines and of the run time. -/
inductive Ev where
  /-- v2/pool.go 35-42, `v != nil`: goroutine `g`'s `Get` returns the pooled pointer `p` -/
  | hit (g : Gid) (p : Ptr)
  /-- v2/pool.go 35-41, `v == nil`: `Get` allocates `NewBuffer()` at the fresh pointer `p` -/
  | miss (g : Gid) (p : Ptr)
  /-- `g` makes a buffer of its own, not from the pool (it may later `Put` it) -/
  | alloc (g : Gid) (p : Ptr) (b : Buffer)
  /-- `g` performs an operation on the buffer at `p` -/
  | use (g : Gid) (p : Ptr) (op : LogOp)
  /-- v2/pool.go 46: `b.Reset()` -/
  | putReset (g : Gid) (p : Ptr)
  /-- v2/pool.go 47: `p.pool.Put(b)` -/
  | putCommit (g : Gid) (p : Ptr)
  /-- v2/pool.go 45: `Put(nil)` -/
  | putNil (g : Gid)
  /-- the run time drops a pooled pointer -/
  | collect (p : Ptr)

structure State where
  heap : Ptr → Option Buffer
  /-- the contents of the `sync.Pool` -/
  pooled : List Ptr
  /-- goroutines that are inside `Put`, between `Reset` and `sync.Pool.Put` -/
  pending : List (Gid × Ptr)

/-- v2/pool.go 23-33: an empty pool. -/
def init : State := { heap := fun _ => none, pooled := [], pending := [] }

def State.set (s : State) (p : Ptr) (b : Buffer) : State :=
  { s with heap := fun q => if q = p then some b else s.heap q }

/-- Effect of a step; `none` if it is impossible in this state (or the operation panics). -/
def step (rt : Runtime) (s : State) : Ev → Option State
  | .hit _ p => if p ∈ s.pooled then some { s with pooled := s.pooled.erase p } else none
  | .miss _ p => if s.heap p = none then some (s.set p NewBuffer) else none
  | .alloc _ p b => if s.heap p = none then some (s.set p b) else none
  | .use _ p op =>
    match s.heap p with
    | none => none
    | some b =>
      match runOp rt b op with
      | .ok (b', _) => some (s.set p b')
      | .panic => none
  | .putReset g p =>
    match s.heap p with
    | none => none
    | some b => some { s.set p b.Reset with pending := (g, p) :: s.pending }
  | .putCommit g p =>
    if (g, p) ∈ s.pending then
      some { s with pooled := p :: s.pooled, pending := s.pending.erase (g, p) }
    else none
  | .putNil _ => some s
  | .collect p => if p ∈ s.pooled then some { s with pooled := s.pooled.erase p } else none

/-- The state after a history (newest step first). -/
def run (rt : Runtime) : List Ev → Option State
  | [] => some init
  | e :: h => do step rt (← run rt h) e

theorem run_cons {rt : Runtime} {h : List Ev} {s s' : State} {e : Ev} (h1 : run rt h = some s)
    (h2 : step rt s e = some s') : run rt (e :: h) = some s' := by
  rw [run, h1]; exact h2

/-! ## Client discipline, read off the history alone -/

/-- The goroutine that got `p` and has not called `Put` on it since. -/
def owner : List Ev → Ptr → Option Gid
  | [], _ => none
  | .hit g p :: h, q => if q = p then some g else owner h q
  | .miss g p :: h, q => if q = p then some g else owner h q
  | .alloc g p _ :: h, q => if q = p then some g else owner h q
  | .putReset _ p :: h, q => if q = p then none else owner h q
  | _ :: h, q => owner h q

/-- The operations performed on `p` since it was last obtained, oldest first. -/
def opsSince : List Ev → Ptr → List LogOp
  | [], _ => []
  | .hit _ p :: h, q => if q = p then [] else opsSince h q
  | .miss _ p :: h, q => if q = p then [] else opsSince h q
  | .alloc _ p _ :: h, q => if q = p then [] else opsSince h q
  | .use _ p op :: h, q => if q = p then opsSince h q ++ [op] else opsSince h q
  | _ :: h, q => opsSince h q

/-- Clients use and `Put` only buffers they own (so they put each buffer once), own buffers are fresh,
operations are within the contract of C08. -/
def Disciplined : List Ev → Prop
  | [] => True
  | .use g p op :: h => owner h p = some g ∧
      (∀ k, op = .rewind k → k ≤ (logAfter [] ((opsSince h p).map LogOp.exact)).length) ∧ Disciplined h
  | .putReset g p :: h => owner h p = some g ∧ Disciplined h
  | .alloc _ _ b :: h => Fresh b ∧ Disciplined h
  | _ :: h => Disciplined h

/-! ## The invariant -/

structure Inv (h : List Ev) (s : State) : Prop where
  nodup : s.pooled.Nodup
  pnodup : (s.pending.map Prod.snd).Nodup
  disjoint : ∀ p ∈ s.pooled, p ∉ s.pending.map Prod.snd
  pooled : ∀ p ∈ s.pooled, owner h p = none ∧ ∃ b, s.heap p = some b ∧ b.Usable ∧ b.offset = 0
  pending : ∀ p ∈ s.pending.map Prod.snd,
    owner h p = none ∧ ∃ b, s.heap p = some b ∧ b.Usable ∧ b.offset = 0
  owned : ∀ p g, owner h p = some g →
    ∃ b, s.heap p = some b ∧ b.Usable ∧ b.written = logAfter [] ((opsSince h p).map LogOp.exact)

theorem Inv.owned_not_pooled {h : List Ev} {s : State} (i : Inv h s) {p : Ptr} {g : Gid}
    (ho : owner h p = some g) : p ∉ s.pooled ∧ p ∉ s.pending.map Prod.snd := by
  constructor
  · intro hp; have := (i.pooled p hp).1; rw [ho] at this; cases this
  · intro hp; have := (i.pending p hp).1; rw [ho] at this; cases this

theorem inv_init : Inv [] init :=
  ⟨by simp [init], by simp [init], by simp [init], by simp [init], by simp [init],
   by simp [owner]⟩

theorem inv_new {h : List Ev} {s : State} (i : Inv h s) (e : Ev) (g : Gid) (p : Ptr) (b : Buffer)
    (hn : s.heap p = none) (hb : Fresh b)
    (ho : ∀ q, owner (e :: h) q = if q = p then some g else owner h q)
    (hops : ∀ q, opsSince (e :: h) q = if q = p then [] else opsSince h q) :
    Inv (e :: h) (s.set p b) := by
  have hnp : p ∉ s.pooled := by
    intro hp; obtain ⟨_, b, hb, _⟩ := i.pooled p hp; rw [hn] at hb; cases hb
  have hnq : p ∉ s.pending.map Prod.snd := by
    intro hp; obtain ⟨_, b, hb, _⟩ := i.pending p hp; rw [hn] at hb; cases hb
  refine ⟨i.nodup, i.pnodup, i.disjoint, ?_, ?_, ?_⟩
  · intro q hq
    have hqp : q ≠ p := fun h => hnp (h ▸ hq)
    rw [ho]; simp only [hqp, if_false, State.set]
    exact i.pooled q hq
  · intro q hq
    have hqp : q ≠ p := fun h => hnq (h ▸ hq)
    rw [ho]; simp only [hqp, if_false, State.set]
    exact i.pending q hq
  · intro q g' hq
    rw [ho] at hq
    rw [hops]
    by_cases hqp : q = p
    · subst hqp
      exact ⟨b, by simp [State.set], hb.usable, by simp [hb.written, logAfter]⟩
    · simp only [hqp, if_false] at hq ⊢
      obtain ⟨b', h1, h2⟩ := i.owned q g' hq
      exact ⟨b', by simp [State.set, hqp, h1], h2⟩

theorem inv_step (rt : Runtime) {h : List Ev} {s s' : State} (i : Inv h s) (e : Ev)
    (hd : Disciplined (e :: h)) (hs : step rt s e = some s') : Inv (e :: h) s' := by
  cases e with
  | hit g p =>
    simp only [step] at hs
    split at hs
    case isFalse => simp at hs
    rename_i hp
    simp only [Option.some.injEq] at hs; subst hs
    have hmem : ∀ q, q ∈ s.pooled.erase p ↔ q ≠ p ∧ q ∈ s.pooled := fun q => i.nodup.mem_erase_iff
    refine ⟨i.nodup.erase p, i.pnodup, ?_, ?_, ?_, ?_⟩
    · intro q hq; exact i.disjoint q ((hmem q).mp hq).2
    · intro q hq
      obtain ⟨h1, h2⟩ := (hmem q).mp hq
      simp only [owner, h1, if_false]
      exact i.pooled q h2
    · intro q hq
      have hqp : q ≠ p := fun h => i.disjoint p hp (h ▸ hq)
      simp only [owner, hqp, if_false]
      exact i.pending q hq
    · intro q g' hq
      simp only [owner, opsSince] at hq ⊢
      by_cases hqp : q = p
      · subst hqp
        obtain ⟨_, b, h1, h2, h3⟩ := i.pooled q hp
        exact ⟨b, h1, h2, by simp [Buffer.written, h3, logAfter]⟩
      · simp only [hqp, if_false] at hq ⊢
        exact i.owned q g' hq
  | miss g p =>
    simp only [step] at hs
    split at hs
    case isFalse => simp at hs
    rename_i hp
    simp only [Option.some.injEq] at hs; subst hs
    exact inv_new i _ g p _ hp (.inl rfl) (fun _ => rfl) (fun _ => rfl)
  | alloc g p b =>
    simp only [step] at hs
    split at hs
    case isFalse => simp at hs
    rename_i hp
    simp only [Option.some.injEq] at hs; subst hs
    exact inv_new i _ g p b hp hd.1 (fun _ => rfl) (fun _ => rfl)
  | use g p op =>
    obtain ⟨ho, hadm, _⟩ := hd
    obtain ⟨hnp, hnq⟩ := i.owned_not_pooled ho
    obtain ⟨b, hb, hu, hw⟩ := i.owned p g ho
    obtain ⟨b', hr, hu', hw', _⟩ := runOp_exact rt b op hu (by rw [hw]; exact hadm)
    simp only [step, hb, hr, Option.some.injEq] at hs; subst hs
    refine ⟨i.nodup, i.pnodup, i.disjoint, ?_, ?_, ?_⟩
    · intro q hq
      have hqp : q ≠ p := fun h => hnp (h ▸ hq)
      simp only [owner, State.set, hqp, if_false]
      exact i.pooled q hq
    · intro q hq
      have hqp : q ≠ p := fun h => hnq (h ▸ hq)
      simp only [owner, State.set, hqp, if_false]
      exact i.pending q hq
    · intro q g' hq
      simp only [owner, opsSince, State.set] at hq ⊢
      by_cases hqp : q = p
      · subst hqp
        refine ⟨b', by simp, hu', ?_⟩
        simp [hw', hw, logAfter, List.foldl_append]
      · simp only [hqp, if_false]
        exact i.owned q g' hq
  | putReset g p =>
    obtain ⟨ho, _⟩ := hd
    obtain ⟨hnp, hnq⟩ := i.owned_not_pooled ho
    obtain ⟨b, hb, hu, hw⟩ := i.owned p g ho
    simp only [step, hb, Option.some.injEq] at hs; subst hs
    refine ⟨i.nodup, ?_, ?_, ?_, ?_, ?_⟩
    · simp only [List.map_cons, List.nodup_cons]; exact ⟨hnq, i.pnodup⟩
    · intro q hq
      have hqp : q ≠ p := fun h => hnp (h ▸ hq)
      simp only [List.map_cons, List.mem_cons, hqp, false_or]
      exact i.disjoint q hq
    · intro q hq
      have hqp : q ≠ p := fun h => hnp (h ▸ hq)
      simp only [owner, State.set, hqp, if_false]
      exact i.pooled q hq
    · intro q hq
      by_cases hqp : q = p
      · subst hqp
        simp only [owner, State.set, if_true, true_and]
        exact ⟨b.Reset, rfl, Usable.reset hu, rfl⟩
      · simp only [owner, State.set, hqp, if_false]
        simp only [List.map_cons, List.mem_cons, hqp, false_or] at hq
        exact i.pending q hq
    · intro q g' hq
      simp only [owner, opsSince, State.set] at hq ⊢
      by_cases hqp : q = p
      · simp [hqp] at hq
      · simp only [hqp, if_false] at hq ⊢
        exact i.owned q g' hq
  | putCommit g p =>
    simp only [step] at hs
    split at hs
    case isFalse => simp at hs
    rename_i hp
    simp only [Option.some.injEq] at hs; subst hs
    have hp' : p ∈ s.pending.map Prod.snd := List.mem_map.mpr ⟨_, hp, rfl⟩
    have hnp : p ∉ s.pooled := fun h => i.disjoint p h hp'
    have hsub : ∀ q, q ∈ (s.pending.erase (g, p)).map Prod.snd → q ∈ s.pending.map Prod.snd := by
      intro q hq
      obtain ⟨x, hx, rfl⟩ := List.mem_map.mp hq
      exact List.mem_map.mpr ⟨x, List.mem_of_mem_erase hx, rfl⟩
    have hnd : s.pending.Nodup := by
      have := i.pnodup
      rw [List.nodup_iff_pairwise_ne, List.pairwise_map] at this
      exact this.imp (fun h hh => h (by rw [hh]))
    have hgone : p ∉ (s.pending.erase (g, p)).map Prod.snd := by
      intro hq
      obtain ⟨⟨g', p'⟩, hx, he⟩ := List.mem_map.mp hq
      simp only at he; subst he
      have hx' := hnd.mem_erase_iff.mp hx
      have huniq : ∀ (l : List (Gid × Ptr)), (l.map Prod.snd).Nodup → ∀ a b, a ∈ l → b ∈ l → a.2 = b.2 → a = b := by
        intro l
        induction l with
        | nil => intro _ a b ha; cases ha
        | cons x xs ih =>
          intro hn a b ha hb hab
          simp only [List.map_cons, List.nodup_cons] at hn
          rcases List.mem_cons.mp ha with rfl | ha' <;> rcases List.mem_cons.mp hb with rfl | hb'
          · rfl
          · exact absurd (List.mem_map.mpr ⟨b, hb', hab.symm⟩) hn.1
          · exact absurd (List.mem_map.mpr ⟨a, ha', hab⟩) hn.1
          · exact ih hn.2 a b ha' hb' hab
      exact hx'.1 (huniq _ i.pnodup _ _ hx'.2 hp rfl)
    refine ⟨?_, ?_, ?_, ?_, ?_, ?_⟩
    · exact List.nodup_cons.mpr ⟨hnp, i.nodup⟩
    · exact (List.Sublist.map _ List.erase_sublist).nodup i.pnodup
    · intro q hq
      rcases List.mem_cons.mp hq with rfl | hq
      · exact hgone
      · exact fun h => i.disjoint q hq (hsub q h)
    · intro q hq
      rcases List.mem_cons.mp hq with rfl | hq
      · exact i.pending _ hp'
      · exact i.pooled q hq
    · intro q hq; exact i.pending q (hsub q hq)
    · intro q g' hq; exact i.owned q g' hq
  | putNil g =>
    simp only [step, Option.some.injEq] at hs; subst hs
    exact ⟨i.nodup, i.pnodup, i.disjoint, i.pooled, i.pending, i.owned⟩
  | collect p =>
    simp only [step] at hs
    split at hs
    case isFalse => simp at hs
    simp only [Option.some.injEq] at hs; subst hs
    refine ⟨i.nodup.erase p, i.pnodup, ?_, ?_, i.pending, i.owned⟩
    · intro q hq; exact i.disjoint q (List.mem_of_mem_erase hq)
    · intro q hq; exact i.pooled q (List.mem_of_mem_erase hq)

theorem Disciplined.tail {e : Ev} {h : List Ev} (hd : Disciplined (e :: h)) : Disciplined h := by
  cases e <;> simp only [Disciplined] at hd
  case use => exact hd.2.2
  case putReset => exact hd.2
  case alloc => exact hd.2
  all_goals exact hd

theorem inv_run (rt : Runtime) : ∀ (h : List Ev) (s : State), Disciplined h → run rt h = some s → Inv h s := by
  intro h
  induction h with
  | nil => intro s _ hr; simp [run] at hr; subst hr; exact inv_init
  | cons e h ih =>
    intro s hd hr
    simp only [run] at hr
    cases hs : run rt h with
    | none => rw [hs] at hr; simp at hr
    | some s0 =>
      rw [hs] at hr
      exact inv_step rt (ih s0 hd.tail hs) e hd hr

end GoV2.Pool
