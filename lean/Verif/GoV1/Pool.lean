import Verif.GoV1.Decode

/-!
# Model of the v1 decoder pool (/repo/decoder.go 21-49) under arbitrary interleavings

Goroutines are numbered, decoders are heap cells named by pointers; a cell holds the field `d.b`
(`none` is the nil slice, i.e. no reference to any input).  A history is a list of atomic steps,
**newest first**.  `sync.Pool` is the run time's: `Get` returns any pooled pointer and removes it, or nil,
at any time; pooled pointers may be dropped at any time.  `GetDecoder` on a pooled decoder and
`ReturnDecoder` are *two* atomic steps each, between which other goroutines run.  Simplification: one
decoder method call is one atomic step.
-/

namespace GoV1.Pool

open Spec
open GoV2 (Outcome)

abbrev Ptr := Nat
abbrev Gid := Nat

/-- The atomic steps of goroutines and of the run time. -/
inductive Ev where
  /-- decoder.go 28: `decoderPool.Get()` returns the pooled pointer `p` -/
  | hit (g : Gid) (p : Ptr)
  /-- decoder.go 34-35: `d = v.(*Decoder); d.b = b` -/
  | hitSet (g : Gid) (p : Ptr) (b : Bytes)
  /-- decoder.go 28-32: `decoderPool.Get()` returns nil, a new decoder is allocated at `p` -/
  | miss (g : Gid) (p : Ptr) (b : Bytes)
  /-- `g` calls a decoder method on `p` (decoder.go 51-133: `d.b, value, err = decodeX(d.b, …)`) -/
  | use (g : Gid) (p : Ptr) (q : Req)
  /-- decoder.go 42: `d.b = nil` -/
  | retClear (g : Gid) (p : Ptr)
  /-- decoder.go 43: `decoderPool.Put(d)` -/
  | retPut (g : Gid) (p : Ptr)
  /-- decoder.go 41: `ReturnDecoder(nil)` -/
  | retNil (g : Gid)
  /-- the run time drops a pooled pointer -/
  | collect (p : Ptr)

structure State where
  /-- `none`: not allocated; `some none`: a decoder whose `b` is nil -/
  heap : Ptr → Option (Option Bytes)
  /-- the contents of `decoderPool` -/
  pooled : List Ptr
  /-- goroutines inside `GetDecoder`, between `Get` and the assignment -/
  getting : List (Gid × Ptr)
  /-- goroutines inside `ReturnDecoder`, between the assignment and `Put` -/
  returning : List (Gid × Ptr)

/-- decoder.go 21: `var decoderPool sync.Pool`. -/
def init : State := { heap := fun _ => none, pooled := [], getting := [], returning := [] }

def State.set (s : State) (p : Ptr) (b : Option Bytes) : State :=
  { s with heap := fun q => if q = p then some b else s.heap q }

/-- decoder.go 51-133: `d.b, … = decodeX(d.b, …)`; when `decodeX` panics the assignment does not happen. -/
def afterRead (b : Bytes) (q : Req) : Bytes :=
  match readItem q b with
  | .ok (r, _) => r
  | .panic => b

/-- Effect of a step; `none` if it is impossible in this state. -/
def step (s : State) : Ev → Option State
  | .hit g p =>
    if p ∈ s.pooled then some { s with pooled := s.pooled.erase p, getting := (g, p) :: s.getting } else none
  | .hitSet g p b =>
    if (g, p) ∈ s.getting then some { s.set p (some b) with getting := s.getting.erase (g, p) } else none
  | .miss _ p b => if s.heap p = none then some (s.set p (some b)) else none
  | .use _ p q =>
    match s.heap p with
    | none => none
    | some c => some (s.set p (some (afterRead (c.getD []) q)))
  | .retClear g p =>
    match s.heap p with
    | none => none
    | some _ => some { s.set p none with returning := (g, p) :: s.returning }
  | .retPut g p =>
    if (g, p) ∈ s.returning then
      some { s with pooled := p :: s.pooled, returning := s.returning.erase (g, p) }
    else none
  | .retNil _ => some s
  | .collect p => if p ∈ s.pooled then some { s with pooled := s.pooled.erase p } else none

/-- The state after a history (newest step first). -/
def run : List Ev → Option State
  | [] => some init
  | e :: h => do step (← run h) e

/-! ## Client discipline, read off the history alone -/

/-- The goroutine to which `GetDecoder` returned `p` and that has not returned it since, together with the
input it passed and the calls it made since, oldest first. -/
def owner : List Ev → Ptr → Option (Gid × Bytes × List Req)
  | [], _ => none
  | .hitSet g p b :: h, q => if q = p then some (g, b, []) else owner h q
  | .miss g p b :: h, q => if q = p then some (g, b, []) else owner h q
  | .use _ p r :: h, q =>
    if q = p then (owner h q).map (fun (g, b, rs) => (g, b, rs ++ [r])) else owner h q
  | .retClear _ p :: h, q => if q = p then none else owner h q
  | _ :: h, q => owner h q

/-- Clients use and return only decoders they own (so they return each decoder once). -/
def Disciplined : List Ev → Prop
  | [] => True
  | .use g p _ :: h => (∃ x, owner h p = some (g, x)) ∧ Disciplined h
  | .retClear g p :: h => (∃ x, owner h p = some (g, x)) ∧ Disciplined h
  | _ :: h => Disciplined h

theorem Disciplined.tail {e : Ev} {h : List Ev} (hd : Disciplined (e :: h)) : Disciplined h := by
  cases e <;> simp only [Disciplined] at hd
  case use => exact hd.2
  case retClear => exact hd.2
  all_goals exact hd

/-! ## The invariant -/

/-- All decoders that no client owns but that may be handed out later. -/
def State.free (s : State) : List Ptr := s.pooled ++ (s.getting.map Prod.snd ++ s.returning.map Prod.snd)

structure Inv (h : List Ev) (s : State) : Prop where
  nodup : s.free.Nodup
  free : ∀ p ∈ s.free, owner h p = none ∧ s.heap p = some none
  owned : ∀ p g b rs, owner h p = some (g, b, rs) → s.heap p = some (some (rs.foldl afterRead b))

theorem Inv.owned_not_free {h : List Ev} {s : State} (i : Inv h s) {p : Ptr} {x}
    (ho : owner h p = some x) : p ∉ s.free := by
  intro hp; have := (i.free p hp).1; rw [ho] at this; cases this

theorem inv_init : Inv [] init :=
  ⟨by simp [init, State.free], by simp [init, State.free], by simp [owner]⟩

/-- Moving pointers between the pool and the calls in flight. -/
theorem inv_move {h : List Ev} {s s' : State} (i : Inv h s) (e : Ev) (hh : s'.heap = s.heap)
    (hp : s'.free.Perm s.free) (ho : ∀ q, owner (e :: h) q = owner h q) : Inv (e :: h) s' := by
  refine ⟨hp.nodup_iff.mpr i.nodup, ?_, ?_⟩
  · intro p h1; rw [ho, hh]; exact i.free p (hp.mem_iff.mp h1)
  · intro p g b rs h1; rw [ho] at h1; rw [hh]; exact i.owned p g b rs h1

theorem perm_getting {l : List (Gid × Ptr)} {g : Gid} {p : Ptr} (h : (g, p) ∈ l) :
    (l.map Prod.snd).Perm (p :: (l.erase (g, p)).map Prod.snd) := by
  simpa using (List.perm_cons_erase h).map Prod.snd

theorem inv_step {h : List Ev} {s s' : State} (i : Inv h s) (e : Ev)
    (hd : Disciplined (e :: h)) (hs : step s e = some s') : Inv (e :: h) s' := by
  cases e with
  | hit g p =>
    simp only [step] at hs
    split at hs
    case isFalse => simp at hs
    rename_i hp
    simp only [Option.some.injEq] at hs; subst hs
    refine inv_move i _ rfl ?_ (fun _ => rfl)
    simp only [State.free, List.map_cons, List.cons_append]
    exact (List.perm_middle).trans ((List.perm_cons_erase hp).symm.append_right _)
  | hitSet g p b =>
    simp only [step] at hs
    split at hs
    case isFalse => simp at hs
    rename_i hp
    simp only [Option.some.injEq] at hs; subst hs
    have hperm : s.free.Perm (p :: (s.pooled ++ ((s.getting.erase (g, p)).map Prod.snd ++ s.returning.map Prod.snd))) := by
      simp only [State.free]
      exact (((perm_getting hp).append_right _).append_left _).trans List.perm_middle
    have hn := List.nodup_cons.mp (hperm.nodup_iff.mp i.nodup)
    refine ⟨hn.2, ?_, ?_⟩
    · intro q hq
      have hqp : q ≠ p := fun hh => hn.1 (hh ▸ hq)
      have := i.free q (hperm.mem_iff.mpr (List.mem_cons_of_mem _ hq))
      simpa [owner, State.set, hqp] using this
    · intro q g' b' rs hq
      by_cases hqp : q = p
      · simp only [owner, hqp, if_true, Option.some.injEq, Prod.mk.injEq] at hq
        obtain ⟨_, rfl, rfl⟩ := hq
        simp [State.set, hqp]
      · simp only [owner, hqp, if_false] at hq
        simpa [State.set, hqp] using i.owned q g' b' rs hq
  | miss g p b =>
    simp only [step] at hs
    split at hs
    case isFalse => simp at hs
    rename_i hp
    simp only [Option.some.injEq] at hs; subst hs
    refine ⟨i.nodup, ?_, ?_⟩
    · intro q hq
      have h1 := i.free q hq
      have hqp : q ≠ p := by rintro rfl; rw [hp] at h1; cases h1.2
      simpa [owner, State.set, hqp] using h1
    · intro q g' b' rs hq
      by_cases hqp : q = p
      · simp only [owner, hqp, if_true, Option.some.injEq, Prod.mk.injEq] at hq
        obtain ⟨_, rfl, rfl⟩ := hq
        simp [State.set, hqp]
      · simp only [owner, hqp, if_false] at hq
        simpa [State.set, hqp] using i.owned q g' b' rs hq
  | use g p r =>
    obtain ⟨⟨⟨b, rs⟩, ho⟩, _⟩ := hd
    have hc := i.owned p g b rs ho
    have hnf := i.owned_not_free ho
    simp only [step, hc, Option.some.injEq, Option.getD_some] at hs; subst hs
    refine ⟨i.nodup, ?_, ?_⟩
    · intro q hq
      have hqp : q ≠ p := fun hh => hnf (hh ▸ hq)
      simpa [owner, State.set, hqp] using i.free q hq
    · intro q g' b' rs' hq
      by_cases hqp : q = p
      · subst hqp
        simp only [owner, if_true, ho, Option.map_some, Option.some.injEq, Prod.mk.injEq] at hq
        obtain ⟨_, rfl, rfl⟩ := hq
        simp [State.set, List.foldl_append]
      · simp only [owner, hqp, if_false] at hq
        simpa [State.set, hqp] using i.owned q g' b' rs' hq
  | retClear g p =>
    obtain ⟨⟨⟨b, rs⟩, ho⟩, _⟩ := hd
    have hc := i.owned p g b rs ho
    have hnf := i.owned_not_free ho
    simp only [step, hc, Option.some.injEq] at hs; subst hs
    have hperm : (State.free { s.set p none with returning := (g, p) :: s.returning }).Perm (p :: s.free) := by
      simp only [State.free, State.set, List.map_cons]
      rw [← List.append_assoc, ← List.append_assoc]
      exact List.perm_middle
    refine ⟨hperm.nodup_iff.mpr (List.nodup_cons.mpr ⟨hnf, i.nodup⟩), ?_, ?_⟩
    · intro q hq
      rcases List.mem_cons.mp (hperm.mem_iff.mp hq) with rfl | hq
      · simp [owner, State.set]
      · have hqp : q ≠ p := fun hh => hnf (hh ▸ hq)
        simpa [owner, State.set, hqp] using i.free q hq
    · intro q g' b' rs' hq
      by_cases hqp : q = p
      · simp [owner, hqp] at hq
      · simp only [owner, hqp, if_false] at hq
        simpa [State.set, hqp] using i.owned q g' b' rs' hq
  | retPut g p =>
    simp only [step] at hs
    split at hs
    case isFalse => simp at hs
    rename_i hp
    simp only [Option.some.injEq] at hs; subst hs
    refine inv_move i _ rfl ?_ (fun _ => rfl)
    simp only [State.free, List.cons_append]
    refine List.Perm.symm ?_
    refine (((perm_getting hp).append_left _).append_left _).trans ?_
    refine (List.perm_middle.append_left _).trans List.perm_middle
  | retNil g =>
    simp only [step, Option.some.injEq] at hs; subst hs
    exact inv_move i _ rfl (List.Perm.refl _) (fun _ => rfl)
  | collect p =>
    simp only [step] at hs
    split at hs
    case isFalse => simp at hs
    rename_i hp
    simp only [Option.some.injEq] at hs; subst hs
    have hperm : s.free.Perm (p :: State.free { s with pooled := s.pooled.erase p }) := by
      simp only [State.free, ← List.cons_append]
      exact (List.perm_cons_erase hp).append_right _
    refine ⟨(List.nodup_cons.mp (hperm.nodup_iff.mp i.nodup)).2, ?_, ?_⟩
    · intro q hq; exact i.free q (hperm.mem_iff.mpr (List.mem_cons_of_mem _ hq))
    · intro q g b rs hq; exact i.owned q g b rs hq

theorem inv_run : ∀ (h : List Ev) (s : State), Disciplined h → run h = some s → Inv h s := by
  intro h
  induction h with
  | nil => intro s _ hr; simp [run] at hr; subst hr; exact inv_init
  | cons e h ih =>
    intro s hd hr
    simp only [run] at hr
    cases hs : run h with
    | none => rw [hs] at hr; simp at hr
    | some s0 =>
      rw [hs] at hr
      exact inv_step (ih s0 hd.tail hs) e hd hr

end GoV1.Pool
