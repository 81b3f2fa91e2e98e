import Verif.GoV1.HeapFacts
import Verif.GoV2.HeapApi

/-! # v1: programs that use several buffers and their own slices -/

namespace GoV1.Heap

open GoV2 (Runtime)
open GoV2.Heap (Heap Slice H Apart bind_ok bytes_congr bytes_length ok_of_mem)
open Spec

/-- One step of a program: a call on one of its buffers, or a write into one of its own slices. -/
inductive Act where
  | call (i : Nat) (c : Call)
  | poke (w : Slice) (k : Nat) (v : Byte)
deriving Repr

/-- One step executed by the model. -/
def Act.run (rt : Runtime) (bufs : List Slice) : Act → H (List Slice)
  | .call i c =>
    match bufs[i]? with
    | some p => do
      let q ← c.run rt p
      return bufs.set i q
    | none => H.panic
  | .poke w k v => do
    w.store k v
    return bufs

/-- A whole program. -/
def runActs (rt : Runtime) : List Slice → List Act → H (List Slice)
  | bufs, [] => pure bufs
  | bufs, a :: as => do
    let bufs ← a.run rt bufs
    runActs rt bufs as

/-- The operations that a program asks buffer `i` to perform, each with the contents its arguments have at the time of the
call when the program's memory is changed by nothing but its own writes. -/
def asked (i : Nat) : List Act → Heap → List LogOp
  | [], _ => []
  | .call j c :: as, h => if j = i then c.op h :: asked i as h else asked i as h
  | .poke w k v :: as, h => asked i as (h.poke w k v)

/-- The memory after the program's own writes alone. -/
def ownWrites : List Act → Heap → Heap
  | [], h => h
  | .call _ _ :: as, h => ownWrites as h
  | .poke w k v :: as, h => ownWrites as (h.poke w k v)

/-- The step uses an existing buffer, can be written in a program, and the slices it uses satisfy `P`; writes are in range. -/
def Act.Uses (n : Nat) (P : Slice → Prop) : Act → Prop
  | .call i c => i < n ∧ c.Proper ∧ ∀ w ∈ c.args, P w
  | .poke w k _ => P w ∧ k < w.len

theorem op_congr {c : Call} {h g : Heap} (e : ∀ w ∈ c.args, w.bytes h = w.bytes g) : c.op h = c.op g := by
  cases c <;> simp [Call.op, Call.args] at e ⊢
  case bytes => exact e
  case map => rw [e.1, e.2]
  case slice => rw [e]
  case write => exact e

theorem bytes_mem {p : Slice} {h g : Heap} (e : h.mem p.arr = g.mem p.arr) : p.bytes h = p.bytes g := by
  simp only [Slice.bytes, e]

/-- Every buffer is in order and no two share an array. -/
structure Sound (bufs : List Slice) (h : Heap) : Prop where
  each : ∀ (i : Nat) p, bufs[i]? = some p → p.Ok h
  apart : ∀ (i j : Nat) p q, i ≠ j → bufs[i]? = some p → bufs[j]? = some q → p.arr ≠ q.arr

theorem runActs_spec (rt : Runtime) : ∀ (as : List Act) (bufs : List Slice) (h g : Heap) (P : Slice → Prop), Sound bufs h →
    (∀ w, P w → w.Ok h ∧ (∀ (i : Nat) p, bufs[i]? = some p → w.arr ≠ p.arr) ∧ h.mem w.arr = g.mem w.arr) →
    (∀ a ∈ as, a.Uses bufs.length P) →
    (∀ i, i < bufs.length → ∀ x, LogOp.encode x ∈ asked i as g → x.Fits) →
    ∃ bufs' h', runActs rt bufs as h = .ok (bufs', h') ∧ bufs'.length = bufs.length ∧ Sound bufs' h' ∧
      (∀ (i : Nat) p q, bufs[i]? = some p → bufs'[i]? = some q → q.bytes h' = logAfter (p.bytes h) (asked i as g)) ∧
      ∀ w, P w → h'.mem w.arr = (ownWrites as g).mem w.arr := by
  intro as
  induction as with
  | nil =>
    intro bufs h g P hs hP _ _
    refine ⟨bufs, h, rfl, rfl, hs, ?_, fun w hw => (hP w hw).2.2⟩
    intro i p q e1 e2
    rw [e1] at e2; cases e2; rfl
  | cons a as ih =>
    intro bufs h g P hs hP hU hA
    cases a with
    | poke w k v =>
      obtain ⟨hw, hk⟩ := hU _ (List.mem_cons_self ..)
      obtain ⟨ow, hne, hm⟩ := hP w hw
      have step : Act.run rt bufs (.poke w k v) h = .ok (bufs, h.poke w k v) := by
        rw [Act.run, bind_ok (a := ()) (h' := h.poke w k v)]
        · rfl
        · simp only [Slice.store]
          rw [if_neg (by omega)]; rfl
      have hmem : ∀ a, ((h.poke w k v).mem a).length = (h.mem a).length := by
        intro a; simp only [Heap.poke, Heap.set]; split
        · rename_i e; rw [List.length_set, e]
        · rfl
      have hview : ∀ (i : Nat) p, bufs[i]? = some p → (h.poke w k v).mem p.arr = h.mem p.arr := by
        intro i p e
        simp only [Heap.poke, Heap.set]; rw [if_neg]; exact (hne i p e).symm
      have hs' : Sound bufs (h.poke w k v) := ⟨fun i p e => ok_of_mem (hs.each i p e) (Nat.le_refl _) (hmem _), hs.apart⟩
      obtain ⟨bufs', h', r1, r2, r3, r4, r5⟩ := ih bufs (h.poke w k v) (g.poke w k v) P hs'
        (by
          intro x hx
          obtain ⟨ox, hnx, hmx⟩ := hP x hx
          refine ⟨ok_of_mem ox (Nat.le_refl _) (hmem _), hnx, ?_⟩
          simp only [Heap.poke, Heap.set, hm, hmx])
        (fun a ha => hU a (List.mem_cons_of_mem _ ha)) hA
      refine ⟨bufs', h', ?_, r2, r3, ?_, r5⟩
      · rw [runActs, bind_ok step]; exact r1
      · intro i p q e1 e2
        have := r4 i p q e1 e2
        rw [bytes_mem (hview i p e1)] at this
        exact this
    | call i c =>
      obtain ⟨hi, hc, harg⟩ := hU _ (List.mem_cons_self ..)
      obtain ⟨p, hp⟩ : ∃ p, bufs[i]? = some p := ⟨bufs[i], List.getElem?_eq_getElem hi⟩
      have op := hs.each i p hp
      have hop : c.op h = c.op g := op_congr fun w hw => by
        simp only [Slice.bytes, (hP w (harg w hw)).2.2]
      obtain ⟨q, h1, hrun, oq, hw, heff⟩ := call_spec rt op c hc
        (fun w hw => ⟨(hP w (harg w hw)).1, .inr (.inl ((hP w (harg w hw)).2.1 i p hp))⟩)
        (fun x hx => hA i hi x (by simp only [asked, if_true]; rw [← hop, hx]; exact List.mem_cons_self ..))
      rw [hop] at hw
      have step : Act.run rt bufs (.call i c) h = .ok (bufs.set i q, h1) := by
        rw [Act.run, hp]; simp only []; rw [bind_ok hrun]; rfl
      have hget : ∀ (j : Nat) x, (bufs.set i q)[j]? = some x → (j = i ∧ x = q) ∨ (j ≠ i ∧ bufs[j]? = some x) := by
        intro j x e
        rw [List.getElem?_set] at e
        by_cases hj : i = j
        · rw [if_pos hj, if_pos hi] at e; left
          exact ⟨hj.symm, (Option.some.inj e).symm⟩
        · rw [if_neg hj] at e; right; exact ⟨fun e => hj e.symm, e⟩
      have hother : ∀ (j : Nat) x, j ≠ i → bufs[j]? = some x → x.arr < h.next ∧ x.arr ≠ p.arr := fun j x hj e =>
        ⟨(hs.each j x e).arr, hs.apart j i x p hj e hp⟩
      have hs' : Sound (bufs.set i q) h1 := by
        constructor
        · intro j x e
          rcases hget j x e with ⟨_, rfl⟩ | ⟨hj, e⟩
          · exact oq
          · obtain ⟨a1, a2⟩ := hother j x hj e
            exact ok_of_mem (hs.each j x e) heff.next (by rw [heff.mem a1 a2])
        · intro j k x y hjk e1 e2
          rcases hget j x e1 with ⟨hj, rfl⟩ | ⟨hj, f1⟩ <;> rcases hget k y e2 with ⟨hk, rfl⟩ | ⟨hk, f2⟩
          · omega
          · obtain ⟨a1, a2⟩ := hother k y hk f2
            exact (heff.arr a1 a2).symm
          · obtain ⟨a1, a2⟩ := hother j x hj f1
            exact heff.arr a1 a2
          · exact hs.apart j k x y hjk f1 f2
      obtain ⟨bufs', h', r1, r2, r3, r4, r5⟩ := ih (bufs.set i q) h1 g P hs'
        (by
          intro w hw
          obtain ⟨a1, a2, a3⟩ := hP w hw
          have hmm := heff.mem a1.arr (a2 i p hp)
          refine ⟨ok_of_mem a1 heff.next (by rw [hmm]), ?_, by rw [hmm, a3]⟩
          intro j x e
          rcases hget j x e with ⟨_, rfl⟩ | ⟨hj, e⟩
          · exact heff.arr a1.arr (a2 i p hp)
          · exact a2 j x e)
        (fun a ha => by rw [List.length_set]; exact hU a (List.mem_cons_of_mem _ ha))
        (by
          intro j hj x hx
          rw [List.length_set] at hj
          refine hA j hj x ?_
          simp only [asked]
          split
          · exact List.mem_cons_of_mem _ hx
          · exact hx)
      refine ⟨bufs', h', ?_, by rw [r2, List.length_set], r3, ?_, r5⟩
      · rw [runActs, bind_ok step]; exact r1
      · intro j x y e1 e2
        by_cases hj : j = i
        · subst hj
          rw [hp] at e1; cases e1
          have := r4 j q y (by rw [List.getElem?_set, if_pos rfl, if_pos hi]) e2
          simp only [asked, if_true]
          rw [this, hw]; rfl
        · obtain ⟨a1, a2⟩ := hother j x hj e1
          have := r4 j x y (by rw [List.getElem?_set, if_neg (fun e => hj e.symm)]; exact e1) e2
          rw [bytes_mem (heff.mem a1 a2)] at this
          simp only [asked]
          rw [if_neg (fun e => hj e.symm)]; exact this

/-- A sequence of calls on one buffer. -/
def runCalls (rt : Runtime) : Slice → List Call → H Slice
  | p, [] => pure p
  | p, c :: cs => do
    let p ← c.run rt p
    runCalls rt p cs

/-- Calls without `Reset`: arguments may lie anywhere except in the free part of the buffer, also in the part already
written. -/
theorem runCalls_forward (rt : Runtime) : ∀ (cs : List Call) (p : Slice) (h : Heap), p.Ok h →
    (∀ c ∈ cs, c.Proper ∧ c.Forward ∧ (∀ w ∈ c.args, w.Ok h ∧ Apart w p p.len) ∧ ∀ i, c.op h = .encode i → i.Fits) →
    ∃ q h', runCalls rt p cs h = .ok (q, h') ∧ q.Ok h' ∧ q.bytes h' = logAfter (p.bytes h) (cs.map (Call.op h)) ∧ Eff h p h' q := by
  intro cs
  induction cs with
  | nil => intro p h o _; exact ⟨p, h, rfl, o, rfl, Eff.refl h p⟩
  | cons c cs ih =>
    intro p h o hcs
    obtain ⟨h1, h2, h3, h4⟩ := hcs c (List.mem_cons_self ..)
    obtain ⟨q, h', hrun, oq, hw, he⟩ := forward_spec rt o c h1 h2 h3 h4
    have hop : ∀ d ∈ cs, d.op h' = d.op h := by
      intro d hd
      obtain ⟨_, _, d3, _⟩ := hcs d (List.mem_cons_of_mem _ hd)
      exact op_congr fun w hw => he.bytes (d3 w hw).1 (d3 w hw).2
    obtain ⟨q2, h2', r1, r2, r3, r4⟩ := ih q h' oq (by
      intro d hd
      obtain ⟨d1, d2, d3, d4⟩ := hcs d (List.mem_cons_of_mem _ hd)
      refine ⟨d1, d2, fun w hw => ⟨he.ok (d3 w hw).1, he.apart (d3 w hw).1 (d3 w hw).2⟩, ?_⟩
      rw [hop d hd]; exact d4)
    refine ⟨q2, h2', ?_, r2, ?_, he.trans r4⟩
    · rw [runCalls, bind_ok hrun]; exact r1
    · rw [r3, hw, List.map_cons, List.map_congr_left hop]; rfl

/-- Any calls with arguments that are not in the buffer's array. -/
theorem runCalls_any (rt : Runtime) : ∀ (cs : List Call) (p : Slice) (h : Heap), p.Ok h →
    (∀ c ∈ cs, c.Proper ∧ (∀ w ∈ c.args, w.Ok h ∧ w.arr ≠ p.arr) ∧ ∀ i, c.op h = .encode i → i.Fits) →
    ∃ q h', runCalls rt p cs h = .ok (q, h') ∧ q.Ok h' ∧ q.bytes h' = logAfter (p.bytes h) (cs.map (Call.op h)) ∧ Eff0 h p h' q := by
  intro cs
  induction cs with
  | nil => intro p h o _; exact ⟨p, h, rfl, o, rfl, Eff0.refl h p⟩
  | cons c cs ih =>
    intro p h o hcs
    obtain ⟨h1, h3, h4⟩ := hcs c (List.mem_cons_self ..)
    obtain ⟨q, h', hrun, oq, hw, he⟩ := call_spec rt o c h1 (fun w hw => ⟨(h3 w hw).1, .inr (.inl (h3 w hw).2)⟩) h4
    have hop : ∀ d ∈ cs, d.op h' = d.op h := by
      intro d hd
      obtain ⟨_, d3, _⟩ := hcs d (List.mem_cons_of_mem _ hd)
      exact op_congr fun w hw => bytes_mem (he.mem (d3 w hw).1.arr (d3 w hw).2)
    obtain ⟨q2, h2', r1, r2, r3, r4⟩ := ih q h' oq (by
      intro d hd
      obtain ⟨d1, d3, d4⟩ := hcs d (List.mem_cons_of_mem _ hd)
      refine ⟨d1, fun w hw => ⟨he.ok (d3 w hw).1, he.arr (d3 w hw).1.arr (d3 w hw).2⟩, ?_⟩
      rw [hop d hd]; exact d4)
    refine ⟨q2, h2', ?_, r2, ?_, he.trans r4⟩
    · rw [runCalls, bind_ok hrun]; exact r1
    · rw [r3, hw, List.map_cons, List.map_congr_left hop]; rfl

end GoV1.Heap
