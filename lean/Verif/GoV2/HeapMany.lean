import Verif.GoV2.HeapApi

/-!
# Several decoders at once

A schedule interleaves the calls of several goroutines, each of which has a `polyglot.Decoder(b)` of its own; the inputs may be
the same slice, or overlap.  Simplification: one decoder call is one step (decoder calls of different goroutines touch
disjoint memory except for reading the inputs, which is what the theorems show).
-/

namespace GoV2.Heap

/-- Run a schedule: step `(i, q)` is the call `q` on decoder `i`; the outcomes in the order of the steps. -/
def runMany (rt : Runtime) : List Slice → List (Nat × HReq) → H (List Slice × List (Nat × HOutcome))
  | ds, [] => pure (ds, [])
  | ds, (i, q) :: steps =>
    match ds[i]? with
    | none => H.panic
    | some b => do
      let (b, o) ← hreadItem rt q b
      let (ds, os) ← runMany rt (ds.set i b) steps
      return (ds, (i, o) :: os)

/-- What belongs to decoder `i`, in order. -/
def mine {α : Type} (i : Nat) (l : List (Nat × α)) : List α := l.filterMap fun x => if x.1 = i then some x.2 else none

theorem mine_same {α : Type} {i : Nat} {x : α} {l : List (Nat × α)} : mine i ((i, x) :: l) = x :: mine i l := by simp [mine]

theorem mine_other {α : Type} {i j : Nat} {x : α} {l : List (Nat × α)} (h : j ≠ i) : mine i ((j, x) :: l) = mine i l := by simp [mine, h]

theorem runMany_spec (rt : Runtime) : ∀ (steps : List (Nat × HReq)) (ds : List Slice) (h : Heap),
    (∀ (i : Nat) p, ds[i]? = some p → p.Ok h) → (∀ x ∈ steps, x.1 < ds.length ∧ x.2.Proper) →
    (∀ s ∈ scratches (steps.map Prod.snd), s.Ok h ∧ ∀ (i : Nat) p, ds[i]? = some p → ∀ a k, s.Reach a k → ¬ p.Elem a k) →
    (scratches (steps.map Prod.snd)).Pairwise (fun s t => ∀ a i, s.Reach a i → ¬ t.Reach a i) →
    match runMany rt ds steps h with
    | .ok ((ds', outs), h') =>
        (∀ (i : Nat) p, ds[i]? = some p → ∃ r, ds'[i]? = some r ∧
          readAll ((mine i steps).map HReq.req) (p.bytes h) = .ok (r.bytes h', (mine i outs).map (HOutcome.now h'))) ∧
        ∀ w : Slice, w.Ok h → (∀ s ∈ scratches (steps.map Prod.snd), ∀ a i, s.Reach a i → ¬ w.Elem a i) → w.bytes h' = w.bytes h
    | .panic => ∃ (i : Nat) (p : Slice), ds[i]? = some p ∧ readAll ((mine i steps).map HReq.req) (p.bytes h) = .panic := by
  intro steps
  induction steps with
  | nil => intro ds h _ _ _ _; exact ⟨fun i p e => ⟨p, e, rfl⟩, fun _ _ _ => rfl⟩
  | cons x steps ih =>
    obtain ⟨j, q⟩ := x
    intro ds h ho hq hs hp
    obtain ⟨hj, hprop⟩ := hq _ (List.mem_cons_self ..)
    simp only at hj hprop
    have hb : ds[j]? = some ds[j] := List.getElem?_eq_getElem hj
    generalize hbe : ds[j] = b at hb
    have ob := ho j b hb
    have hmine : ∀ s, q.scratch = some s → s ∈ scratches (((j, q) :: steps).map Prod.snd) := by
      intro s e
      simp only [scratches, List.map_cons, List.filterMap_cons, e]; exact List.mem_cons_self ..
    have hsub : ∀ s ∈ scratches (steps.map Prod.snd), s ∈ scratches (((j, q) :: steps).map Prod.snd) := by
      intro s hs
      simp only [scratches, List.map_cons, List.filterMap_cons]
      cases q.scratch with
      | none => exact hs
      | some t => exact List.mem_cons_of_mem _ hs
    have h0 := read_sim rt ob q hprop fun s e => (hs s (hmine s e)).1
    unfold SimG at h0
    simp only [runMany, hb]
    cases hx : hreadItem rt q b h with
    | panic =>
      rw [hx] at h0
      rw [bind_panic hx]
      refine ⟨j, b, hb, ?_⟩
      rw [mine_same, List.map_cons, readAll]
      revert h0
      cases readItem q.req (b.bytes h) with
      | panic => intro _; rfl
      | ok y => exact fun x => x.elim
    | ok x =>
      obtain ⟨⟨r, oc⟩, h1⟩ := x
      rw [hx] at h0
      rw [bind_ok hx]
      cases hy : readItem q.req (b.bytes h) with
      | panic => rw [hy] at h0; exact h0.elim
      | ok y =>
        rw [hy] at h0
        obtain ⟨y1, y2⟩ := y
        simp only at h0 ⊢
        have frame : ∀ w : Slice, w.Ok h → (∀ s, q.scratch = some s → ∀ a i, s.Reach a i → ¬ w.Elem a i) → w.bytes h1 = w.bytes h := by
          intro w ow hw
          apply bytes_congr
          intro i hi
          apply h0.cells _ ow.arr
          intro s e hr
          exact hw s e _ _ hr ⟨rfl, by omega, by omega⟩
        have hb1 : r.bytes h1 = y1 := by
          rw [frame r h0.ok, h0.unread]
          intro s e a i hr he
          exact (hs s (hmine s e)).2 j b hb a i hr (h0.rest.elem he)
        have hok : ∀ w : Slice, w.Ok h → w.Ok h1 := fun w ow => ok_of_mem ow h0.next (h0.length _ ow.arr)
        have hp' : (scratches (steps.map Prod.snd)).Pairwise (fun s t => ∀ a i, s.Reach a i → ¬ t.Reach a i) := by
          simp only [scratches, List.map_cons, List.filterMap_cons] at hp
          revert hp
          cases q.scratch with
          | none => exact id
          | some t => exact fun hp => (List.pairwise_cons.mp hp).2
        have hmut : ∀ s, q.scratch = some s → ∀ t ∈ scratches (steps.map Prod.snd), ∀ a i, s.Reach a i → ¬ t.Reach a i := by
          intro s e t ht
          simp only [scratches, List.map_cons, List.filterMap_cons, e] at hp
          exact (List.pairwise_cons.mp hp).1 t ht
        have hget : ∀ (i : Nat) p, (ds.set j r)[i]? = some p → (i = j ∧ p = r) ∨ (i ≠ j ∧ ds[i]? = some p) := by
          intro i p e
          by_cases hij : i = j
          · subst hij
            rw [List.getElem?_set_self hj] at e
            cases e; exact .inl ⟨rfl, rfl⟩
          · rw [List.getElem?_set_ne (fun e => hij e.symm)] at e
            exact .inr ⟨hij, e⟩
        have hi := ih (ds.set j r) h1 (by
            intro i p e
            rcases hget i p e with ⟨_, rfl⟩ | ⟨_, e⟩
            · exact hok _ h0.ok
            · exact hok _ (ho i p e))
          (by intro x hx; rw [List.length_set]; exact hq x (List.mem_cons_of_mem _ hx))
          (by
            intro s hs'
            refine ⟨hok s (hs s (hsub s hs')).1, ?_⟩
            intro i p e a k hr he
            rcases hget i p e with ⟨_, rfl⟩ | ⟨_, e⟩
            · exact (hs s (hsub s hs')).2 j b hb a k hr (h0.rest.elem he)
            · exact (hs s (hsub s hs')).2 i p e a k hr he) hp'
        have hown : ∀ i, i ≠ j → ∀ p, ds[i]? = some p → (ds.set j r)[i]? = some p := by
          intro i hij p e
          rw [List.getElem?_set_ne (fun e => hij e.symm)]; exact e
        have hpb : ∀ (i : Nat) p, ds[i]? = some p → p.bytes h1 = p.bytes h := by
          intro i p e
          exact frame p (ho i p e) fun s es => (hs s (hmine s es)).2 i p e
        cases hx2 : runMany rt (ds.set j r) steps h1 with
        | panic =>
          rw [hx2] at hi
          rw [bind_panic hx2]
          obtain ⟨i, p, e, hpan⟩ := hi
          rcases hget i p e with ⟨rfl, rfl⟩ | ⟨hij, e⟩
          · refine ⟨i, b, hb, ?_⟩
            rw [mine_same, List.map_cons, readAll, hy, Go.bind_ok]
            simp only [← hb1, hpan]; rfl
          · refine ⟨i, p, e, ?_⟩
            rw [mine_other (fun e => hij e.symm), ← hpb i p e]; exact hpan
        | ok x2 =>
          obtain ⟨⟨ds2, os⟩, h2⟩ := x2
          rw [hx2] at hi
          rw [bind_ok hx2]
          obtain ⟨i1, i2⟩ := hi
          refine ⟨?_, ?_⟩
          · intro i p e
            by_cases hij : i = j
            · subst hij
              rw [hb] at e; cases e
              obtain ⟨r2, k1, k2⟩ := i1 i r (List.getElem?_set_self hj)
              refine ⟨r2, k1, ?_⟩
              rw [mine_same, mine_same, List.map_cons, readAll, hy, Go.bind_ok]
              rw [hb1] at k2
              simp only [k2]
              show Go.ok _ = Go.ok _
              congr 2
              simp only [List.map_cons]
              congr 1
              have hoc := h0.outcome
              simp only at hoc
              rw [← hoc]
              cases oc with
              | plain o => rfl
              | bytes v =>
                obtain ⟨v1, v2⟩ := h0.value v rfl
                simp only [HOutcome.now]
                rw [i2 v v1]
                intro s hs' a i hr he
                rcases v2 with v2 | ⟨t, ht, v2⟩
                · have := (hs s (hsub s hs')).1.arr
                  have e1 := hr.1; have e2 := he.1
                  omega
                · exact hmut t ht s hs' a i (v2 a i he) hr
            · obtain ⟨r2, k1, k2⟩ := i1 i p (hown i hij p e)
              refine ⟨r2, k1, ?_⟩
              rw [mine_other (fun e => hij e.symm), mine_other (fun e => hij e.symm), ← hpb i p e]; exact k2
          · intro w ow hw
            rw [i2 w (hok w ow) (fun s hs' => hw s (hsub s hs')), frame w ow (fun s e => hw s (hmine s e))]

end GoV2.Heap
