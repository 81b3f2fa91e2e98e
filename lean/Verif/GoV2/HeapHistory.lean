import Verif.GoV2.HeapDecodeFacts

/-! # Programs that use several buffers and their own slices -/

namespace GoV2.Heap

open Spec

/-- `w[k] = v` performed by the program itself. -/
def Heap.poke (h : Heap) (w : Slice) (k : Nat) (v : Byte) : Heap := h.set w.arr ((h.mem w.arr).set (w.off + k) v)

/-- One step of a program: a call on one of its buffers, or a write into one of its own slices. -/
inductive Act where
  | call (i : Nat) (c : Call)
  | poke (w : Slice) (k : Nat) (v : Byte)
deriving Repr

/-- One step executed by the model. -/
def Act.run (rt : Runtime) (bufs : List HBuffer) : Act → H (List HBuffer)
  | .call i c =>
    match bufs[i]? with
    | some p => do
      let q ← c.run rt p
      return bufs.set i q
    | none => H.panic
  | .poke w k v => do
    w.store k v
    return bufs

/-- A whole program. -/
def runActs (rt : Runtime) : List HBuffer → List Act → H (List HBuffer)
  | bufs, [] => pure bufs
  | bufs, a :: as => do
    let bufs ← a.run rt bufs
    runActs rt bufs as

/-- The operations that a program asks buffer `i` to perform, each with the contents its argument has at the time of the
call when the program's memory is changed by nothing but its own writes. -/
def asked (i : Nat) : List Act → Heap → List LogOp
  | [], _ => []
  | .call j c :: as, h => if j = i then c.op h :: asked i as h else asked i as h
  | .poke w k v :: as, h => asked i as (h.poke w k v)

/-- The memory after the program's own writes alone. -/
def ownWrites : List Act → Heap → Heap
  | [], h => h
  | .call _ _ :: as, h => ownWrites as h
  | .poke w k v :: as, h => ownWrites as (h.poke w k v)

/-- The step uses an existing buffer, can be written in a program, and the slices it uses satisfy `P`; writes are in range. -/
def Act.Uses (n : Nat) (P : Slice → Prop) : Act → Prop
  | .call i c => i < n ∧ c.Proper ∧ ∀ w, c.arg = some w → P w
  | .poke w k _ => P w ∧ k < w.len

theorem op_congr {c : Call} {h g : Heap} (e : ∀ w, c.arg = some w → w.bytes h = w.bytes g) : c.op h = c.op g := by
  cases c <;> simp [Call.op, Call.arg] at e ⊢ <;> exact e

theorem view_congr {p : HBuffer} {h g : Heap} (e : h.mem p.b.arr = g.mem p.b.arr) : p.view h = p.view g := by
  simp only [HBuffer.view, Slice.full, e]

theorem call_spec (rt : Runtime) {p : HBuffer} {h : Heap} (o : p.b.Ok h) (u : (p.view h).Usable) (c : Call) (hc : c.Proper)
    (ha : ∀ w, c.arg = some w → w.Ok h ∧ Apart w p.b p.offset.toNat)
    (hadm : ∀ k, c = .rewind k → k ≤ (p.view h).written.length) :
    ∃ q h', c.run rt p h = .ok (q, h') ∧ q.b.Ok h' ∧ (q.view h').Usable ∧
      (q.view h').written = (c.op h).exact.apply (p.view h).written ∧ Eff h p h' q := by
  have hr := call_refines rt o c hc ha
  obtain ⟨b', hb, hu, hw, _⟩ := runOp_exact rt (p.view h) (c.op h) u
    (by intro k hk; apply hadm; revert hk; cases c <;> simp [Call.op])
  unfold Refines at hr
  rw [hb] at hr
  cases hx : c.run rt p h with
  | panic => rw [hx] at hr; exact hr.elim
  | ok r =>
    obtain ⟨q, h'⟩ := r
    rw [hx] at hr
    obtain ⟨e1, e2, e3⟩ := hr
    simp only at e1
    exact ⟨q, h', rfl, e2, by rw [e1]; exact hu, by rw [e1]; exact hw, e3⟩

theorem Eff.next {h h' : Heap} {p q : HBuffer} (e : Eff h p h' q) : h.next ≤ h'.next := by
  rcases e with ⟨_, e⟩ | ⟨_, _, e, _⟩
  · rw [e.next]; exact Nat.le_refl _
  · exact e

theorem Eff.mem {h h' : Heap} {p q : HBuffer} (e : Eff h p h' q) {a : Nat} (ha : a < h.next) (hne : a ≠ p.b.arr) : h'.mem a = h.mem a := by
  rcases e with ⟨_, e⟩ | ⟨_, _, _, e⟩
  · exact List.ext_getElem? fun i => e.cells a i (.inl hne)
  · exact e a ha

theorem Eff.arr {h h' : Heap} {p q : HBuffer} (e : Eff h p h' q) {a : Nat} (ha : a < h.next) (hne : a ≠ p.b.arr) : a ≠ q.b.arr := by
  rcases e with ⟨e, _⟩ | ⟨e, _⟩
  · rw [e]; exact hne
  · omega

theorem ok_of_mem {w : Slice} {h h' : Heap} (o : w.Ok h) (n : h.next ≤ h'.next) (l : (h'.mem w.arr).length = (h.mem w.arr).length) : w.Ok h' :=
  ⟨o.len, Nat.lt_of_lt_of_le o.arr n, by rw [l]; exact o.fits⟩

/-- Every buffer is in order and no two share an array. -/
structure Sound (bufs : List HBuffer) (h : Heap) : Prop where
  each : ∀ (i : Nat) p, bufs[i]? = some p → p.b.Ok h ∧ (p.view h).Usable
  apart : ∀ (i j : Nat) p q, i ≠ j → bufs[i]? = some p → bufs[j]? = some q → p.b.arr ≠ q.b.arr

theorem runActs_spec (rt : Runtime) : ∀ (as : List Act) (bufs : List HBuffer) (h g : Heap) (P : Slice → Prop), Sound bufs h →
    (∀ w, P w → w.Ok h ∧ (∀ (i : Nat) p, bufs[i]? = some p → w.arr ≠ p.b.arr) ∧ h.mem w.arr = g.mem w.arr) →
    (∀ a ∈ as, a.Uses bufs.length P) →
    (∀ (i : Nat) p, bufs[i]? = some p → Admissible (p.view h).written ((asked i as g).map LogOp.exact)) →
    ∃ bufs' h', runActs rt bufs as h = .ok (bufs', h') ∧ bufs'.length = bufs.length ∧ Sound bufs' h' ∧
      (∀ (i : Nat) p q, bufs[i]? = some p → bufs'[i]? = some q → (q.view h').written = logAfter (p.view h).written ((asked i as g).map LogOp.exact)) ∧
      ∀ w, P w → h'.mem w.arr = (ownWrites as g).mem w.arr := by
  intro as
  induction as with
  | nil =>
    intro bufs h g P hs hP _ _
    refine ⟨bufs, h, rfl, rfl, hs, ?_, fun w hw => (hP w hw).2.2⟩
    intro i p q e1 e2
    rw [e1] at e2; cases e2; rfl
  | cons a as ih =>
    intro bufs h g P hs hP hU hA
    cases a with
    | poke w k v =>
      obtain ⟨hw, hk⟩ := hU _ (List.mem_cons_self ..)
      obtain ⟨ow, hne, hm⟩ := hP w hw
      have step : Act.run rt bufs (.poke w k v) h = .ok (bufs, h.poke w k v) := by
        rw [Act.run, bind_ok (a := ()) (h' := h.poke w k v)]
        · rfl
        · simp only [Slice.store]
          rw [if_neg (by omega)]; rfl
      have hmem : ∀ a, ((h.poke w k v).mem a).length = (h.mem a).length := by
        intro a; simp only [Heap.poke, Heap.set]; split
        · rename_i e; rw [List.length_set, e]
        · rfl
      have hview : ∀ (i : Nat) p, bufs[i]? = some p → (h.poke w k v).mem p.b.arr = h.mem p.b.arr := by
        intro i p e
        simp only [Heap.poke, Heap.set]; rw [if_neg]; exact (hne i p e).symm
      have hs' : Sound bufs (h.poke w k v) := ⟨fun i p e => ⟨ok_of_mem (hs.each i p e).1 (Nat.le_refl _) (hmem _), by
        rw [view_congr (hview i p e)]; exact (hs.each i p e).2⟩, hs.apart⟩
      obtain ⟨bufs', h', r1, r2, r3, r4, r5⟩ := ih bufs (h.poke w k v) (g.poke w k v) P hs'
        (by
          intro x hx
          obtain ⟨ox, hnx, hmx⟩ := hP x hx
          refine ⟨ok_of_mem ox (Nat.le_refl _) (hmem _), hnx, ?_⟩
          simp only [Heap.poke, Heap.set, hm, hmx])
        (fun a ha => hU a (List.mem_cons_of_mem _ ha))
        (by
          intro i p e
          rw [view_congr (hview i p e)]
          exact hA i p e)
      refine ⟨bufs', h', ?_, r2, r3, ?_, r5⟩
      · rw [runActs, bind_ok step]; exact r1
      · intro i p q e1 e2
        have := r4 i p q e1 e2
        rw [view_congr (hview i p e1)] at this
        exact this
    | call i c =>
      obtain ⟨hi, hc, harg⟩ := hU _ (List.mem_cons_self ..)
      obtain ⟨p, hp⟩ : ∃ p, bufs[i]? = some p := ⟨bufs[i], List.getElem?_eq_getElem hi⟩
      obtain ⟨op, up⟩ := hs.each i p hp
      have hadm := hA i p hp
      have hop : c.op h = c.op g := op_congr fun w hw => by
        simp only [Slice.bytes, (hP w (harg w hw)).2.2]
      simp only [asked, if_true, List.map_cons] at hadm
      have hadm1 : (∀ k, c = .rewind k → k ≤ (p.view h).written.length) ∧ Admissible ((c.op g).exact.apply (p.view h).written) ((asked i as g).map LogOp.exact) := by
        cases c <;> simp [Admissible, Call.op, LogOp.exact] at hadm ⊢ <;> exact hadm
      obtain ⟨q, h1, hrun, oq, uq, hw, heff⟩ := call_spec rt op up c hc
        (fun w hw => ⟨(hP w (harg w hw)).1, .inr (.inl ((hP w (harg w hw)).2.1 i p hp))⟩) hadm1.1
      rw [hop] at hw
      have step : Act.run rt bufs (.call i c) h = .ok (bufs.set i q, h1) := by
        rw [Act.run, hp]; simp only []; rw [bind_ok hrun]; rfl
      have hget : ∀ (j : Nat) x, (bufs.set i q)[j]? = some x → (j = i ∧ x = q) ∨ (j ≠ i ∧ bufs[j]? = some x) := by
        intro j x e
        rw [List.getElem?_set] at e
        by_cases hj : i = j
        · rw [if_pos hj, if_pos hi] at e; left
          exact ⟨hj.symm, (Option.some.inj e).symm⟩
        · rw [if_neg hj] at e; right; exact ⟨fun e => hj e.symm, e⟩
      have hother : ∀ (j : Nat) x, j ≠ i → bufs[j]? = some x → x.b.arr < h.next ∧ x.b.arr ≠ p.b.arr := fun j x hj e =>
        ⟨(hs.each j x e).1.arr, hs.apart j i x p hj e hp⟩
      have hs' : Sound (bufs.set i q) h1 := by
        constructor
        · intro j x e
          rcases hget j x e with ⟨_, rfl⟩ | ⟨hj, e⟩
          · exact ⟨oq, uq⟩
          · obtain ⟨a1, a2⟩ := hother j x hj e
            obtain ⟨b1, b2⟩ := hs.each j x e
            have hmm := heff.mem a1 a2
            exact ⟨ok_of_mem b1 heff.next (by rw [hmm]), by rw [view_congr hmm]; exact b2⟩
        · intro j k x y hjk e1 e2
          rcases hget j x e1 with ⟨hj, rfl⟩ | ⟨hj, f1⟩ <;> rcases hget k y e2 with ⟨hk, rfl⟩ | ⟨hk, f2⟩
          · omega
          · obtain ⟨a1, a2⟩ := hother k y hk f2
            exact (heff.arr a1 a2).symm
          · obtain ⟨a1, a2⟩ := hother j x hj f1
            exact heff.arr a1 a2
          · exact hs.apart j k x y hjk f1 f2
      obtain ⟨bufs', h', r1, r2, r3, r4, r5⟩ := ih (bufs.set i q) h1 g P hs'
        (by
          intro w hw
          obtain ⟨a1, a2, a3⟩ := hP w hw
          have hmm := heff.mem a1.arr (a2 i p hp)
          refine ⟨ok_of_mem a1 heff.next (by rw [hmm]), ?_, by rw [hmm, a3]⟩
          intro j x e
          rcases hget j x e with ⟨_, rfl⟩ | ⟨hj, e⟩
          · exact heff.arr a1.arr (a2 i p hp)
          · exact a2 j x e)
        (fun a ha => by rw [List.length_set]; exact hU a (List.mem_cons_of_mem _ ha))
        (by
          intro j x e
          rcases hget j x e with ⟨rfl, rfl⟩ | ⟨hj, e⟩
          · rw [hw]; exact hadm1.2
          · obtain ⟨a1, a2⟩ := hother j x hj e
            have := hA j x e
            simp only [asked] at this
            rw [if_neg (fun e => hj e.symm)] at this
            rw [view_congr (heff.mem a1 a2)]; exact this)
      refine ⟨bufs', h', ?_, by rw [r2, List.length_set], r3, ?_, r5⟩
      · rw [runActs, bind_ok step]; exact r1
      · intro j x y e1 e2
        by_cases hj : j = i
        · subst hj
          rw [hp] at e1; cases e1
          have := r4 j q y (by rw [List.getElem?_set, if_pos rfl, if_pos hi]) e2
          simp only [asked, if_true, List.map_cons]
          rw [this, hw]; rfl
        · obtain ⟨a1, a2⟩ := hother j x hj e1
          have := r4 j x y (by rw [List.getElem?_set, if_neg (fun e => hj e.symm)]; exact e1) e2
          rw [view_congr (heff.mem a1 a2)] at this
          simp only [asked]
          rw [if_neg (fun e => hj e.symm)]; exact this

end GoV2.Heap
