import Verif.GoV2.HeapHistory
import Verif.GoV2.Api

/-! # Calls on one buffer, and the decoder, over memory -/

namespace GoV2.Heap

open Spec

/-- A sequence of calls on one buffer. -/
def runCalls (rt : Runtime) : HBuffer → List Call → H HBuffer
  | p, [] => pure p
  | p, c :: cs => do
    let p ← c.run rt p
    runCalls rt p cs

/-- The call neither resets nor rewinds the buffer. -/
def Call.Forward : Call → Prop
  | .reset => False
  | .rewind _ => False
  | _ => True

theorem forward_apply {c : Call} (hf : c.Forward) (h : Heap) (log : Bytes) : ∃ new, (c.op h).exact.apply log = log ++ new := by
  cases c with
  | encode i => exact ⟨_, rfl⟩
  | bytes w => exact ⟨_, rfl⟩
  | write w => exact ⟨_, rfl⟩
  | grow n => exact ⟨[], by simp [Call.op, LogOp.apply, LogOp.exact]⟩
  | reset => exact hf.elim
  | rewind k => exact hf.elim

theorem Apart.mono {w s : Slice} {lo lo' : Nat} (h : lo ≤ lo') (a : Apart w s lo) : Apart w s lo' := by
  rcases a with a | a | a | a | a
  · exact .inl a
  · exact .inr (.inl a)
  · exact .inr (.inr (.inl (by omega)))
  · exact .inr (.inr (.inr (.inl a)))
  · exact .inr (.inr (.inr (.inr (by omega))))

theorem eff_keeps {h h' : Heap} {p q : HBuffer} {w : Slice} (e : Eff h p h' q) (ow : w.Ok h) (a : Apart w p.b p.offset.toNat) :
    w.Ok h' ∧ w.bytes h' = w.bytes h := by
  rcases e with ⟨_, e⟩ | ⟨_, _, e1, e2⟩
  · exact ⟨e.ok ow, e.bytes a⟩
  · exact ⟨ok_of_mem ow e1 (by rw [e2 _ ow.arr]), bytes_congr fun i _ => by rw [e2 _ ow.arr]⟩

theorem eff_apart {h h' : Heap} {p q : HBuffer} {w : Slice} (e : Eff h p h' q) (ow : w.Ok h) (a : Apart w p.b p.offset.toNat)
    (ho : p.offset.toNat ≤ q.offset.toNat) : Apart w q.b q.offset.toNat := by
  rcases e with ⟨e, _⟩ | ⟨e, _⟩
  · rw [e]; exact a.mono ho
  · exact .inr (.inl (by have := ow.arr; omega))

/-- Calls that never go back: arguments may lie anywhere except in the free part of the buffer, also in the part already
written. -/
theorem runCalls_forward (rt : Runtime) : ∀ (cs : List Call) (p : HBuffer) (h : Heap), p.b.Ok h → (p.view h).Usable →
    (∀ c ∈ cs, c.Proper ∧ c.Forward ∧ (∀ w, c.arg = some w → w.Ok h ∧ Apart w p.b p.offset.toNat)) →
    ∃ q h', runCalls rt p cs h = .ok (q, h') ∧ q.b.Ok h' ∧ (q.view h').Usable ∧
      (q.view h').written = logAfter (p.view h).written ((cs.map (Call.op h)).map LogOp.exact) ∧
      ∀ w, w.Ok h → Apart w p.b p.offset.toNat → w.Ok h' ∧ w.bytes h' = w.bytes h := by
  intro cs
  induction cs with
  | nil => intro p h o u _; exact ⟨p, h, rfl, o, u, rfl, fun w ow _ => ⟨ow, rfl⟩⟩
  | cons c cs ih =>
    intro p h o u hcs
    obtain ⟨h1, h2, h3⟩ := hcs c (List.mem_cons_self ..)
    obtain ⟨q, h', hrun, oq, uq, hw, he⟩ := call_spec rt o u c h1 h3 (by rintro k rfl; exact h2.elim)
    have hoff : p.offset.toNat ≤ q.offset.toNat := by
      obtain ⟨new, hn⟩ := forward_apply h2 h (p.view h).written
      have e1 := written_length u
      have e2 := written_length uq
      rw [hw, hn, List.length_append] at e2
      have e3 : (p.view h).offset = p.offset := rfl
      have e4 : (q.view h').offset = q.offset := rfl
      rw [e3] at e1; rw [e4] at e2; omega
    have hop : ∀ d ∈ cs, d.op h' = d.op h := by
      intro d hd
      obtain ⟨_, _, d3⟩ := hcs d (List.mem_cons_of_mem _ hd)
      exact op_congr fun w hw => (eff_keeps he (d3 w hw).1 (d3 w hw).2).2
    obtain ⟨q2, h2', r1, r2, r3, r4, r5⟩ := ih q h' oq uq (by
      intro d hd
      obtain ⟨d1, d2, d3⟩ := hcs d (List.mem_cons_of_mem _ hd)
      exact ⟨d1, d2, fun w hw => ⟨(eff_keeps he (d3 w hw).1 (d3 w hw).2).1, eff_apart he (d3 w hw).1 (d3 w hw).2 hoff⟩⟩)
    refine ⟨q2, h2', ?_, r2, r3, ?_, ?_⟩
    · rw [runCalls, bind_ok hrun]; exact r1
    · rw [r4, hw, List.map_cons, List.map_cons, List.map_congr_left hop]; rfl
    · intro w ow ap
      obtain ⟨k1, k2⟩ := eff_keeps he ow ap
      obtain ⟨k3, k4⟩ := r5 w k1 (eff_apart he ow ap hoff)
      exact ⟨k3, k4.trans k2⟩

/-- Any calls with arguments that are not in the buffer's array: the buffer stays where it is, and only its own cells have
changed, or it has moved to a new array and its capacity has grown. -/
theorem runCalls_any (rt : Runtime) : ∀ (cs : List Call) (p : HBuffer) (h : Heap), p.b.Ok h → (p.view h).Usable →
    Admissible (p.view h).written ((cs.map (Call.op h)).map LogOp.exact) →
    (∀ c ∈ cs, c.Proper ∧ (∀ w, c.arg = some w → w.Ok h ∧ w.arr ≠ p.b.arr)) →
    ∃ q h', runCalls rt p cs h = .ok (q, h') ∧ q.b.Ok h' ∧ (q.view h').Usable ∧
      (q.view h').written = logAfter (p.view h).written ((cs.map (Call.op h)).map LogOp.exact) ∧
      h.next ≤ h'.next ∧ (∀ a, a < h.next → a ≠ p.b.arr → h'.mem a = h.mem a) ∧ (h'.mem p.b.arr).length = (h.mem p.b.arr).length ∧
      (q.b = p.b ∨ (h.next ≤ q.b.arr ∧ p.b.cap < q.b.cap)) := by
  intro cs
  induction cs with
  | nil => intro p h o u _ _; exact ⟨p, h, rfl, o, u, rfl, Nat.le_refl _, fun _ _ _ => rfl, rfl, .inl rfl⟩
  | cons c cs ih =>
    intro p h o u hadm hcs
    obtain ⟨h1, h3⟩ := hcs c (List.mem_cons_self ..)
    have hadm1 : (∀ k, c = .rewind k → k ≤ (p.view h).written.length) ∧ Admissible ((c.op h).exact.apply (p.view h).written) ((cs.map (Call.op h)).map LogOp.exact) := by
      simp only [List.map_cons] at hadm
      cases c <;> simp [Admissible, Call.op, LogOp.exact] at hadm ⊢ <;> exact hadm
    obtain ⟨q, h', hrun, oq, uq, hw, he⟩ := call_spec rt o u c h1 (fun w hw => ⟨(h3 w hw).1, .inr (.inl (h3 w hw).2)⟩) hadm1.1
    have hmem : ∀ a, a < h.next → a ≠ p.b.arr → h'.mem a = h.mem a := fun a ha hne => he.mem ha hne
    have hop : ∀ d ∈ cs, d.op h' = d.op h := by
      intro d hd
      obtain ⟨_, d3⟩ := hcs d (List.mem_cons_of_mem _ hd)
      exact op_congr fun w hw => by simp only [Slice.bytes, hmem _ (d3 w hw).1.arr (d3 w hw).2]
    obtain ⟨q2, h2', r1, r2, r3, r4, r5, r6, r7, r8⟩ := ih q h' oq uq (by rw [List.map_congr_left hop, hw]; exact hadm1.2) (by
      intro d hd
      obtain ⟨d1, d3⟩ := hcs d (List.mem_cons_of_mem _ hd)
      exact ⟨d1, fun w hw => ⟨ok_of_mem (d3 w hw).1 he.next (by rw [hmem _ (d3 w hw).1.arr (d3 w hw).2]), he.arr (d3 w hw).1.arr (d3 w hw).2⟩⟩)
    refine ⟨q2, h2', ?_, r2, r3, ?_, Nat.le_trans he.next r5, ?_, ?_, ?_⟩
    · rw [runCalls, bind_ok hrun]; exact r1
    · rw [r4, hw, List.map_cons, List.map_cons, List.map_congr_left hop]; rfl
    · intro a ha hne
      rw [r6 a (Nat.lt_of_lt_of_le ha he.next) (he.arr ha hne), hmem a ha hne]
    · rcases he with ⟨e1, e2⟩ | ⟨e1, _, e3, e4⟩
      · rw [← e1, r7, e2.length]
      · have := o.arr
        rw [r6 _ (by omega) (by omega), e4 _ this]
    · rcases he with ⟨e1, e2⟩ | ⟨e1, e2, e3, _⟩
      · rw [e1, e2.next] at r8; exact r8
      · right
        rcases r8 with r8 | ⟨r8, r9⟩
        · rw [r8]; exact ⟨e1, e2⟩
        · omega

/-! ## The decoder -/

/-- A decoder method call; the scratch slice of `Bytes` is a reference. -/
inductive HReq where
  /-- a method other than `Bytes` -/
  | plain (q : Req)
  /-- `Bytes(ret)` -/
  | bytes (ret : Slice)
deriving Repr

/-- A call that can be written in a program. -/
def HReq.Proper : HReq → Prop
  | .plain (.bytes _) => False
  | _ => True

/-- The same call for the transcription by contents (the contents of the scratch slice do not matter there). -/
def HReq.req : HReq → Req
  | .plain q => q
  | .bytes _ => .bytes []

def HReq.scratch : HReq → Option Slice
  | .plain _ => none
  | .bytes ret => some ret

/-- What a call reports; the value of `Bytes` is a reference. -/
inductive HOutcome where
  | plain (o : Outcome)
  | bytes (v : Slice)
deriving Repr

/-- The outcome as it looks at this moment. -/
def HOutcome.now (h : Heap) : HOutcome → Outcome
  | .plain o => o
  | .bytes v => .value (.bytes (v.bytes h))

/-- v2/decoder.go 26-99 over memory. -/
def hreadItem (rt : Runtime) (q : HReq) (b : Slice) : H (Slice × HOutcome) :=
  match q with
  | .bytes ret => do
    let (r, v, e) ← decodeBytes rt b ret
    return (r, match e with
      | none => .bytes v
      | some e => .plain (.error e))
  | .plain .nil => do
    let (r, v) ← decodeNil b
    return (r, .plain (if v then .value .nil else .notNil))
  | .plain (.map k v) => do
    let (r, size, e) ← decodeMap b k v
    return (r, .plain (.ofErr e (.map size k v)))
  | .plain (.slice k) => do
    let (r, size, e) ← decodeSlice b k
    return (r, .plain (.ofErr e (.slice size k)))
  | .plain (.bytes _) => H.panic -- not a call: see `HReq.bytes`
  | .plain .string => do
    let (r, v, e) ← decodeString b
    return (r, .plain (.ofErr e (.string v)))
  | .plain .error => do
    let (r, v, e) ← decodeError b
    return (r, .plain (.ofErr e (.error (v.getD []))))
  | .plain .bool => do
    let (r, v, e) ← decodeBool b
    return (r, .plain (.ofErr e (.bool v)))
  | .plain .uint8 => do
    let (r, v, e) ← decodeUint8 b
    return (r, .plain (.ofErr e (.uint8 v)))
  | .plain .uint16 => do
    let (r, v, e) ← decodeUint16 b
    return (r, .plain (.ofErr e (.uint16 v)))
  | .plain .uint32 => do
    let (r, v, e) ← decodeUint32 b
    return (r, .plain (.ofErr e (.uint32 v)))
  | .plain .uint64 => do
    let (r, v, e) ← decodeUint64 b
    return (r, .plain (.ofErr e (.uint64 v)))
  | .plain .int32 => do
    let (r, v, e) ← decodeInt32 b
    return (r, .plain (.ofErr e (.int32 v)))
  | .plain .int64 => do
    let (r, v, e) ← decodeInt64 b
    return (r, .plain (.ofErr e (.int64 v)))
  | .plain .float32 => do
    let (r, v, e) ← decodeFloat32 b
    return (r, .plain (.ofErr e (.float32 v)))
  | .plain .float64 => do
    let (r, v, e) ← decodeFloat64 b
    return (r, .plain (.ofErr e (.float64 v)))

/-- A sequence of decoder method calls. -/
def hreadAll (rt : Runtime) : List HReq → Slice → H (Slice × List HOutcome)
  | [], b => pure (b, [])
  | q :: qs, b => do
    let (b, o) ← hreadItem rt q b
    let (b, os) ← hreadAll rt qs b
    return (b, o :: os)

/-- The cell `i` of array `a` is an element of the slice. -/
def Slice.Elem (s : Slice) (a i : Nat) : Prop := a = s.arr ∧ s.off ≤ i ∧ i < s.off + s.len

/-- The cell `i` of array `a` is within the capacity of the slice. -/
def Slice.Reach (s : Slice) (a i : Nat) : Prop := a = s.arr ∧ s.off ≤ i ∧ i < s.off + s.cap

theorem plain_sim (rt : Runtime) {b : Slice} {h : Heap} (o : b.Ok h) (q : Req) (hq : (HReq.plain q).Proper) :
    SimR h (fun x y => Rest b x.1 ∧ x.1.Ok h ∧ x.1.bytes h = y.1 ∧ x.2 = .plain y.2) (hreadItem rt (.plain q) b) (readItem q (b.bytes h)) := by
  have fin : ∀ (r : Slice) (v : Outcome), Rest b r → r.Ok h →
      SimR h (fun x y => Rest b x.1 ∧ x.1.Ok h ∧ x.1.bytes h = y.1 ∧ x.2 = .plain y.2) (pure (r, HOutcome.plain v)) (pure (r.bytes h, v)) :=
    fun r v a b => ⟨rfl, a, b, rfl, rfl⟩
  cases q with
  | nil => exact SimR.call (Rest.refl b) (decodeNil_sim o) fun r v hr hor => fin _ _ hr hor
  | map k v => exact SimR.call (Rest.refl b) (decodeMap_sim o k v) fun r v hr hor => fin _ _ hr hor
  | slice k => exact SimR.call (Rest.refl b) (decodeSlice_sim o k) fun r v hr hor => fin _ _ hr hor
  | bytes ret => exact hq.elim
  | string => exact SimR.call (Rest.refl b) (decodeString_sim o) fun r v hr hor => fin _ _ hr hor
  | error => exact SimR.call (Rest.refl b) (decodeError_sim o) fun r v hr hor => fin _ _ hr hor
  | bool => exact SimR.call (Rest.refl b) (decodeBool_sim o) fun r v hr hor => fin _ _ hr hor
  | uint8 => exact SimR.call (Rest.refl b) (decodeUint8_sim o) fun r v hr hor => fin _ _ hr hor
  | uint16 => exact SimR.call (Rest.refl b) (decodeUint16_sim o) fun r v hr hor => fin _ _ hr hor
  | uint32 => exact SimR.call (Rest.refl b) (decodeUint32_sim o) fun r v hr hor => fin _ _ hr hor
  | uint64 => exact SimR.call (Rest.refl b) (decodeUint64_sim o) fun r v hr hor => fin _ _ hr hor
  | int32 => exact SimR.call (Rest.refl b) (decodeInt32_sim o) fun r v hr hor => fin _ _ hr hor
  | int64 => exact SimR.call (Rest.refl b) (decodeInt64_sim o) fun r v hr hor => fin _ _ hr hor
  | float32 => exact SimR.call (Rest.refl b) (decodeFloat32_sim o) fun r v hr hor => fin _ _ hr hor
  | float64 => exact SimR.call (Rest.refl b) (decodeFloat64_sim o) fun r v hr hor => fin _ _ hr hor

/-- What one decoder call does to memory: it writes at most within the capacity of its scratch slice and into new arrays; a
slice it returns lies there. -/
structure ReadEff (h : Heap) (b : Slice) (ret : Option Slice) (x : Slice × HOutcome) (h' : Heap) (y : Bytes × Outcome) : Prop where
  rest : Rest b x.1
  ok : x.1.Ok h
  unread : x.1.bytes h = y.1
  outcome : x.2.now h' = y.2
  next : h.next ≤ h'.next
  length : ∀ a < h.next, (h'.mem a).length = (h.mem a).length
  cells : ∀ a < h.next, ∀ i, (∀ s, ret = some s → ¬ s.Reach a i) → (h'.mem a)[i]? = (h.mem a)[i]?
  value : ∀ v, x.2 = .bytes v → v.Ok h' ∧ (h.next ≤ v.arr ∨ ∃ s, ret = some s ∧ ∀ a i, v.Elem a i → s.Reach a i)

theorem read_sim (rt : Runtime) {b : Slice} {h : Heap} (o : b.Ok h) (q : HReq) (hq : q.Proper) (hs : ∀ s, q.scratch = some s → s.Ok h) :
    SimG h (ReadEff h b q.scratch) (hreadItem rt q b) (readItem q.req (b.bytes h)) := by
  cases q with
  | plain q =>
    have := plain_sim rt o q hq
    unfold SimR at this
    unfold SimG
    simp only [HReq.req, HReq.scratch]
    revert this
    cases hreadItem rt (.plain q) b h with
    | panic => cases readItem q (b.bytes h) <;> exact id
    | ok r =>
      cases readItem q (b.bytes h) with
      | panic => exact id
      | ok y =>
        rintro ⟨e0, e1, e2, e3, e4⟩
        obtain ⟨x, h'⟩ := r
        simp only at e0 e1 e2 e3 e4
        subst e0
        exact ⟨e1, e2, e3, by rw [e4]; rfl, Nat.le_refl _, fun _ _ => rfl, fun _ _ _ _ => rfl, by intro v hv; rw [e4] at hv; cases hv⟩
  | bytes ret =>
    have os := hs ret rfl
    have := decodeBytes_sim (ret := ret) rt o os
    unfold SimG at this ⊢
    simp only [hreadItem, readItem, HReq.req, HReq.scratch]
    cases hx : decodeBytes rt b ret h with
    | panic =>
      rw [hx] at this
      rw [bind_panic hx]
      revert this
      cases GoV2.decodeBytes (b.bytes h) [] with
      | panic => exact id
      | ok y => exact id
    | ok r =>
      obtain ⟨⟨r, v, e⟩, h'⟩ := r
      rw [hx] at this
      rw [bind_ok hx]
      revert this
      cases GoV2.decodeBytes (b.bytes h) [] with
      | panic => exact id
      | ok y =>
        obtain ⟨y1, y2, y3⟩ := y
        rintro ⟨e1, e2, e3, e4, e5, e6⟩
        simp only at e1 e2 e3 e4 e5 e6
        subst e4
        rcases e6 with ⟨g1, g2, rfl⟩ | ⟨g1, g2, g3, g4, g5⟩ | ⟨g1, g2, g3, g4, g5, g6, _, _⟩
        · cases e with
          | none => exact absurd rfl g1
          | some e => exact ⟨e1, e2, e3, rfl, Nat.le_refl _, fun _ _ => rfl, fun _ _ _ _ => rfl, by intro v hv; cases hv⟩
        · subst g1
          refine ⟨e1, e2, e3, by simp only [HOutcome.now, e5]; rfl, by rw [g5.next]; exact Nat.le_refl _, fun a _ => g5.length a, ?_, ?_⟩
          · intro a _ i hn
            apply g5.cells
            simp only [Nat.add_zero]
            by_cases ha : a = ret.arr
            · right
              have := hn ret rfl
              simp only [Slice.Reach, ha, true_and] at this
              omega
            · exact .inl ha
          · rintro _ ⟨rfl⟩
            refine ⟨g2, .inr ⟨ret, rfl, ?_⟩⟩
            rw [g4]
            rintro a i ⟨k1, k2, k3⟩
            exact ⟨k1, k2, by simp only at k2 k3; omega⟩
        · subst g1
          refine ⟨e1, e2, e3, by simp only [HOutcome.now, e5]; rfl, by omega, fun a ha => by rw [g6 a ha], fun a ha i _ => by rw [g6 a ha], ?_⟩
          rintro _ ⟨rfl⟩
          exact ⟨g2, .inl (Nat.le_of_eq (Eq.symm g4))⟩

theorem Rest.elem {b r : Slice} (h : Rest b r) {a i : Nat} (e : r.Elem a i) : b.Elem a i := by
  obtain ⟨e1, e2, e3⟩ := e
  have := h.len; have := h.off
  exact ⟨e1.trans h.arr, by omega, by omega⟩

/-- Memory that a sequence of decoder calls may write: the capacity of the scratch slices. -/
def scratches (qs : List HReq) : List Slice := qs.filterMap HReq.scratch

/-- A sequence of decoder calls whose scratch slices are disjoint from the input and from each other: in the end the
outcomes are those of the transcription by contents, and all other memory is as it was. -/
theorem hreadAll_spec (rt : Runtime) : ∀ (qs : List HReq) (b : Slice) (h : Heap), b.Ok h → (∀ q ∈ qs, q.Proper) →
    (∀ s ∈ scratches qs, s.Ok h ∧ ∀ a i, s.Reach a i → ¬ b.Elem a i) →
    (scratches qs).Pairwise (fun s t => ∀ a i, s.Reach a i → ¬ t.Reach a i) →
    match hreadAll rt qs b h, readAll (qs.map HReq.req) (b.bytes h) with
    | .ok ((r, os), h'), .ok (bs, os') => os.map (HOutcome.now h') = os' ∧ Rest b r ∧ r.bytes h' = bs ∧ h.next ≤ h'.next ∧
        ∀ w : Slice, w.Ok h → (∀ s ∈ scratches qs, ∀ a i, s.Reach a i → ¬ w.Elem a i) → w.bytes h' = w.bytes h
    | .panic, .panic => True
    | _, _ => False := by
  intro qs
  induction qs with
  | nil => intro b h o _ _ _; exact ⟨rfl, Rest.refl b, rfl, Nat.le_refl _, fun _ _ _ => rfl⟩
  | cons q qs ih =>
    intro b h o hq hs hp
    have h0 := read_sim rt o q (hq q (List.mem_cons_self ..)) (by
      intro s e
      refine (hs s ?_).1
      simp only [scratches, List.filterMap_cons, e]; exact List.mem_cons_self ..)
    unfold SimG at h0
    simp only [hreadAll, List.map_cons, readAll]
    cases hx : hreadItem rt q b h with
    | panic =>
      rw [hx] at h0
      rw [bind_panic hx]
      revert h0
      cases readItem q.req (b.bytes h) with
      | panic => exact id
      | ok y => exact fun x => x.elim
    | ok x =>
      obtain ⟨⟨r, oc⟩, h1⟩ := x
      rw [hx] at h0
      rw [bind_ok hx]
      cases hy : readItem q.req (b.bytes h) with
      | panic => rw [hy] at h0; exact h0.elim
      | ok y =>
        rw [hy] at h0
        obtain ⟨y1, y2⟩ := y
        rw [Go.bind_ok]
        simp only at h0 ⊢
        have hsub : ∀ s ∈ scratches qs, s ∈ scratches (q :: qs) := by
          intro s hs
          simp only [scratches, List.filterMap_cons]
          cases q.scratch with
          | none => exact hs
          | some t => exact List.mem_cons_of_mem _ hs
        have hmine : ∀ s, q.scratch = some s → s ∈ scratches (q :: qs) := by
          intro s e
          simp only [scratches, List.filterMap_cons, e]; exact List.mem_cons_self ..
        -- frame of this step
        have frame : ∀ w : Slice, w.Ok h → (∀ s, q.scratch = some s → ∀ a i, s.Reach a i → ¬ w.Elem a i) → w.bytes h1 = w.bytes h := by
          intro w ow hw
          apply bytes_congr
          intro i hi
          apply h0.cells _ ow.arr
          intro s e hr
          exact hw s e _ _ hr ⟨rfl, by omega, by omega⟩
        have hb1 : r.bytes h1 = y1 := by
          rw [frame r h0.ok, h0.unread]
          intro s e a i hr he
          exact (hs s (hmine s e)).2 a i hr (h0.rest.elem he)
        have hok : ∀ w : Slice, w.Ok h → w.Ok h1 := fun w ow => ok_of_mem ow h0.next (h0.length _ ow.arr)
        have hp' : (scratches qs).Pairwise (fun s t => ∀ a i, s.Reach a i → ¬ t.Reach a i) := by
          simp only [scratches, List.filterMap_cons] at hp
          revert hp
          cases q.scratch with
          | none => exact id
          | some t => exact fun hp => (List.pairwise_cons.mp hp).2
        have hmut : ∀ s, q.scratch = some s → ∀ t ∈ scratches qs, ∀ a i, s.Reach a i → ¬ t.Reach a i := by
          intro s e t ht
          simp only [scratches, List.filterMap_cons, e] at hp
          exact (List.pairwise_cons.mp hp).1 t ht
        have hi := ih r h1 (hok r h0.ok) (fun q hq' => hq q (List.mem_cons_of_mem _ hq')) (by
          intro s hs'
          refine ⟨hok s (hs s (hsub s hs')).1, ?_⟩
          intro a i hr he
          exact (hs s (hsub s hs')).2 a i hr (h0.rest.elem he)) hp'
        rw [hb1] at hi
        cases hx2 : hreadAll rt qs r h1 with
        | panic =>
          rw [hx2] at hi
          rw [bind_panic hx2]
          revert hi
          cases readAll (qs.map HReq.req) y1 with
          | panic => exact id
          | ok y => exact fun x => x.elim
        | ok x2 =>
          obtain ⟨⟨r2, os⟩, h2⟩ := x2
          rw [hx2] at hi
          rw [bind_ok hx2]
          cases hy2 : readAll (qs.map HReq.req) y1 with
          | panic => rw [hy2] at hi; exact hi.elim
          | ok y2' =>
            rw [hy2] at hi
            obtain ⟨bs, os'⟩ := y2'
            obtain ⟨i1, i2, i3, i4, i5⟩ := hi
            refine ⟨?_, h0.rest.trans i2, i3, Nat.le_trans h0.next i4, ?_⟩
            · simp only [List.map_cons]
              rw [i1]
              congr 1
              have hoc := h0.outcome
              simp only at hoc
              rw [← hoc]
              cases oc with
              | plain o => rfl
              | bytes v =>
                obtain ⟨v1, v2⟩ := h0.value v rfl
                simp only [HOutcome.now]
                rw [i5 v v1]
                intro s hs' a i hr he
                rcases v2 with v2 | ⟨t, ht, v2⟩
                · have := (hs s (hsub s hs')).1.arr
                  have e1 := hr.1; have e2 := he.1
                  omega
                · exact hmut t ht s hs' a i (v2 a i he) hr
            · intro w ow hw
              rw [i5 w (hok w ow) (fun s hs' => hw s (hsub s hs')), frame w ow (fun s e => hw s (hmine s e))]

end GoV2.Heap
