import Verif.GoV1.HeapDecodeFacts

/-! # The v1 decoder over memory -/

namespace GoV1.Heap

open GoV2 (Runtime Err Outcome)
open GoV2.Heap (Heap Slice H SimR SimG Rest bind_ok bind_panic bytes_congr bytes_length ok_of_mem)
open Spec

/-- A decoder method call; the scratch slice of `Bytes` is a reference (or nil). -/
inductive HReq where
  /-- a method other than `Bytes` -/
  | plain (q : Req)
  /-- `Bytes(ret)` -/
  | bytes (ret : Option Slice)
deriving Repr

/-- A call that can be written in a program. -/
def HReq.Proper : HReq → Prop
  | .plain (.bytes _) => False
  | _ => True

/-- The same call for the transcription by contents, with the contents that the scratch slice has in `h`. -/
def HReq.req (h : Heap) : HReq → Req
  | .plain q => q
  | .bytes ret => .bytes (ret.map fun s => s.bytes h)

def HReq.scratch : HReq → Option Slice
  | .plain _ => none
  | .bytes ret => ret

/-- What a call reports; the value of `Bytes` is a reference, or nil. -/
inductive HOutcome where
  | plain (o : Outcome)
  | bytes (v : Option Slice)
deriving Repr

/-- The outcome as it looks at this moment (a nil slice has no elements). -/
def HOutcome.now (h : Heap) : HOutcome → Outcome
  | .plain o => o
  | .bytes none => .value (.bytes [])
  | .bytes (some v) => .value (.bytes (v.bytes h))

/-- decoder.go 53-126 over memory. -/
def hreadItem (rt : Runtime) (q : HReq) (b : Slice) : H (Slice × HOutcome) :=
  match q with
  | .bytes ret => do
    let (r, v, e) ← decodeBytes rt b ret
    return (r, match e with
      | none => .bytes v
      | some e => .plain (.error e))
  | .plain .nil => do
    let (r, v) ← decodeNil b
    return (r, .plain (if v then .value .nil else .notNil))
  | .plain (.map k v) => do
    let (r, size, e) ← decodeMap b k v
    return (r, .plain (.ofErr e (.map size (k.headD 0) (v.headD 0))))
  | .plain (.slice k) => do
    let (r, size, e) ← decodeSlice b k
    return (r, .plain (.ofErr e (.slice size (k.headD 0))))
  | .plain (.bytes _) => H.panic -- not a call: see `HReq.bytes`
  | .plain .string => do
    let (r, v, e) ← decodeString b
    return (r, .plain (.ofErr e (.string v)))
  | .plain .error => do
    let (r, v, e) ← decodeError b
    return (r, .plain (.ofErr e (.error (v.getD []))))
  | .plain .bool => do
    let (r, v, e) ← decodeBool b
    return (r, .plain (.ofErr e (.bool v)))
  | .plain .uint8 => do
    let (r, v, e) ← decodeUint8 b
    return (r, .plain (.ofErr e (.uint8 v)))
  | .plain .uint16 => do
    let (r, v, e) ← decodeUint16 b
    return (r, .plain (.ofErr e (.uint16 v)))
  | .plain .uint32 => do
    let (r, v, e) ← decodeUint32 b
    return (r, .plain (.ofErr e (.uint32 v)))
  | .plain .uint64 => do
    let (r, v, e) ← decodeUint64 b
    return (r, .plain (.ofErr e (.uint64 v)))
  | .plain .int32 => do
    let (r, v, e) ← decodeInt32 b
    return (r, .plain (.ofErr e (.int32 v)))
  | .plain .int64 => do
    let (r, v, e) ← decodeInt64 b
    return (r, .plain (.ofErr e (.int64 v)))
  | .plain .float32 => do
    let (r, v, e) ← decodeFloat32 b
    return (r, .plain (.ofErr e (.float32 v)))
  | .plain .float64 => do
    let (r, v, e) ← decodeFloat64 b
    return (r, .plain (.ofErr e (.float64 v)))

/-- A sequence of decoder method calls. -/
def hreadAll (rt : Runtime) : List HReq → Slice → H (Slice × List HOutcome)
  | [], b => pure (b, [])
  | q :: qs, b => do
    let (b, o) ← hreadItem rt q b
    let (b, os) ← hreadAll rt qs b
    return (b, o :: os)

theorem plain_sim (rt : Runtime) {b : Slice} {h : Heap} (o : b.Ok h) (q : Req) (hq : (HReq.plain q).Proper) :
    SimR h (fun x y => Rest b x.1 ∧ x.1.Ok h ∧ x.1.bytes h = y.1 ∧ x.2 = .plain y.2) (hreadItem rt (.plain q) b) (readItem q (b.bytes h)) := by
  have fin : ∀ (r : Slice) (v : Outcome), Rest b r → r.Ok h →
      SimR h (fun x y => Rest b x.1 ∧ x.1.Ok h ∧ x.1.bytes h = y.1 ∧ x.2 = .plain y.2) (pure (r, HOutcome.plain v)) (pure (r.bytes h, v)) :=
    fun r v a b => ⟨rfl, a, b, rfl, rfl⟩
  cases q with
  | nil => exact SimR.call (Rest.refl b) (decodeNil_sim o) fun r v hr hor => fin _ _ hr hor
  | map k v => exact SimR.call (Rest.refl b) (decodeMap_sim o k v) fun r v hr hor => fin _ _ hr hor
  | slice k => exact SimR.call (Rest.refl b) (decodeSlice_sim o k) fun r v hr hor => fin _ _ hr hor
  | bytes ret => exact hq.elim
  | string => exact SimR.call (Rest.refl b) (decodeString_sim o) fun r v hr hor => fin _ _ hr hor
  | error => exact SimR.call (Rest.refl b) (decodeError_sim o) fun r v hr hor => fin _ _ hr hor
  | bool => exact SimR.call (Rest.refl b) (decodeBool_sim o) fun r v hr hor => fin _ _ hr hor
  | uint8 => exact SimR.call (Rest.refl b) (decodeUint8_sim o) fun r v hr hor => fin _ _ hr hor
  | uint16 => exact SimR.call (Rest.refl b) (decodeUint16_sim o) fun r v hr hor => fin _ _ hr hor
  | uint32 => exact SimR.call (Rest.refl b) (decodeUint32_sim o) fun r v hr hor => fin _ _ hr hor
  | uint64 => exact SimR.call (Rest.refl b) (decodeUint64_sim o) fun r v hr hor => fin _ _ hr hor
  | int32 => exact SimR.call (Rest.refl b) (decodeInt32_sim o) fun r v hr hor => fin _ _ hr hor
  | int64 => exact SimR.call (Rest.refl b) (decodeInt64_sim o) fun r v hr hor => fin _ _ hr hor
  | float32 => exact SimR.call (Rest.refl b) (decodeFloat32_sim o) fun r v hr hor => fin _ _ hr hor
  | float64 => exact SimR.call (Rest.refl b) (decodeFloat64_sim o) fun r v hr hor => fin _ _ hr hor

/-- What one decoder call does to memory: it writes at most within the capacity of its scratch slice and into new arrays; a
slice it returns lies there. -/
structure ReadEff (h : Heap) (b : Slice) (ret : Option Slice) (x : Slice × HOutcome) (h' : Heap) (y : _root_.Bytes × Outcome) : Prop where
  rest : Rest b x.1
  ok : x.1.Ok h
  unread : x.1.bytes h = y.1
  outcome : x.2.now h' = y.2
  next : h.next ≤ h'.next
  length : ∀ a < h.next, (h'.mem a).length = (h.mem a).length
  cells : ∀ a < h.next, ∀ i, (∀ s, ret = some s → ¬ s.Reach a i) → (h'.mem a)[i]? = (h.mem a)[i]?
  value : ∀ v, x.2 = .bytes (some v) → v.Ok h' ∧ ∀ a i, v.Elem a i → h.next ≤ a ∨ ∃ s, ret = some s ∧ s.Reach a i

theorem read_sim (rt : Runtime) {b : Slice} {h : Heap} (o : b.Ok h) (q : HReq) (hq : q.Proper) (hs : ∀ s, q.scratch = some s → s.Ok h) :
    SimG h (ReadEff h b q.scratch) (hreadItem rt q b) (readItem (q.req h) (b.bytes h)) := by
  cases q with
  | plain q =>
    have := plain_sim rt o q hq
    unfold SimR at this
    unfold SimG
    simp only [HReq.req, HReq.scratch]
    revert this
    cases hreadItem rt (.plain q) b h with
    | panic => cases readItem q (b.bytes h) <;> exact id
    | ok r =>
      cases readItem q (b.bytes h) with
      | panic => exact id
      | ok y =>
        rintro ⟨e0, e1, e2, e3, e4⟩
        obtain ⟨x, h'⟩ := r
        simp only at e0 e1 e2 e3 e4
        subst e0
        exact ⟨e1, e2, e3, by rw [e4]; rfl, Nat.le_refl _, fun _ _ => rfl, fun _ _ _ _ => rfl, by intro v hv; rw [e4] at hv; cases hv⟩
  | bytes ret =>
    have := decodeBytes_sim rt o ret hs
    unfold SimG at this ⊢
    simp only [hreadItem, readItem, HReq.req, HReq.scratch]
    cases hx : decodeBytes rt b ret h with
    | panic =>
      rw [hx] at this
      rw [bind_panic hx]
      revert this
      cases GoV1.decodeBytes (b.bytes h) (ret.map fun s => s.bytes h) with
      | panic => exact id
      | ok y => exact id
    | ok r =>
      obtain ⟨⟨r, v, e⟩, h'⟩ := r
      rw [hx] at this
      rw [bind_ok hx]
      revert this
      cases GoV1.decodeBytes (b.bytes h) (ret.map fun s => s.bytes h) with
      | panic => exact id
      | ok y =>
        obtain ⟨y1, y2, y3⟩ := y
        rintro ⟨e1, e2, e3, e4, e5, e6, e7, e8, e9, _, _⟩
        simp only at e1 e2 e3 e4 e5 e6 e7 e8 e9
        subst e4 e5
        refine ⟨e1, e2, e3, ?_, e6, e7, e8, ?_⟩
        · cases e with
          | some e => rfl
          | none => cases v <;> rfl
        · intro w hw
          cases e with
          | some e => cases hw
          | none =>
            injection hw with hw
            exact e9 w hw

/-- Memory that a sequence of decoder calls may write: the capacity of the scratch slices. -/
def scratches (qs : List HReq) : List Slice := qs.filterMap HReq.scratch

/-- A sequence of decoder calls whose scratch slices are disjoint from the input and from each other: in the end the
outcomes are those of the transcription by contents, and all other memory is as it was. -/
theorem hreadAll_spec (rt : Runtime) : ∀ (qs : List HReq) (b : Slice) (h : Heap), b.Ok h → (∀ q ∈ qs, q.Proper) →
    (∀ s ∈ scratches qs, s.Ok h ∧ ∀ a i, s.Reach a i → ¬ b.Elem a i) →
    (scratches qs).Pairwise (fun s t => ∀ a i, s.Reach a i → ¬ t.Reach a i) →
    match hreadAll rt qs b h, readAll (qs.map (HReq.req h)) (b.bytes h) with
    | .ok ((r, os), h'), .ok (bs, os') => os.map (HOutcome.now h') = os' ∧ Rest b r ∧ r.bytes h' = bs ∧ h.next ≤ h'.next ∧
        ∀ w : Slice, w.Ok h → (∀ s ∈ scratches qs, ∀ a i, s.Reach a i → ¬ w.Elem a i) → w.bytes h' = w.bytes h
    | .panic, .panic => True
    | _, _ => False := by
  intro qs
  induction qs with
  | nil => intro b h o _ _ _; exact ⟨rfl, Rest.refl b, rfl, Nat.le_refl _, fun _ _ _ => rfl⟩
  | cons q qs ih =>
    intro b h o hq hs hp
    have h0 := read_sim rt o q (hq q (List.mem_cons_self ..)) (by
      intro s e
      refine (hs s ?_).1
      simp only [scratches, List.filterMap_cons, e]; exact List.mem_cons_self ..)
    unfold SimG at h0
    simp only [hreadAll, List.map_cons, readAll]
    cases hx : hreadItem rt q b h with
    | panic =>
      rw [hx] at h0
      rw [bind_panic hx]
      revert h0
      cases readItem (q.req h) (b.bytes h) with
      | panic => exact id
      | ok y => exact fun x => x.elim
    | ok x =>
      obtain ⟨⟨r, oc⟩, h1⟩ := x
      rw [hx] at h0
      rw [bind_ok hx]
      cases hy : readItem (q.req h) (b.bytes h) with
      | panic => rw [hy] at h0; exact h0.elim
      | ok y =>
        rw [hy] at h0
        obtain ⟨y1, y2⟩ := y
        rw [Go.bind_ok]
        simp only at h0 ⊢
        have hsub : ∀ s ∈ scratches qs, s ∈ scratches (q :: qs) := by
          intro s hs
          simp only [scratches, List.filterMap_cons]
          cases q.scratch with
          | none => exact hs
          | some t => exact List.mem_cons_of_mem _ hs
        have hmine : ∀ s, q.scratch = some s → s ∈ scratches (q :: qs) := by
          intro s e
          simp only [scratches, List.filterMap_cons, e]; exact List.mem_cons_self ..
        -- frame of this step
        have frame : ∀ w : Slice, w.Ok h → (∀ s, q.scratch = some s → ∀ a i, s.Reach a i → ¬ w.Elem a i) → w.bytes h1 = w.bytes h := by
          intro w ow hw
          apply bytes_congr
          intro i hi
          apply h0.cells _ ow.arr
          intro s e hr
          exact hw s e _ _ hr ⟨rfl, by omega, by omega⟩
        have hb1 : r.bytes h1 = y1 := by
          rw [frame r h0.ok, h0.unread]
          intro s e a i hr he
          exact (hs s (hmine s e)).2 a i hr (h0.rest.elem he)
        have hok : ∀ w : Slice, w.Ok h → w.Ok h1 := fun w ow => ok_of_mem ow h0.next (h0.length _ ow.arr)
        have hp' : (scratches qs).Pairwise (fun s t => ∀ a i, s.Reach a i → ¬ t.Reach a i) := by
          simp only [scratches, List.filterMap_cons] at hp
          revert hp
          cases q.scratch with
          | none => exact id
          | some t => exact fun hp => (List.pairwise_cons.mp hp).2
        have hmut : ∀ s, q.scratch = some s → ∀ t ∈ scratches qs, ∀ a i, s.Reach a i → ¬ t.Reach a i := by
          intro s e t ht
          simp only [scratches, List.filterMap_cons, e] at hp
          exact (List.pairwise_cons.mp hp).1 t ht
        have hreq : qs.map (HReq.req h1) = qs.map (HReq.req h) := by
          apply List.map_congr_left
          intro d hd
          cases d with
          | plain _ => rfl
          | bytes t =>
            cases t with
            | none => rfl
            | some t =>
              have ht : t ∈ scratches qs := List.mem_filterMap.mpr ⟨_, hd, rfl⟩
              have ot := (hs t (hsub t ht)).1
              simp only [HReq.req, Option.map_some]
              rw [frame t ot]
              intro s e a i hr he
              refine hmut s e t ht a i hr ⟨he.1, he.2.1, ?_⟩
              have := ot.len
              have := he.2.2
              omega
        have hi := ih r h1 (hok r h0.ok) (fun q hq' => hq q (List.mem_cons_of_mem _ hq')) (by
          intro s hs'
          refine ⟨hok s (hs s (hsub s hs')).1, ?_⟩
          intro a i hr he
          exact (hs s (hsub s hs')).2 a i hr (h0.rest.elem he)) hp'
        rw [hb1, hreq] at hi
        cases hx2 : hreadAll rt qs r h1 with
        | panic =>
          rw [hx2] at hi
          rw [bind_panic hx2]
          revert hi
          cases readAll (qs.map (HReq.req h)) y1 with
          | panic => exact id
          | ok y => exact fun x => x.elim
        | ok x2 =>
          obtain ⟨⟨r2, os⟩, h2⟩ := x2
          rw [hx2] at hi
          rw [bind_ok hx2]
          cases hy2 : readAll (qs.map (HReq.req h)) y1 with
          | panic => rw [hy2] at hi; exact hi.elim
          | ok y2' =>
            rw [hy2] at hi
            obtain ⟨bs, os'⟩ := y2'
            obtain ⟨i1, i2, i3, i4, i5⟩ := hi
            refine ⟨?_, h0.rest.trans i2, i3, Nat.le_trans h0.next i4, ?_⟩
            · simp only [List.map_cons]
              rw [i1]
              congr 1
              have hoc := h0.outcome
              simp only at hoc
              rw [← hoc]
              cases oc with
              | plain o => rfl
              | bytes v =>
                cases v with
                | none => rfl
                | some v =>
                  obtain ⟨v1, v2⟩ := h0.value v rfl
                  simp only [HOutcome.now]
                  rw [i5 v v1]
                  intro s hs' a i hr he
                  rcases v2 a i he with v2 | ⟨t, ht, v2⟩
                  · have := (hs s (hsub s hs')).1.arr
                    have e1 := hr.1
                    omega
                  · exact hmut t ht s hs' a i v2 hr
            · intro w ow hw
              rw [i5 w (hok w ow) (fun s hs' => hw s (hsub s hs')), frame w ow (fun s e => hw s (hmine s e))]

end GoV1.Heap
