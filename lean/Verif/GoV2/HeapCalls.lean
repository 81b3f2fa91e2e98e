import Verif.GoV2.HeapFacts

/-! # The encoding functions over memory agree with those by contents -/

namespace GoV2.Heap

open Spec

/-- What one call on the buffer `p` may do to memory: write into the buffer's array behind the written part, or leave all
existing arrays as they are and move the buffer to a new one. -/
def Eff (h : Heap) (p : HBuffer) (h' : Heap) (q : HBuffer) : Prop :=
  (q.b = p.b ∧ Inside p.b p.offset.toNat h h') ∨ (h.next ≤ q.b.arr ∧ p.b.cap < q.b.cap ∧ h.next ≤ h'.next ∧ ∀ a < h.next, h'.mem a = h.mem a)

/-- The run of `x` from `h` on the buffer `p` does what `y` does. -/
def Refines (h : Heap) (p : HBuffer) (x : H HBuffer) (y : Go Buffer) : Prop :=
  match x h, y with
  | .ok (q, h'), .ok b => q.view h' = b ∧ q.b.Ok h' ∧ Eff h p h' q
  | .panic, .panic => True
  | _, _ => False

theorem view_cap {p : HBuffer} {h : Heap} (o : p.b.Ok h) : (p.view h).cap = p.b.cap := full_length o

/-- `Grow` leaves everything as it is, or moves the buffer into a new array. -/
theorem Grow_cases (rt : Runtime) {p : HBuffer} {h : Heap} (o : p.b.Ok h) (n : Int) :
    (p.Grow rt n h = .ok (p, h) ∧ (p.view h).Grow rt n = .ok (p.view h)) ∨
    (p.Grow rt n h = .panic ∧ (p.view h).Grow rt n = .panic) ∨
    ∃ q h', p.Grow rt n h = .ok (q, h') ∧ (p.view h).Grow rt n = .ok (q.view h') ∧ q.b.Ok h' ∧ q.offset = p.offset ∧
      q.b.arr = h.next ∧ p.b.cap < q.b.cap ∧ h'.next = h.next + 1 ∧ ∀ a < h.next, h'.mem a = h.mem a := by
  have hc := view_cap o
  have ho : (p.view h).offset = p.offset := rfl
  have hl := o.len
  by_cases hg : (p.b.cap : Int) - p.offset < n
  · right
    let k : Int := if (p.b.cap : Int) < n then n + p.b.cap - p.offset else p.b.cap * 2 - p.offset
    have hk : (if (p.b.cap : Int) < n then n + p.b.cap - p.offset else p.b.cap * 2 - p.offset) = k := rfl
    have hv : (p.view h).Grow rt n = (do
        let (arr, _) ← appendZeros rt (p.view h) p.offset k
        return { (p.view h) with arr := arr, len := arr.length }) := by
      rw [Buffer.Grow, if_pos (by rw [hc, ho]; exact hg)]
      simp only [hc, ho]
      show _ = (appendZeros rt (p.view h) p.offset (if (p.b.cap : Int) < n then n + p.b.cap - p.offset else p.b.cap * 2 - p.offset) >>= _)
      split <;> rfl
    by_cases hb : p.offset < 0 ∨ (p.b.cap : Int) < p.offset ∨ k < 0
    · left
      constructor
      · rw [HBuffer.Grow, if_pos hg, hk]
        by_cases hb1 : p.offset < 0 ∨ (p.b.cap : Int) < p.offset
        · apply bind_panic
          rw [Slice.slice, if_neg (by omega)]; rfl
        · rw [bind_ok (a := ⟨p.b.arr, p.b.off, p.offset.toNat, p.b.cap⟩) (h' := h) (by rw [Slice.slice, if_pos (by omega)]; rfl)]
          simp only []
          rw [if_pos (by omega)]; rfl
      · rw [hv, appendZeros, if_pos (by rw [hc]; exact hb)]; rfl
    · right
      have hbig : p.b.cap < p.offset.toNat + k.toNat := by
        simp only [k] at hb ⊢
        split at hb <;> split <;> omega
      have hnb : p.offset ≤ p.b.cap := by omega
      let s0 : Slice := ⟨p.b.arr, p.b.off, p.offset.toNat, p.b.cap⟩
      let bs : Bytes := s0.bytes h ++ mk0 k.toNat ++ mk0 (rt.slack p.b.cap (p.offset.toNat + k.toNat))
      have hlen : p.offset.toNat + k.toNat ≤ bs.length := by
        have := o.fits
        simp only [bs, List.length_append, Slice.bytes, mk0_length, List.length_take, List.length_drop, s0]; omega
      have hs0 : s0.bytes h = (p.view h).arr.take p.offset.toNat := by
        simp only [Slice.bytes, HBuffer.view, Slice.full, s0, List.take_take]
        congr 1; omega
      refine ⟨⟨⟨h.next, 0, bs.length, bs.length⟩, p.offset⟩, h.alloc bs, ?_, ?_, ?_, rfl, rfl, by simp only []; omega, rfl, ?_⟩
      · rw [HBuffer.Grow, if_pos hg, hk]
        rw [bind_ok (a := s0) (h' := h) (by rw [Slice.slice, if_pos (by omega)]; rfl)]
        simp only []
        rw [if_neg (by omega)]
        rw [bind_ok (a := ⟨h.next, 0, p.offset.toNat + k.toNat, bs.length⟩) (h' := h.alloc bs) (by
          rw [Slice.append, if_neg (by simp only [s0, mk0_length]; omega)]
          simp only [mk0_length, s0, bs])]
        rw [bind_ok (a := ⟨h.next, 0, bs.length, bs.length⟩) (h' := h.alloc bs) (by
          rw [Slice.slice, if_pos (by simp only []; omega)]; rfl)]
        rfl
      · have happ : appendZeros rt (p.view h) p.offset k = .ok (bs, p.offset.toNat + k.toNat) := by
          rw [appendZeros, if_neg (by rw [hc]; exact hb)]
          simp only []
          rw [if_neg (by rw [hc]; omega), hc, ← hs0]
        rw [hv, happ]
        simp only [Go.bind_ok, Go.pure_eq, HBuffer.view, Slice.full, Heap.alloc, if_true, List.drop_zero, List.take_length]
      · exact ⟨Nat.le_refl _, by simp [Heap.alloc], by simp [Heap.alloc]⟩
      · intro a ha
        simp only [Heap.alloc]
        rw [if_neg (by omega)]
  · left
    constructor
    · rw [HBuffer.Grow, if_neg hg]; rfl
    · rw [Buffer.Grow, if_neg (by rw [hc, ho]; exact hg)]; rfl

/-- A call that grows the buffer and then writes into it. -/
theorem refines_call (rt : Runtime) {p : HBuffer} {h : Heap} (o : p.b.Ok h) (n : Int) {f : HBuffer → H HBuffer} {g : Buffer → Go Buffer}
    (body : ∀ q h', q.b.Ok h' → q.offset = p.offset →
      ((q.b = p.b ∧ h' = h) ∨ (q.b.arr = h.next ∧ ∀ a < h.next, h'.mem a = h.mem a)) → Sim q.b q.offset.toNat h' (f q) (g (q.view h'))) :
    Refines h p (p.Grow rt n >>= f) ((p.view h).Grow rt n >>= g) := by
  rcases Grow_cases rt o n with ⟨e1, e2⟩ | ⟨e1, e2⟩ | ⟨q, h', e1, e2, oq, hoff, harr, hcap, hnext, hmem⟩
  · have := body p h o rfl (.inl ⟨rfl, rfl⟩)
    unfold Refines
    rw [bind_ok e1, e2, Go.bind_ok]
    unfold Sim at this
    cases hx : f p h with
    | panic => rw [hx] at this; revert this; cases g (p.view h) <;> exact id
    | ok r =>
      obtain ⟨q, h'⟩ := r
      rw [hx] at this
      cases hy : g (p.view h) with
      | panic => rw [hy] at this; exact this
      | ok b =>
        rw [hy] at this
        exact ⟨this.2.1, by rw [this.1]; exact this.2.2.ok o, .inl ⟨this.1, this.2.2⟩⟩
  · unfold Refines
    rw [bind_panic e1, e2]; trivial
  · have := body q h' oq hoff (.inr ⟨harr, hmem⟩)
    unfold Refines
    rw [bind_ok e1, e2, Go.bind_ok]
    unfold Sim at this
    cases hx : f q h' with
    | panic => rw [hx] at this; revert this; cases g (q.view h') <;> exact id
    | ok r =>
      obtain ⟨q2, h2⟩ := r
      rw [hx] at this
      cases hy : g (q.view h') with
      | panic => rw [hy] at this; exact this
      | ok b =>
        rw [hy] at this
        obtain ⟨t1, t2, t3⟩ := this
        refine ⟨t2, by rw [t1]; exact t3.ok oq, 
          .inr ⟨by rw [t1, harr]; exact Nat.le_refl _, by rw [t1]; exact hcap, by rw [t3.next, hnext]; omega, ?_⟩⟩
        intro a ha
        rw [← hmem a ha]
        apply List.ext_getElem?
        intro i
        exact t3.cells a i (.inl (by rw [harr]; omega))

macro "sim_body" : tactic => `(tactic| repeat (first
  | apply Sim.ite <;> intro _
  | (apply Sim.store (by assumption) rfl (by assumption) _ (by omega); intro _ _ _ _ _)
  | (apply Sim.pure rfl; subst_vars; rfl)
  | (apply Sim.copy (by assumption) rfl (by assumption) _ (by omega))))

theorem encodeNil_refines (rt : Runtime) {p : HBuffer} {h : Heap} (o : p.b.Ok h) :
    Refines h p (encodeNil rt p) (GoV2.encodeNil rt (p.view h)) := by
  apply refines_call rt o
  intro q h' oq _ _
  have hb : q.view h' = q.view h' := rfl
  sim_body

theorem encodeMap_refines (rt : Runtime) {p : HBuffer} {h : Heap} (o : p.b.Ok h) (size k v) :
    Refines h p (encodeMap rt p size k v) (GoV2.encodeMap rt (p.view h) size k v) := by
  apply refines_call rt o
  intro q h' oq _ _
  have hb : q.view h' = q.view h' := rfl
  sim_body

theorem encodeSlice_refines (rt : Runtime) {p : HBuffer} {h : Heap} (o : p.b.Ok h) (size k) :
    Refines h p (encodeSlice rt p size k) (GoV2.encodeSlice rt (p.view h) size k) := by
  apply refines_call rt o
  intro q h' oq _ _
  have hb : q.view h' = q.view h' := rfl
  sim_body

theorem encodeString_refines (rt : Runtime) {p : HBuffer} {h : Heap} (o : p.b.Ok h) (v) :
    Refines h p (encodeString rt p v) (GoV2.encodeString rt (p.view h) v) := by
  apply refines_call rt o
  intro q h' oq _ _
  have hb : q.view h' = q.view h' := rfl
  sim_body

theorem encodeErrorMessage_refines (rt : Runtime) {p : HBuffer} {h : Heap} (o : p.b.Ok h) (v) :
    Refines h p (encodeErrorMessage rt p v) (GoV2.encodeErrorMessage rt (p.view h) v) := by
  apply refines_call rt o
  intro q h' oq _ _
  have hb : q.view h' = q.view h' := rfl
  sim_body

theorem encodeBool_refines (rt : Runtime) {p : HBuffer} {h : Heap} (o : p.b.Ok h) (v) :
    Refines h p (encodeBool rt p v) (GoV2.encodeBool rt (p.view h) v) := by
  apply refines_call rt o
  intro q h' oq _ _
  have hb : q.view h' = q.view h' := rfl
  sim_body

theorem encodeUint8_refines (rt : Runtime) {p : HBuffer} {h : Heap} (o : p.b.Ok h) (v) :
    Refines h p (encodeUint8 rt p v) (GoV2.encodeUint8 rt (p.view h) v) := by
  apply refines_call rt o
  intro q h' oq _ _
  have hb : q.view h' = q.view h' := rfl
  sim_body

theorem encodeUint16_refines (rt : Runtime) {p : HBuffer} {h : Heap} (o : p.b.Ok h) (v) :
    Refines h p (encodeUint16 rt p v) (GoV2.encodeUint16 rt (p.view h) v) := by
  apply refines_call rt o
  intro q h' oq _ _
  have hb : q.view h' = q.view h' := rfl
  sim_body

theorem encodeUint32_refines (rt : Runtime) {p : HBuffer} {h : Heap} (o : p.b.Ok h) (v) :
    Refines h p (encodeUint32 rt p v) (GoV2.encodeUint32 rt (p.view h) v) := by
  apply refines_call rt o
  intro q h' oq _ _
  have hb : q.view h' = q.view h' := rfl
  sim_body

theorem encodeUint64_refines (rt : Runtime) {p : HBuffer} {h : Heap} (o : p.b.Ok h) (v) :
    Refines h p (encodeUint64 rt p v) (GoV2.encodeUint64 rt (p.view h) v) := by
  apply refines_call rt o
  intro q h' oq _ _
  have hb : q.view h' = q.view h' := rfl
  sim_body

theorem encodeInt32_refines (rt : Runtime) {p : HBuffer} {h : Heap} (o : p.b.Ok h) (v) :
    Refines h p (encodeInt32 rt p v) (GoV2.encodeInt32 rt (p.view h) v) := by
  apply refines_call rt o
  intro q h' oq _ _
  have hb : q.view h' = q.view h' := rfl
  sim_body

theorem encodeInt64_refines (rt : Runtime) {p : HBuffer} {h : Heap} (o : p.b.Ok h) (v) :
    Refines h p (encodeInt64 rt p v) (GoV2.encodeInt64 rt (p.view h) v) := by
  apply refines_call rt o
  intro q h' oq _ _
  have hb : q.view h' = q.view h' := rfl
  sim_body

theorem encodeFloat32_refines (rt : Runtime) {p : HBuffer} {h : Heap} (o : p.b.Ok h) (v) :
    Refines h p (encodeFloat32 rt p v) (GoV2.encodeFloat32 rt (p.view h) v) := by
  apply refines_call rt o
  intro q h' oq _ _
  have hb : q.view h' = q.view h' := rfl
  sim_body

theorem encodeFloat64_refines (rt : Runtime) {p : HBuffer} {h : Heap} (o : p.b.Ok h) (v) :
    Refines h p (encodeFloat64 rt p v) (GoV2.encodeFloat64 rt (p.view h) v) := by
  apply refines_call rt o
  intro q h' oq _ _
  have hb : q.view h' = q.view h' := rfl
  sim_body

/-! ## Slices as arguments -/

/-- The elements of `w` are not among the elements of `s` from `lo` up to the capacity. -/
def Apart (w s : Slice) (lo : Nat) : Prop := w.len = 0 ∨ w.arr ≠ s.arr ∨ w.off + w.len ≤ s.off + lo ∨ s.off + s.cap ≤ w.off ∨ s.cap ≤ lo

theorem bytes_congr {w : Slice} {h h' : Heap} (e : ∀ i, i < w.len → (h'.mem w.arr)[w.off + i]? = (h.mem w.arr)[w.off + i]?) :
    w.bytes h' = w.bytes h := by
  apply List.ext_getElem?
  intro i
  simp only [Slice.bytes, window_get]
  split
  · rename_i hi; exact e i hi
  · rfl

theorem Inside.bytes {w s : Slice} {lo : Nat} {h h' : Heap} (a : Apart w s lo) (i : Inside s lo h h') : w.bytes h' = w.bytes h := by
  apply bytes_congr
  intro j hj
  rcases a with a | a | a | a | a
  · omega
  · exact i.cells _ _ (.inl a)
  · exact i.cells _ _ (.inr (.inl (by omega)))
  · exact i.cells _ _ (.inr (.inr (by omega)))
  · exact i.cells _ _ (.inr (by omega))

theorem bytes_length {w : Slice} {h : Heap} (o : w.Ok h) : (w.bytes h).length = w.len := by
  have := o.fits; have := o.len; simp [Slice.bytes]; omega

theorem Sim.storeW {s w : Slice} {lo : Nat} {v : Bytes} (ap : Apart w s lo) {h : Heap} (o : s.Ok h) {p : HBuffer} {b : Buffer}
    (hp : p.b = s) (hb : p.view h = b) (hw : w.bytes h = v) (i : Int) (hlo : lo ≤ i.toNat) (x : Byte)
    {f : HBuffer → H HBuffer} {g : Buffer → Go Buffer}
    (k : ∀ h' b', s.Ok h' → p.view h' = b' → w.bytes h' = v → Sim s lo h' (f p) (g b')) :
    Sim s lo h (p.store i x >>= f) (b.store i x >>= g) :=
  Sim.store o hp hb i hlo x fun h' b' o' hv hi => k h' b' o' hv ((hi.bytes ap).trans hw)

theorem copySlice_eq {p : HBuffer} {i : Int} {w : Slice} {h : Heap} : p.copySlice i w h = p.copyString i (w.bytes h) h := by
  show H.bind _ _ h = H.bind _ _ h
  by_cases hc : 0 ≤ i ∧ i ≤ p.b.len ∧ (p.b.len : Int) ≤ p.b.cap
  · simp only [H.bind, Slice.slice, if_pos hc]; rfl
  · simp only [H.bind, Slice.slice, if_neg hc]; rfl

theorem Sim.copyW {s w : Slice} {lo : Nat} {v : Bytes} {h : Heap} (o : s.Ok h) {p : HBuffer} {b : Buffer}
    (hp : p.b = s) (hb : p.view h = b) (hw : w.bytes h = v) (i : Int) (hlo : lo ≤ i.toNat) :
    Sim s lo h (p.copySlice i w) (b.copyTail i v) := by
  have := Sim.copy o hp hb i hlo v
  unfold Sim at this ⊢
  rw [copySlice_eq, hw]; exact this

macro "sim_bodyW" : tactic => `(tactic| repeat (first
  | apply Sim.ite <;> intro _
  | (apply Sim.storeW (by assumption) (by assumption) rfl (by assumption) (by assumption) _ (by omega); intro _ _ _ _ _)
  | (apply Sim.copyW (by assumption) rfl (by assumption) (by assumption) _ (by omega))))

/-- After `Grow` a slice that is apart from the buffer's free part still is, and has its old contents. -/
theorem apart_grown {p q : HBuffer} {h h' : Heap} {w : Slice} (ow : w.Ok h) (ap : Apart w p.b p.offset.toNat) (hoff : q.offset = p.offset)
    (c : (q.b = p.b ∧ h' = h) ∨ (q.b.arr = h.next ∧ ∀ a < h.next, h'.mem a = h.mem a)) :
    Apart w q.b q.offset.toNat ∧ w.bytes h' = w.bytes h := by
  rcases c with ⟨c1, c2⟩ | ⟨c1, c2⟩
  · rw [c1, hoff, c2]; exact ⟨ap, rfl⟩
  · refine ⟨.inr (.inl ?_), bytes_congr fun i _ => ?_⟩
    · rw [c1]; have := ow.arr; omega
    · rw [c2 _ ow.arr]

theorem encodeBytes_refines (rt : Runtime) {p : HBuffer} {h : Heap} (o : p.b.Ok h) {w : Slice} (ow : w.Ok h)
    (ap : Apart w p.b p.offset.toNat) : Refines h p (encodeBytes rt p w) (GoV2.encodeBytes rt (p.view h) (w.bytes h)) := by
  unfold encodeBytes GoV2.encodeBytes
  rw [bytes_length ow]
  apply refines_call rt o
  intro q h' oq hoff hc
  obtain ⟨ap', hw⟩ := apart_grown ow ap hoff hc
  have hb : q.view h' = q.view h' := rfl
  sim_bodyW

theorem Write_refines (rt : Runtime) {p : HBuffer} {h : Heap} (o : p.b.Ok h) {w : Slice} (ow : w.Ok h)
    (ap : Apart w p.b p.offset.toNat) :
    Refines h p (do let r ← p.Write rt w; return r.1) (do let r ← (p.view h).Write rt (w.bytes h); return r.1) := by
  have e1 : (do let r ← p.Write rt w; return r.1 : H HBuffer) = (p.Grow rt w.len >>= fun buf => do
      let dst ← buf.b.slice buf.offset buf.b.cap
      let n ← dst.copy (← w.read)
      return { buf with offset := buf.offset + n }) := by
    simp only [HBuffer.Write, bind_assoc, pure_bind]
  have e2 : (do let r ← (p.view h).Write rt (w.bytes h); return r.1 : Go Buffer) = ((p.view h).Grow rt w.len >>= fun b => do
      let (arr, n) ← copyInto b.arr b.offset b.cap (w.bytes h)
      return { b with arr := arr, offset := b.offset + n }) := by
    rw [Buffer.Write, bytes_length ow]
    simp only [bind_assoc]
    rfl
  rw [e1, e2]
  apply refines_call rt o
  intro q h' oq hoff hc
  obtain ⟨ap', hw⟩ := apart_grown ow ap hoff hc
  have hl := oq.len
  by_cases hi : q.offset < 0 ∨ (q.b.cap : Int) < q.offset
  · have e1 : (q.b.slice q.offset q.b.cap >>= fun dst => do
        let n ← dst.copy (← w.read)
        return { q with offset := q.offset + n } : H HBuffer) h' = .panic := by
      apply bind_panic
      rw [Slice.slice, if_neg (by omega)]; rfl
    have e2 : copyInto (q.view h').arr (q.view h').offset (q.view h').cap (w.bytes h) = .panic := by
      rw [copyInto, view_cap oq]; exact if_pos hi
    unfold Sim
    rw [e1, e2]; trivial
  · have hn : q.offset.toNat + ((w.bytes h).take (min (q.b.cap - q.offset.toNat) (w.bytes h).length)).length ≤ q.b.cap := by
      simp; omega
    have hin := inside_overwrite oq (Nat.le_refl q.offset.toNat) hn
    have hfull := full_overwrite oq hn
    have e1 : (q.b.slice q.offset q.b.cap >>= fun dst => do
        let n ← dst.copy (← w.read)
        return { q with offset := q.offset + n } : H HBuffer) h' =
        .ok ({ q with offset := q.offset + (min (q.b.cap - q.offset.toNat) (w.bytes h).length : Nat) },
          h'.set q.b.arr (overwrite (h'.mem q.b.arr) (q.b.off + q.offset.toNat) ((w.bytes h).take (min (q.b.cap - q.offset.toNat) (w.bytes h).length)))) := by
      rw [bind_ok (a := ⟨q.b.arr, q.b.off + q.offset.toNat, q.b.cap - q.offset.toNat, q.b.cap - q.offset.toNat⟩) (h' := h') (by
        rw [Slice.slice, if_pos (by omega)]; rfl)]
      rw [bind_ok (x := w.read) (a := w.bytes h) (h' := h') (by rw [Slice.read, hw])]
      rfl
    have e2 : copyInto (q.view h').arr (q.view h').offset (q.view h').cap (w.bytes h) =
        .ok (overwrite (q.b.full h') q.offset.toNat ((w.bytes h).take (min (q.b.cap - q.offset.toNat) (w.bytes h).length)),
          min (q.b.cap - q.offset.toNat) (w.bytes h).length) := by
      rw [copyInto, view_cap oq]; exact if_neg hi
    unfold Sim
    rw [e1, e2]
    refine ⟨rfl, ?_, hin⟩
    simp only [HBuffer.view, hfull]

/-! ## Calls and histories -/

/-- A call on a buffer; slices are references. -/
inductive Call where
  /-- an encoder method other than `Bytes` -/
  | encode (i : Item)
  /-- `Encoder.Bytes` -/
  | bytes (w : Slice)
  /-- `Buffer.Write` -/
  | write (w : Slice)
  | grow (n : Nat)
  | reset
  /-- `MoveOffset(-k)` -/
  | rewind (k : Nat)
deriving Repr

/-- v2/encoder.go 25-98, v2/buffer.go 49-73: run a call. -/
def Call.run (rt : Runtime) (p : HBuffer) : Call → H HBuffer
  | .encode .nil => encodeNil rt p
  | .encode (.map size k v) => encodeMap rt p size k v
  | .encode (.slice size k) => encodeSlice rt p size k
  | .encode (.bytes _) => H.panic -- not a call: see `Call.bytes`
  | .encode (.string v) => encodeString rt p v
  | .encode (.error m) => encodeError rt p (some m)
  | .encode (.bool v) => encodeBool rt p v
  | .encode (.uint8 v) => encodeUint8 rt p v
  | .encode (.uint16 v) => encodeUint16 rt p v
  | .encode (.uint32 v) => encodeUint32 rt p v
  | .encode (.uint64 v) => encodeUint64 rt p v
  | .encode (.int32 v) => encodeInt32 rt p v
  | .encode (.int64 v) => encodeInt64 rt p v
  | .encode (.float32 v) => encodeFloat32 rt p v
  | .encode (.float64 v) => encodeFloat64 rt p v
  | .bytes w => encodeBytes rt p w
  | .write w => do
    let r ← p.Write rt w
    return r.1
  | .grow n => p.Grow rt n
  | .reset => pure p.Reset
  | .rewind k => pure (p.MoveOffset (-(k : Int)))

/-- The same call with the contents its slice has now. -/
def Call.op (h : Heap) : Call → LogOp
  | .encode i => .encode i
  | .bytes w => .encode (.bytes (w.bytes h))
  | .write w => .write (w.bytes h)
  | .grow n => .grow n
  | .reset => .reset
  | .rewind k => .rewind k

/-- The slice passed to the call, if any. -/
def Call.arg : Call → Option Slice
  | .bytes w => some w
  | .write w => some w
  | _ => none

/-- A call that can be written in a program. -/
def Call.Proper : Call → Prop
  | .encode (.bytes _) => False
  | _ => True

theorem refines_stay {h : Heap} {p q : HBuffer} {b : Buffer} (o : p.b.Ok h) (hq : q.b = p.b) (hb : q.view h = b) :
    Refines h p (pure q) (pure b) :=
  ⟨hb, by rw [hq]; exact o, .inl ⟨hq, Inside.refl _ _ _⟩⟩

/-- Every call does what the transcription by contents does with the contents its argument has at that moment, provided
its argument does not lie in the free part of the buffer. -/
theorem call_refines (rt : Runtime) {p : HBuffer} {h : Heap} (o : p.b.Ok h) (c : Call) (hc : c.Proper)
    (ha : ∀ w, c.arg = some w → w.Ok h ∧ Apart w p.b p.offset.toNat) :
    Refines h p (c.run rt p) (do let r ← runOp rt (p.view h) (c.op h); return r.1) := by
  have enc : ∀ (i : Item) (x : H HBuffer), Refines h p x (GoV2.encodeItem rt (p.view h) i) →
      Refines h p x (do let r ← runOp rt (p.view h) (.encode i); return r.1) := by
    intro i x hx
    have : (do let r ← runOp rt (p.view h) (.encode i); return r.1 : Go Buffer) = GoV2.encodeItem rt (p.view h) i := by
      simp only [runOp, bind_assoc]
      cases GoV2.encodeItem rt (p.view h) i <;> rfl
    rw [this]; exact hx
  cases c with
  | encode i =>
    apply enc
    cases i with
    | nil => exact encodeNil_refines rt o
    | map size k v => exact encodeMap_refines rt o size k v
    | slice size k => exact encodeSlice_refines rt o size k
    | bytes v => exact absurd hc (by simp [Call.Proper])
    | string v => exact encodeString_refines rt o v
    | error m => exact encodeErrorMessage_refines rt o m
    | bool v => exact encodeBool_refines rt o v
    | uint8 v => exact encodeUint8_refines rt o v
    | uint16 v => exact encodeUint16_refines rt o v
    | uint32 v => exact encodeUint32_refines rt o v
    | uint64 v => exact encodeUint64_refines rt o v
    | int32 v => exact encodeInt32_refines rt o v
    | int64 v => exact encodeInt64_refines rt o v
    | float32 v => exact encodeFloat32_refines rt o v
    | float64 v => exact encodeFloat64_refines rt o v
  | bytes w => exact enc _ _ (encodeBytes_refines rt o (ha w rfl).1 (ha w rfl).2)
  | write w =>
    have : (do let r ← runOp rt (p.view h) (.write (w.bytes h)); return r.1 : Go Buffer) = (do let r ← (p.view h).Write rt (w.bytes h); return r.1) := by
      simp only [runOp, bind_assoc]
      cases (p.view h).Write rt (w.bytes h) <;> rfl
    simp only [Call.op, this]
    exact Write_refines rt o (ha w rfl).1 (ha w rfl).2
  | grow n =>
    have e : (do let r ← runOp rt (p.view h) (.grow n); return r.1 : Go Buffer) = (p.view h).Grow rt n >>= pure := by
      simp only [runOp, bind_assoc]
      cases (p.view h).Grow rt n <;> rfl
    have e2 : p.Grow rt n = (p.Grow rt n >>= pure) := by
      funext h
      show _ = H.bind _ _ h
      simp only [H.bind]
      cases p.Grow rt n h <;> rfl
    simp only [Call.op, Call.run]
    rw [e, e2]
    exact refines_call rt o _ fun q h' oq _ _ => Sim.pure rfl rfl
  | reset => exact refines_stay (q := p.Reset) o rfl rfl
  | rewind k => exact refines_stay (q := p.MoveOffset (-(k : Int))) o rfl rfl

end GoV2.Heap
