import Verif.GoV1.Heap
import Verif.GoV1.Log
import Verif.GoV2.HeapHistory

/-! # v1 encoding over memory agrees with the transcription by contents -/

namespace GoV1.Heap

open GoV2 (Runtime mk0 overwrite)
open GoV2.Heap
open Spec

/-- What the transcription by contents sees of a buffer. -/
def view (p : Slice) (h : Heap) : Buffer := { arr := p.full h, len := p.len }

/-- What calls on the buffer `p` may do to memory: write behind its length, and move it to a new, larger array. -/
structure Eff (h : Heap) (p : Slice) (h' : Heap) (q : Slice) : Prop where
  next : h.next ≤ h'.next
  length : ∀ a < h.next, (h'.mem a).length = (h.mem a).length
  cells : ∀ a < h.next, ∀ i, a ≠ p.arr ∨ i < p.off + p.len ∨ p.off + p.cap ≤ i → (h'.mem a)[i]? = (h.mem a)[i]?
  place : (q.arr = p.arr ∧ q.off = p.off ∧ q.cap = p.cap ∧ p.len ≤ q.len) ∨ (h.next ≤ q.arr ∧ p.cap < q.cap)

theorem Eff.refl (h : Heap) (p : Slice) : Eff h p h p :=
  ⟨Nat.le_refl _, fun _ _ => rfl, fun _ _ _ _ => rfl, .inl ⟨rfl, rfl, rfl, Nat.le_refl _⟩⟩

theorem Eff.trans {h1 h2 h3 : Heap} {p q r : Slice} (a : Eff h1 p h2 q) (b : Eff h2 q h3 r) : Eff h1 p h3 r := by
  have n := a.next
  refine ⟨Nat.le_trans a.next b.next, ?_, ?_, ?_⟩
  · intro x hx; rw [b.length x (by omega), a.length x hx]
  · intro x hx i hi
    rw [b.cells x (by omega) i, a.cells x hx i hi]
    rcases a.place with ⟨e1, e2, e3, e4⟩ | ⟨e1, _⟩
    · rw [e1, e2, e3]; omega
    · left; omega
  · rcases a.place with ⟨e1, e2, e3, e4⟩ | ⟨e1, e2⟩
    · rcases b.place with ⟨f1, f2, f3, f4⟩ | ⟨f1, f2⟩
      · exact .inl ⟨f1.trans e1, f2.trans e2, f3.trans e3, by omega⟩
      · exact .inr ⟨by omega, by omega⟩
    · rcases b.place with ⟨f1, f2, f3, f4⟩ | ⟨f1, f2⟩
      · exact .inr ⟨by omega, by omega⟩
      · exact .inr ⟨by omega, by omega⟩

theorem Eff.ok {h h' : Heap} {p q w : Slice} (e : Eff h p h' q) (o : w.Ok h) : w.Ok h' :=
  ok_of_mem o e.next (e.length _ o.arr)

theorem Eff.bytes {h h' : Heap} {p q w : Slice} (e : Eff h p h' q) (o : w.Ok h) (a : Apart w p p.len) : w.bytes h' = w.bytes h := by
  apply bytes_congr
  intro j hj
  apply e.cells _ o.arr
  rcases a with a | a | a | a | a
  · omega
  · exact .inl a
  · exact .inr (.inl (by omega))
  · exact .inr (.inr (by omega))
  · exact .inr (by omega)

theorem Eff.apart {h h' : Heap} {p q w : Slice} (e : Eff h p h' q) (o : w.Ok h) (a : Apart w p p.len) : Apart w q q.len := by
  have := o.arr
  rcases e.place with ⟨e1, e2, e3, e4⟩ | ⟨e1, _⟩
  · unfold Apart at a ⊢
    rw [e1, e2, e3]
    rcases a with a | a | a | a | a
    · exact .inl a
    · exact .inr (.inl a)
    · exact .inr (.inr (.inl (by omega)))
    · exact .inr (.inr (.inr (.inl a)))
    · exact .inr (.inr (.inr (.inr (by omega))))
  · exact .inr (.inl (by omega))

/-- The run of `x` from `h` on the buffer `p` does what `y` does. -/
def Refines (h : Heap) (p : Slice) (x : H Slice) (y : Go Buffer) : Prop :=
  match x h, y with
  | .ok (q, h'), .ok b => view q h' = b ∧ q.Ok h' ∧ Eff h p h' q
  | .panic, .panic => True
  | _, _ => False

/-- The same for a call that also returns a number. -/
def RefinesN (h : Heap) (p : Slice) (x : H (Slice × Nat)) (y : Go (Buffer × Nat)) : Prop :=
  match x h, y with
  | .ok ((q, n), h'), .ok (b, m) => n = m ∧ view q h' = b ∧ q.Ok h' ∧ Eff h p h' q
  | .panic, .panic => True
  | _, _ => False

theorem Refines.pure {h : Heap} {p : Slice} (o : p.Ok h) : Refines h p (Pure.pure p) (Pure.pure (view p h)) :=
  ⟨rfl, o, Eff.refl h p⟩

theorem Refines.mono {h h' : Heap} {p q : Slice} {x : H Slice} {y : Go Buffer} (e : Eff h p h' q) (a : Refines h' q x y) {z : H Slice}
    (hz : z h = x h') : Refines h p z y := by
  unfold Refines at a ⊢
  rw [hz]
  revert a
  cases x h' with
  | panic => cases y <;> exact id
  | ok r =>
    cases y with
    | panic => exact id
    | ok b => rintro ⟨a1, a2, a3⟩; exact ⟨a1, a2, e.trans a3⟩

theorem Refines.bind {h : Heap} {p : Slice} {x : H Slice} {y : Go Buffer} {f : Slice → H Slice} {g : Buffer → Go Buffer}
    (a : Refines h p x y) (k : ∀ q h', q.Ok h' → Eff h p h' q → Refines h' q (f q) (g (view q h'))) :
    Refines h p (x >>= f) (y >>= g) := by
  unfold Refines at a
  cases hx : x h with
  | panic =>
    rw [hx] at a
    cases hy : y with
    | panic => unfold Refines; rw [bind_panic hx]; trivial
    | ok v => rw [hy] at a; exact a.elim
  | ok r =>
    rw [hx] at a
    cases hy : y with
    | panic => rw [hy] at a; exact a.elim
    | ok v =>
      rw [hy] at a
      obtain ⟨q, h'⟩ := r
      obtain ⟨a1, a2, a3⟩ := a
      subst a1
      rw [Go.bind_ok]
      exact (k q h' a2 a3).mono a3 (bind_ok hx)

theorem RefinesN.bind {h : Heap} {p : Slice} {x : H (Slice × Nat)} {y : Go (Buffer × Nat)} {f : Slice × Nat → H Slice} {g : Buffer × Nat → Go Buffer}
    (a : RefinesN h p x y) (k : ∀ q n h', q.Ok h' → Eff h p h' q → Refines h' q (f (q, n)) (g (view q h', n))) :
    Refines h p (x >>= f) (y >>= g) := by
  unfold RefinesN at a
  cases hx : x h with
  | panic =>
    rw [hx] at a
    cases hy : y with
    | panic => unfold Refines; rw [bind_panic hx]; trivial
    | ok v => rw [hy] at a; exact a.elim
  | ok r =>
    rw [hx] at a
    cases hy : y with
    | panic => rw [hy] at a; exact a.elim
    | ok v =>
      rw [hy] at a
      obtain ⟨⟨q, n⟩, h'⟩ := r
      obtain ⟨v, m⟩ := v
      obtain ⟨rfl, a1, a2, a3⟩ := a
      subst a1
      rw [Go.bind_ok]
      exact (k q n h' a2 a3).mono a3 (bind_ok hx)

theorem Inside.eff {h h' : Heap} {p : Slice} (i : Inside p p.len h h') {q : Slice} (e1 : q.arr = p.arr) (e2 : q.off = p.off) (e3 : q.cap = p.cap)
    (e4 : p.len ≤ q.len) : Eff h p h' q :=
  ⟨Nat.le_of_eq i.next.symm, fun a _ => i.length a, fun a _ j c => i.cells a j c, .inl ⟨e1, e2, e3, e4⟩⟩

theorem view_cap {p : Slice} {h : Heap} (o : p.Ok h) : (view p h).cap = p.cap := full_length o

/-- Elements from `len` on overwritten in place. -/
theorem in_place {p : Slice} {h : Heap} (o : p.Ok h) {v : _root_.Bytes} (hc : p.len + v.length ≤ p.cap) :
    view { p with len := p.len + v.length } (h.set p.arr (overwrite (h.mem p.arr) (p.off + p.len) v)) =
      { arr := overwrite (view p h).arr p.len v, len := p.len + v.length } ∧
    ({ p with len := p.len + v.length } : Slice).Ok (h.set p.arr (overwrite (h.mem p.arr) (p.off + p.len) v)) ∧
    Eff h p (h.set p.arr (overwrite (h.mem p.arr) (p.off + p.len) v)) { p with len := p.len + v.length } := by
  have hin := inside_overwrite (lo := p.len) o (i := p.len) (v := v) (Nat.le_refl _) hc
  have hfull := full_overwrite o (i := p.len) (v := v) hc
  refine ⟨?_, ⟨hc, (hin.ok o).arr, (hin.ok o).fits⟩, Inside.eff hin rfl rfl rfl (Nat.le_add_right _ _)⟩
  simp only [view]
  congr 1

theorem append_refines (rt : Runtime) {p : Slice} {h : Heap} (o : p.Ok h) (v : _root_.Bytes) :
    Refines h p (p.append rt v) (pure ((view p h).append rt v)) := by
  have hl := o.len
  have hf := o.fits
  have hcap := view_cap o
  unfold Refines
  by_cases hc : p.len + v.length ≤ p.cap
  · obtain ⟨e1, e2, e3⟩ := in_place o hc
    rw [GoV2.Heap.Slice.append, if_pos hc]
    refine ⟨?_, e2, e3⟩
    rw [e1, Buffer.append, if_pos (by rw [hcap]; exact hc)]
    rfl
  · rw [GoV2.Heap.Slice.append, if_neg hc]
    have hb : p.bytes h = (view p h).arr.take (view p h).len := by
      simp only [Slice.bytes, view, Slice.full, List.take_take]
      congr 1; omega
    have hbl := bytes_length o
    refine ⟨?_, ⟨?_, Nat.lt_succ_self _, ?_⟩, ⟨Nat.le_succ _, ?_, ?_, .inr ⟨Nat.le_refl _, ?_⟩⟩⟩
    · rw [Buffer.append, if_neg (by rw [hcap]; exact hc), hcap, ← hb]
      simp only [view, Slice.full, Heap.alloc, if_true, List.drop_zero, List.take_length]
    · simp only [List.length_append, hbl]; omega
    · simp [Heap.alloc]
    · intro a ha; simp only [Heap.alloc]; rw [if_neg (by omega)]
    · intro a ha i _; simp only [Heap.alloc]; rw [if_neg (by omega)]
    · simp only [List.length_append, hbl]; omega

theorem slice_same {p : Slice} (hi : p.len ≤ p.cap) : p.slice 0 p.len = pure p := by
  rw [Slice.slice, if_pos (by omega)]
  simp

theorem WriteValue_refines (rt : Runtime) {p : Slice} {h : Heap} (o : p.Ok h) (v : _root_.Bytes) :
    RefinesN h p (WriteValue rt p v) ((view p h).Write rt v) := by
  have hl := o.len
  have hcap := view_cap o
  have hlen : (view p h).len = p.len := rfl
  unfold RefinesN WriteValue Buffer.Write
  rw [hcap, hlen]
  by_cases hc : (p.cap : Int) - p.len < v.length
  · rw [if_pos hc, if_pos hc, slice_same hl]
    have := append_refines rt o v
    unfold Refines at this
    simp only [pure_bind]
    have hr : (view p h).reslice p.len = .ok (view p h) := by
      rw [Buffer.reslice, if_pos (by rw [hcap]; exact hl)]; rfl
    rw [hr, Go.bind_ok]
    cases hx : p.append rt v h with
    | panic => rw [hx] at this; exact this.elim
    | ok r =>
      obtain ⟨q, h'⟩ := r
      rw [hx] at this
      rw [bind_ok hx]
      exact ⟨rfl, this⟩
  · rw [if_neg hc, if_neg hc]
    have hfit : p.len + v.length ≤ p.cap := by omega
    obtain ⟨e1, e2, e3⟩ := in_place o hfit
    have hmin : min (p.cap - p.len) v.length = v.length := by omega
    have x1 : p.slice p.len p.cap h = .ok (⟨p.arr, p.off + p.len, p.cap - p.len, p.cap - p.len⟩, h) := by
      rw [Slice.slice, if_pos (by omega)]; simp only [Int.toNat_natCast]; rfl
    have x2 : (⟨p.arr, p.off + p.len, p.cap - p.len, p.cap - p.len⟩ : Slice).copy v h =
        .ok (v.length, h.set p.arr (overwrite (h.mem p.arr) (p.off + p.len) v)) := by
      simp only [Slice.copy, hmin, List.take_length]
    have x3 : ∀ g, p.slice 0 (p.len + (v.length : Nat)) g = .ok ({ p with len := p.len + v.length }, g) := by
      intro g
      rw [Slice.slice, if_pos (by omega)]
      show Go.ok _ = _
      simp only [Int.toNat_zero, Nat.add_zero, Nat.sub_zero]
      congr 3
    rw [bind_ok x1, bind_ok x2, bind_ok (x3 _)]
    have y1 : GoV2.copyInto (view p h).arr p.len p.cap v = .ok (overwrite (view p h).arr p.len v, v.length) := by
      have : ¬ ((p.len : Int) < 0 ∨ (p.cap : Int) < p.len) := by omega
      simp only [GoV2.copyInto, this, if_false, Int.toNat_natCast, hmin, List.take_length]
    have y2 : Buffer.reslice { arr := overwrite (view p h).arr p.len v, len := p.len } (p.len + v.length) =
        .ok { arr := overwrite (view p h).arr p.len v, len := p.len + v.length } := by
      rw [Buffer.reslice, if_pos]
      show _ ≤ (overwrite (view p h).arr p.len v).length
      have : (view p h).arr.length = p.cap := hcap
      rw [GoV2.overwrite_length (by omega), this]; exact hfit
    rw [y1, Go.bind_ok]
    simp only []
    rw [y2]
    exact ⟨rfl, e1, e2, e3⟩

/-- Writing a slice that is not in the free part of the buffer is writing its contents. -/
theorem Write_value (rt : Runtime) (p : Slice) {w : Slice} {h : Heap} (o : w.Ok h) : Write rt p w h = WriteValue rt p (w.bytes h) h := by
  have hl := bytes_length o
  unfold Write WriteValue
  rw [hl]
  by_cases hc : (p.cap : Int) - p.len < w.len
  · rw [if_pos hc, if_pos hc]
    unfold Slice.slice
    split
    · simp only [pure_bind]
      rw [bind_ok (x := w.read) (a := w.bytes h) (h' := h) rfl]
    · rw [bind_panic rfl, bind_panic rfl]
  · rw [if_neg hc, if_neg hc]
    unfold Slice.slice
    split
    · simp only [pure_bind]
      rw [bind_ok (x := w.read) (a := w.bytes h) (h' := h) rfl]
    · rw [bind_panic rfl, bind_panic rfl]

theorem Write_refines (rt : Runtime) {p w : Slice} {h : Heap} (o : p.Ok h) (ow : w.Ok h) :
    RefinesN h p (Write rt p w) ((view p h).Write rt (w.bytes h)) := by
  have := WriteValue_refines rt o (w.bytes h)
  unfold RefinesN at this ⊢
  rw [Write_value rt p ow]; exact this

theorem varintLoop_refines {n : Nat} (rt : Runtime) (hn : 8 ≤ n) : ∀ (k : Nat) (value : BitVec n), value.toNat ≤ k → ∀ {p : Slice} {h : Heap}, p.Ok h →
    Refines h p (varintLoop rt p value hn) (pure (GoV1.varintLoop rt (view p h) value hn)) := by
  intro k
  induction k with
  | zero =>
    intro value hk p h o
    rw [varintLoop, GoV1.varintLoop]
    have : ¬ value ≥ continuation := by
      intro hc
      have := BitVec.le_def.mp hc
      rw [continuation, toNat_0x80 hn] at this
      omega
    rw [dif_neg this, dif_neg this]
    exact append_refines rt o _
  | succ k ih =>
    intro value hk p h o
    rw [varintLoop, GoV1.varintLoop]
    by_cases hc : value ≥ continuation
    · rw [dif_pos hc, dif_pos hc]
      have h1 : 128 ≤ value.toNat := by
        have := BitVec.le_def.mp hc
        rwa [continuation, toNat_0x80 hn] at this
      have h2 : (value >>> 7).toNat ≤ k := by rw [toNat_shr7]; omega
      refine Refines.bind (g := fun b => pure (GoV1.varintLoop rt b (value >>> 7) hn)) (append_refines rt o _) ?_
      intro q h' oq _
      exact ih _ h2 oq
    · rw [dif_neg hc, dif_neg hc]
      exact append_refines rt o _

macro "enc" o:term : tactic => `(tactic| refine RefinesN.bind (WriteValue_refines _ $o _) ?_)

theorem encodeNil_refines (rt : Runtime) {p : Slice} {h : Heap} (o : p.Ok h) : Refines h p (encodeNil rt p) (GoV1.encodeNil rt (view p h)) := by
  enc o
  intro q n h' oq _
  exact Refines.pure oq

theorem encodeUint16_refines (rt : Runtime) {p : Slice} {h : Heap} (o : p.Ok h) (v) : Refines h p (encodeUint16 rt p v) (GoV1.encodeUint16 rt (view p h) v) := by
  enc o
  intro q n h' oq _
  exact varintLoop_refines rt _ _ _ (Nat.le_refl _) oq

theorem encodeUint32_refines (rt : Runtime) {p : Slice} {h : Heap} (o : p.Ok h) (v) : Refines h p (encodeUint32 rt p v) (GoV1.encodeUint32 rt (view p h) v) := by
  enc o
  intro q n h' oq _
  exact varintLoop_refines rt _ _ _ (Nat.le_refl _) oq

theorem encodeUint64_refines (rt : Runtime) {p : Slice} {h : Heap} (o : p.Ok h) (v) : Refines h p (encodeUint64 rt p v) (GoV1.encodeUint64 rt (view p h) v) := by
  enc o
  intro q n h' oq _
  exact varintLoop_refines rt _ _ _ (Nat.le_refl _) oq

theorem encodeInt32_refines (rt : Runtime) {p : Slice} {h : Heap} (o : p.Ok h) (v) : Refines h p (encodeInt32 rt p v) (GoV1.encodeInt32 rt (view p h) v) := by
  enc o
  intro q n h' oq _
  simp only []
  split
  · exact varintLoop_refines rt _ _ _ (Nat.le_refl _) oq
  · exact varintLoop_refines rt _ _ _ (Nat.le_refl _) oq

theorem encodeInt64_refines (rt : Runtime) {p : Slice} {h : Heap} (o : p.Ok h) (v) : Refines h p (encodeInt64 rt p v) (GoV1.encodeInt64 rt (view p h) v) := by
  enc o
  intro q n h' oq _
  simp only []
  split
  · exact varintLoop_refines rt _ _ _ (Nat.le_refl _) oq
  · exact varintLoop_refines rt _ _ _ (Nat.le_refl _) oq

theorem encodeUint8_refines (rt : Runtime) {p : Slice} {h : Heap} (o : p.Ok h) (v) : Refines h p (encodeUint8 rt p v) (GoV1.encodeUint8 rt (view p h) v) := by
  enc o
  intro q n h' oq _
  exact append_refines rt oq _

theorem encodeBool_refines (rt : Runtime) {p : Slice} {h : Heap} (o : p.Ok h) (v) : Refines h p (encodeBool rt p v) (GoV1.encodeBool rt (view p h) v) := by
  enc o
  intro q n h' oq _
  cases v <;> exact append_refines rt oq _

theorem encodeFloat32_refines (rt : Runtime) {p : Slice} {h : Heap} (o : p.Ok h) (v) : Refines h p (encodeFloat32 rt p v) (GoV1.encodeFloat32 rt (view p h) v) := by
  enc o
  intro q n h' oq _
  exact append_refines rt oq _

theorem encodeFloat64_refines (rt : Runtime) {p : Slice} {h : Heap} (o : p.Ok h) (v) : Refines h p (encodeFloat64 rt p v) (GoV1.encodeFloat64 rt (view p h) v) := by
  enc o
  intro q n h' oq _
  exact append_refines rt oq _

theorem encodeString_refines (rt : Runtime) {p : Slice} {h : Heap} (o : p.Ok h) (v) : Refines h p (encodeString rt p v) (GoV1.encodeString rt (view p h) v) := by
  enc o
  intro q n h' oq _
  refine Refines.bind (encodeUint32_refines rt oq _) ?_
  intro q h' oq _
  enc oq
  intro q n h' oq _
  exact Refines.pure oq

theorem encodeError_refines (rt : Runtime) {p : Slice} {h : Heap} (o : p.Ok h) (v) : Refines h p (encodeError rt p v) (GoV1.encodeError rt (view p h) v) := by
  enc o
  intro q n h' oq _
  cases v with
  | none => trivial
  | some m => exact encodeString_refines rt oq m

theorem encodeMapValue_refines (rt : Runtime) {p : Slice} {h : Heap} (o : p.Ok h) (size k v) :
    Refines h p (encodeMapValue rt p size k v) (GoV1.encodeMap rt (view p h) size k v) := by
  enc o
  intro q n h' oq _
  enc oq
  intro q n h' oq _
  enc oq
  intro q n h' oq _
  exact encodeUint32_refines rt oq _

theorem encodeSliceValue_refines (rt : Runtime) {p : Slice} {h : Heap} (o : p.Ok h) (size k) :
    Refines h p (encodeSliceValue rt p size k) (GoV1.encodeSlice rt (view p h) size k) := by
  enc o
  intro q n h' oq _
  enc oq
  intro q n h' oq _
  exact encodeUint32_refines rt oq _

theorem encodeBytes_refines (rt : Runtime) {p w : Slice} {h : Heap} (o : p.Ok h) (ow : w.Ok h) (ap : Apart w p p.len) :
    Refines h p (encodeBytes rt p w) (GoV1.encodeBytes rt (view p h) (w.bytes h)) := by
  unfold encodeBytes GoV1.encodeBytes
  rw [bytes_length ow]
  enc o
  intro q n h1 oq e1
  refine Refines.bind (encodeUint32_refines rt oq _) ?_
  intro r h2 or e2
  have e := e1.trans e2
  have hw : w.bytes h2 = w.bytes h := e.bytes ow ap
  rw [← hw]
  refine RefinesN.bind (Write_refines rt or (e.ok ow)) ?_
  intro q n h' oq _
  exact Refines.pure oq

theorem encodeMap_refines (rt : Runtime) {p k v : Slice} {h : Heap} (o : p.Ok h) (size) (ok : k.Ok h) (ov : v.Ok h) (ak : Apart k p p.len) (av : Apart v p p.len) :
    Refines h p (encodeMap rt p size k v) (GoV1.encodeMap rt (view p h) size (k.bytes h) (v.bytes h)) := by
  unfold encodeMap GoV1.encodeMap
  enc o
  intro q n h1 oq e1
  rw [← e1.bytes ok ak]
  refine RefinesN.bind (Write_refines rt oq (e1.ok ok)) ?_
  intro q n h2 oq e2
  rw [← (e1.trans e2).bytes ov av]
  refine RefinesN.bind (Write_refines rt oq ((e1.trans e2).ok ov)) ?_
  intro q n h3 oq e3
  exact encodeUint32_refines rt oq _

theorem encodeSlice_refines (rt : Runtime) {p k : Slice} {h : Heap} (o : p.Ok h) (size) (ok : k.Ok h) (ak : Apart k p p.len) :
    Refines h p (encodeSlice rt p size k) (GoV1.encodeSlice rt (view p h) size (k.bytes h)) := by
  unfold encodeSlice GoV1.encodeSlice
  enc o
  intro q n h1 oq e1
  rw [← e1.bytes ok ak]
  refine RefinesN.bind (Write_refines rt oq (e1.ok ok)) ?_
  intro q n h2 oq e2
  exact encodeUint32_refines rt oq _

/-! ## Calls -/

/-- The operation on the abstract byte log that a call asks for, with the contents its arguments have in `h`. -/
def Call.op (h : Heap) : Call → LogOp
  | .encode i => .encode i
  | .bytes w => .encode (.bytes (w.bytes h))
  | .map size k v => .write ([kMap] ++ k.bytes h ++ v.bytes h ++ wire (.uint32 size))
  | .slice size k => .write ([kSlice] ++ k.bytes h ++ wire (.uint32 size))
  | .write w => .write (w.bytes h)
  | .reset => .reset

theorem bytes_view {p : Slice} {h : Heap} (o : p.Ok h) : (view p h).Bytes = p.bytes h := by
  have := o.len
  simp only [Buffer.Bytes, view, Slice.full, Slice.bytes, List.take_take]
  congr 1; omega

theorem view_ok {p : Slice} {h : Heap} (o : p.Ok h) : (view p h).Ok := by
  unfold Buffer.Ok
  rw [view_cap o]; exact o.len

theorem encodeMap_app (rt : Runtime) (b : Buffer) (size : BitVec 32) (k v : Kind) (ob : b.Ok) :
    ∃ b', GoV1.encodeMap rt b size k v = .ok b' ∧ App b b' ([kMap] ++ k ++ v ++ wire (.uint32 size)) := by
  obtain ⟨b1, e1, a1⟩ := Write_spec rt b MapKind ob
  obtain ⟨b2, e2, a2⟩ := Write_spec rt b1 k a1.1
  obtain ⟨b3, e3, a3⟩ := Write_spec rt b2 v a2.1
  obtain ⟨b4, e4, a4⟩ := encodeItem_spec rt b3 (.uint32 size) a3.1 trivial
  refine ⟨b4, ?_, ((a1.trans a2).trans a3).trans a4⟩
  simp only [GoV1.encodeMap, e1, e2, e3, Go.bind_ok]
  exact e4

theorem encodeSlice_app (rt : Runtime) (b : Buffer) (size : BitVec 32) (k : Kind) (ob : b.Ok) :
    ∃ b', GoV1.encodeSlice rt b size k = .ok b' ∧ App b b' ([kSlice] ++ k ++ wire (.uint32 size)) := by
  obtain ⟨b1, e1, a1⟩ := Write_spec rt b SliceKind ob
  obtain ⟨b2, e2, a2⟩ := Write_spec rt b1 k a1.1
  obtain ⟨b4, e4, a4⟩ := encodeItem_spec rt b2 (.uint32 size) a2.1 trivial
  refine ⟨b4, ?_, (a1.trans a2).trans a4⟩
  simp only [GoV1.encodeSlice, e1, e2, Go.bind_ok]
  exact e4

/-- The call does not reset the buffer. -/
def Call.Forward : Call → Prop
  | .reset => False
  | _ => True

/-- What a call other than `Reset` does. -/
theorem forward_spec (rt : Runtime) {p : Slice} {h : Heap} (o : p.Ok h) (c : Call) (hc : c.Proper) (hf : c.Forward)
    (ha : ∀ w ∈ c.args, w.Ok h ∧ Apart w p p.len) (hfit : ∀ i, c.op h = .encode i → i.Fits) :
    ∃ q h', c.run rt p h = .ok (q, h') ∧ q.Ok h' ∧ q.bytes h' = (c.op h).apply (p.bytes h) ∧ Eff h p h' q := by
  have vo := view_ok o
  have fin : ∀ {x : H Slice} {y : Go Buffer} {v : _root_.Bytes}, Refines h p x y → (∃ b', y = .ok b' ∧ App (view p h) b' v) →
      ∃ q h', x h = .ok (q, h') ∧ q.Ok h' ∧ q.bytes h' = p.bytes h ++ v ∧ Eff h p h' q := by
    rintro x y v hr ⟨b', rfl, a⟩
    unfold Refines at hr
    cases hx : x h with
    | panic => rw [hx] at hr; exact hr.elim
    | ok r =>
      obtain ⟨q, h'⟩ := r
      rw [hx] at hr
      obtain ⟨e1, e2, e3⟩ := hr
      refine ⟨q, h', rfl, e2, ?_, e3⟩
      rw [← bytes_view e2, e1, a.2.1, bytes_view o]
  have item : ∀ i : Item, i.Fits → ∃ b', GoV1.encodeItem rt (view p h) i = .ok b' ∧ App (view p h) b' (wire i) :=
    fun i hi => encodeItem_spec rt (view p h) i vo hi
  cases c with
  | encode i =>
    have hi := item i (hfit i rfl)
    cases i with
    | nil => exact fin (encodeNil_refines rt o) hi
    | map size k v => exact fin (encodeMapValue_refines rt o _ _ _) hi
    | slice size k => exact fin (encodeSliceValue_refines rt o _ _) hi
    | bytes v => exact hc.elim
    | string v => exact fin (encodeString_refines rt o _) hi
    | error v => exact fin (encodeError_refines rt o (some v)) hi
    | bool v => exact fin (encodeBool_refines rt o _) hi
    | uint8 v => exact fin (encodeUint8_refines rt o _) hi
    | uint16 v => exact fin (encodeUint16_refines rt o _) hi
    | uint32 v => exact fin (encodeUint32_refines rt o _) hi
    | uint64 v => exact fin (encodeUint64_refines rt o _) hi
    | int32 v => exact fin (encodeInt32_refines rt o _) hi
    | int64 v => exact fin (encodeInt64_refines rt o _) hi
    | float32 v => exact fin (encodeFloat32_refines rt o _) hi
    | float64 v => exact fin (encodeFloat64_refines rt o _) hi
  | bytes w =>
    obtain ⟨ow, aw⟩ := ha w (List.mem_cons_self ..)
    exact fin (encodeBytes_refines rt o ow aw) (item (.bytes (w.bytes h)) (hfit _ rfl))
  | map size k v =>
    obtain ⟨ok, ak⟩ := ha k (by simp [Call.args])
    obtain ⟨ov, av⟩ := ha v (by simp [Call.args])
    exact fin (encodeMap_refines rt o size ok ov ak av) (encodeMap_app rt _ size _ _ vo)
  | slice size k =>
    obtain ⟨ok, ak⟩ := ha k (by simp [Call.args])
    exact fin (encodeSlice_refines rt o size ok ak) (encodeSlice_app rt _ size _ vo)
  | write w =>
    obtain ⟨ow, aw⟩ := ha w (List.mem_cons_self ..)
    obtain ⟨b', e1, a1⟩ := Write_spec rt (view p h) (w.bytes h) vo
    refine fin (x := Call.run rt p (.write w)) (y := (view p h).Write rt (w.bytes h) >>= fun x => pure x.1)
      (RefinesN.bind (Write_refines rt o ow) ?_) ⟨b', by rw [e1]; rfl, a1⟩
    intro q n h' oq _
    exact Refines.pure oq
  | reset => exact hf.elim

/-- What any call does to memory: it writes within the buffer's capacity, or moves the buffer to a new, larger array. -/
structure Eff0 (h : Heap) (p : Slice) (h' : Heap) (q : Slice) : Prop where
  next : h.next ≤ h'.next
  length : ∀ a < h.next, (h'.mem a).length = (h.mem a).length
  cells : ∀ a < h.next, ∀ i, a ≠ p.arr ∨ i < p.off ∨ p.off + p.cap ≤ i → (h'.mem a)[i]? = (h.mem a)[i]?
  place : (q.arr = p.arr ∧ q.off = p.off ∧ q.cap = p.cap) ∨ (h.next ≤ q.arr ∧ p.cap < q.cap)

theorem Eff.weaken {h h' : Heap} {p q : Slice} (e : Eff h p h' q) : Eff0 h p h' q :=
  ⟨e.next, e.length, fun a ha i hi => e.cells a ha i (hi.imp id (fun x => by omega)),
    e.place.imp (fun ⟨a, b, c, _⟩ => ⟨a, b, c⟩) id⟩

theorem Eff0.refl (h : Heap) (p : Slice) : Eff0 h p h p := (Eff.refl h p).weaken

theorem Eff0.trans {h1 h2 h3 : Heap} {p q r : Slice} (a : Eff0 h1 p h2 q) (b : Eff0 h2 q h3 r) : Eff0 h1 p h3 r := by
  have n := a.next
  refine ⟨Nat.le_trans a.next b.next, ?_, ?_, ?_⟩
  · intro x hx; rw [b.length x (by omega), a.length x hx]
  · intro x hx i hi
    rw [b.cells x (by omega) i, a.cells x hx i hi]
    rcases a.place with ⟨e1, e2, e3⟩ | ⟨e1, _⟩
    · rw [e1, e2, e3]; omega
    · left; omega
  · rcases a.place with ⟨e1, e2, e3⟩ | ⟨e1, e2⟩
    · rcases b.place with ⟨f1, f2, f3⟩ | ⟨f1, f2⟩
      · exact .inl ⟨f1.trans e1, f2.trans e2, f3.trans e3⟩
      · exact .inr ⟨by omega, by omega⟩
    · rcases b.place with ⟨f1, f2, f3⟩ | ⟨f1, f2⟩
      · exact .inr ⟨by omega, by omega⟩
      · exact .inr ⟨by omega, by omega⟩

theorem Eff0.mem {h h' : Heap} {p q : Slice} (e : Eff0 h p h' q) {a : Nat} (ha : a < h.next) (hne : a ≠ p.arr) : h'.mem a = h.mem a :=
  List.ext_getElem? fun i => e.cells a ha i (.inl hne)

theorem Eff0.arr {h h' : Heap} {p q : Slice} (e : Eff0 h p h' q) {a : Nat} (ha : a < h.next) (hne : a ≠ p.arr) : a ≠ q.arr := by
  rcases e.place with ⟨e, _⟩ | ⟨e, _⟩
  · rw [e]; exact hne
  · omega

theorem Eff0.ok {h h' : Heap} {p q w : Slice} (e : Eff0 h p h' q) (o : w.Ok h) : w.Ok h' :=
  ok_of_mem o e.next (e.length _ o.arr)

/-- What any call does. -/
theorem call_spec (rt : Runtime) {p : Slice} {h : Heap} (o : p.Ok h) (c : Call) (hc : c.Proper)
    (ha : ∀ w ∈ c.args, w.Ok h ∧ Apart w p p.len) (hfit : ∀ i, c.op h = .encode i → i.Fits) :
    ∃ q h', c.run rt p h = .ok (q, h') ∧ q.Ok h' ∧ q.bytes h' = (c.op h).apply (p.bytes h) ∧ Eff0 h p h' q := by
  by_cases hf : c.Forward
  · obtain ⟨q, h', e1, e2, e3, e4⟩ := forward_spec rt o c hc hf ha hfit
    exact ⟨q, h', e1, e2, e3, e4.weaken⟩
  · cases c with
    | reset =>
      refine ⟨{ p with len := 0 }, h, ?_, ⟨Nat.zero_le _, o.arr, o.fits⟩, by simp [Slice.bytes, Call.op, LogOp.apply], ⟨Nat.le_refl _, fun _ _ => rfl, fun _ _ _ _ => rfl, .inl ⟨rfl, rfl, rfl⟩⟩⟩
      rw [Call.run, Reset, Slice.slice, if_pos (by omega)]
      rfl
    | _ => exact absurd trivial hf

end GoV1.Heap
