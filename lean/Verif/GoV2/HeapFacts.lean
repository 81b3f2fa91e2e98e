import Verif.GoV2.HeapEncode
import Verif.GoV2.Log

/-! # The transcription over memory agrees with the transcription by contents: buffers and encoding -/

namespace GoV2.Heap

open Spec

/-- What the transcription by contents sees of a buffer. -/
def HBuffer.view (p : HBuffer) (h : Heap) : Buffer := { arr := p.b.full h, len := p.b.len, offset := p.offset }

theorem overwrite_get {L : Bytes} {i : Nat} {v : Bytes} (h : i + v.length ≤ L.length) (j : Nat) :
    (overwrite L i v)[j]? = if i ≤ j ∧ j < i + v.length then v[j - i]? else L[j]? := by
  simp only [overwrite, List.append_assoc]
  rw [List.getElem?_append]
  have hl : (List.take i L).length = i := by simp; omega
  rw [hl]
  by_cases h1 : j < i
  · rw [if_pos h1, if_neg (by omega), List.getElem?_take_of_lt h1]
  · rw [if_neg h1, List.getElem?_append]
    by_cases h2 : j - i < v.length
    · rw [if_pos h2, if_pos (by omega)]
    · rw [if_neg h2, if_neg (by omega), List.getElem?_drop]; congr 1; omega

theorem overwrite_len {L : Bytes} {i : Nat} {v : Bytes} (h : i + v.length ≤ L.length) : (overwrite L i v).length = L.length :=
  overwrite_length h

theorem window_get (L : Bytes) (off n j : Nat) : ((L.drop off).take n)[j]? = if j < n then L[off + j]? else none := by
  by_cases h : j < n
  · rw [if_pos h, List.getElem?_take_of_lt h, List.getElem?_drop]
  · rw [if_neg h]; exact List.getElem?_eq_none (by simp; omega)

theorem window_overwrite {L : Bytes} {off cap i : Nat} {v : Bytes} (h1 : i + v.length ≤ cap) (h2 : off + cap ≤ L.length) :
    ((overwrite L (off + i) v).drop off).take cap = overwrite ((L.drop off).take cap) i v := by
  have hl : ((L.drop off).take cap).length = cap := by simp; omega
  apply List.ext_getElem?
  intro j
  rw [window_get, overwrite_get (by omega), overwrite_get (by omega), window_get]
  by_cases hj : j < cap
  · simp only [hj, if_true]
    by_cases hc : i ≤ j ∧ j < i + v.length
    · rw [if_pos hc, if_pos (by omega)]; congr 1; omega
    · rw [if_neg hc, if_neg (by omega)]
  · rw [if_neg hj, if_neg (by omega), if_neg hj]

/-- Between two moments only cells of the slice's array from element `lo` of the slice up to its capacity have changed. -/
structure Inside (s : Slice) (lo : Nat) (h h' : Heap) : Prop where
  next : h'.next = h.next
  length : ∀ a, (h'.mem a).length = (h.mem a).length
  cells : ∀ a i, a ≠ s.arr ∨ i < s.off + lo ∨ s.off + s.cap ≤ i → (h'.mem a)[i]? = (h.mem a)[i]?

theorem Inside.refl (s : Slice) (lo : Nat) (h : Heap) : Inside s lo h h := ⟨rfl, fun _ => rfl, fun _ _ _ => rfl⟩

theorem Inside.trans {s : Slice} {lo : Nat} {h1 h2 h3 : Heap} (a : Inside s lo h1 h2) (b : Inside s lo h2 h3) : Inside s lo h1 h3 :=
  ⟨b.next.trans a.next, fun x => (b.length x).trans (a.length x), fun x i c => (b.cells x i c).trans (a.cells x i c)⟩

theorem Inside.ok {s t : Slice} {lo : Nat} {h h' : Heap} (a : Inside s lo h h') (o : t.Ok h) : t.Ok h' :=
  ⟨o.len, by rw [a.next]; exact o.arr, by rw [a.length]; exact o.fits⟩

theorem inside_overwrite {s : Slice} {lo : Nat} {h : Heap} (o : s.Ok h) {i : Nat} {v : Bytes} (hlo : lo ≤ i) (hi : i + v.length ≤ s.cap) :
    Inside s lo h (h.set s.arr (overwrite (h.mem s.arr) (s.off + i) v)) := by
  have hf := o.fits
  refine ⟨rfl, ?_, ?_⟩
  · intro a
    simp only [Heap.set]
    split
    · rename_i e; subst e; exact overwrite_len (by omega)
    · rfl
  · intro a j c
    simp only [Heap.set]
    split
    · rename_i e; subst e
      rw [overwrite_get (by omega), if_neg]
      rcases c with c | c | c
      · exact absurd rfl c
      · omega
      · omega
    · rfl

theorem full_overwrite {s : Slice} {h : Heap} (o : s.Ok h) {i : Nat} {v : Bytes} (hi : i + v.length ≤ s.cap) :
    s.full (h.set s.arr (overwrite (h.mem s.arr) (s.off + i) v)) = overwrite (s.full h) i v := by
  simp only [Slice.full, Heap.set, if_true]
  exact window_overwrite hi o.fits

theorem full_length {s : Slice} {h : Heap} (o : s.Ok h) : (s.full h).length = s.cap := by
  have := o.fits; simp [Slice.full]; omega

/-- The run of `x` from `h` does what `y` does, writing only inside `s`. -/
def Sim (s : Slice) (lo : Nat) (h : Heap) (x : H HBuffer) (y : Go Buffer) : Prop :=
  match x h, y with
  | .ok (q, h'), .ok b => q.b = s ∧ q.view h' = b ∧ Inside s lo h h'
  | .panic, .panic => True
  | _, _ => False

theorem Sim.pure {s : Slice} {lo : Nat} {h : Heap} {q : HBuffer} {b : Buffer} (h1 : q.b = s) (h2 : q.view h = b) : Sim s lo h (pure q) (pure b) :=
  ⟨h1, h2, Inside.refl s lo h⟩

theorem Sim.mono {s : Slice} {lo : Nat} {h h' : Heap} {x : H HBuffer} {y : Go Buffer} (i : Inside s lo h h') (a : Sim s lo h' x y) {z : H HBuffer} (e : z h = x h') :
    Sim s lo h z y := by
  simp only [Sim] at a ⊢
  rw [e]
  cases hx : x h' with
  | panic => rw [hx] at a; cases y <;> exact a
  | ok r =>
    rw [hx] at a
    cases y with
    | panic => exact a
    | ok b => exact ⟨a.1, a.2.1, i.trans a.2.2⟩

theorem bind_ok {α β : Type} {x : H α} {f : α → H β} {h h' : Heap} {a : α} (e : x h = .ok (a, h')) : (x >>= f) h = f a h' := by
  show H.bind x f h = _
  simp only [H.bind, e]

theorem bind_panic {α β : Type} {x : H α} {f : α → H β} {h : Heap} (e : x h = .panic) : (x >>= f) h = .panic := by
  show H.bind x f h = _
  simp only [H.bind, e]

theorem Sim.store {s : Slice} {lo : Nat} {h : Heap} (o : s.Ok h) {p : HBuffer} {b : Buffer} (hp : p.b = s) (hb : p.view h = b) (i : Int) (hlo : lo ≤ i.toNat) (v : Byte)
    {f : HBuffer → H HBuffer} {g : Buffer → Go Buffer}
    (k : ∀ h' b', s.Ok h' → p.view h' = b' → Inside s lo h h' → Sim s lo h' (f p) (g b')) :
    Sim s lo h (p.store i v >>= f) (b.store i v >>= g) := by
  subst hb
  by_cases hi : i < 0 ∨ (s.len : Int) ≤ i
  · have e1 : (p.store i v >>= f) h = .panic := by
      apply bind_panic
      rw [HBuffer.store]
      apply bind_panic
      simp only [Slice.store, hp, if_pos hi]
    have e2 : (p.view h).store i v = .panic := by
      have : (p.view h).len = s.len := by rw [← hp]; rfl
      rw [Buffer.store, if_pos (by rw [this]; exact hi)]
    simp only [Sim, e1, e2]; trivial
  · have hlt : i.toNat < s.len := by omega
    have hcap : i.toNat + [v].length ≤ s.cap := by have := o.len; simp; omega
    have hset : (h.mem s.arr).set (s.off + i.toNat) v = overwrite (h.mem s.arr) (s.off + i.toNat) [v] :=
      set_overwrite _ _ _ (by have := o.fits; have := o.len; omega)
    have hin := inside_overwrite o hlo hcap
    have hfull := full_overwrite o hcap
    have e1 : p.store i v h = .ok (p, h.set s.arr (overwrite (h.mem s.arr) (s.off + i.toNat) [v])) := by
      rw [HBuffer.store]
      refine (bind_ok (a := ()) (h' := h.set s.arr (overwrite (h.mem s.arr) (s.off + i.toNat) [v])) ?_).trans rfl
      simp only [Slice.store, hp, if_neg hi, hset]
    have e2 : (p.view h).store i v = .ok (p.view (h.set s.arr (overwrite (h.mem s.arr) (s.off + i.toNat) [v]))) := by
      have hl : (p.view h).len = s.len := by rw [← hp]; rfl
      rw [Buffer.store, if_neg (by rw [hl]; exact hi)]
      simp only [HBuffer.view, hp, hfull]
      congr 2
      exact set_overwrite _ _ _ (by rw [full_length o]; have := o.len; omega)
    rw [e2]
    exact Sim.mono hin (k _ _ (hin.ok o) rfl hin) (bind_ok e1)

theorem Sim.ite {s : Slice} {lo : Nat} {h : Heap} {c : Prop} [Decidable c] {x1 x2 : H HBuffer} {y1 y2 : Go Buffer}
    (a : c → Sim s lo h x1 y1) (b : ¬ c → Sim s lo h x2 y2) : Sim s lo h (if c then x1 else x2) (if c then y1 else y2) := by
  split
  · rename_i hc; exact a hc
  · rename_i hc; exact b hc

theorem Sim.copy {s : Slice} {lo : Nat} {h : Heap} (o : s.Ok h) {p : HBuffer} {b : Buffer} (hp : p.b = s) (hb : p.view h = b) (i : Int) (hlo : lo ≤ i.toNat) (v : Bytes) :
    Sim s lo h (p.copyString i v) (b.copyTail i v) := by
  subst hb
  have hl : (p.view h).len = s.len := by rw [← hp]; rfl
  have ha : (p.view h).arr = s.full h := by rw [← hp]; rfl
  have := o.len
  by_cases hi : i < 0 ∨ (s.len : Int) < i
  · have e1 : p.copyString i v h = .panic := by
      rw [HBuffer.copyString]
      apply bind_panic
      rw [Slice.slice, hp, if_neg (by omega)]; rfl
    have e2 : (p.view h).copyTail i v = .panic := by
      rw [Buffer.copyTail, copyInto, hl, if_pos hi]; rfl
    simp only [Sim, e1, e2]
  · have hn : i.toNat + (v.take (min (s.len - i.toNat) v.length)).length ≤ s.cap := by simp; omega
    have hin := inside_overwrite o hlo hn
    have hfull := full_overwrite o hn
    have e1 : p.copyString i v h = .ok ({ p with offset := i + (min (s.len - i.toNat) v.length : Nat) },
        h.set s.arr (overwrite (h.mem s.arr) (s.off + i.toNat) (v.take (min (s.len - i.toNat) v.length)))) := by
      rw [HBuffer.copyString]
      rw [bind_ok (a := ⟨s.arr, s.off + i.toNat, s.len - i.toNat, s.cap - i.toNat⟩) (h' := h) (by
        rw [Slice.slice, hp, if_pos (by omega)]; rfl)]
      rw [bind_ok (x := Slice.copy _ _) rfl]; rfl
    have e2 : (p.view h).copyTail i v = .ok ⟨overwrite (s.full h) i.toNat (v.take (min (s.len - i.toNat) v.length)), s.len, i + (min (s.len - i.toNat) v.length : Nat)⟩ := by
      rw [Buffer.copyTail, copyInto, hl, ha, if_neg hi, Go.bind_ok]
      simp only [Go.pure_eq]
    simp only [Sim, e1, e2]
    refine ⟨hp, ?_, hin⟩
    simp only [HBuffer.view, hp, hfull]

end GoV2.Heap
