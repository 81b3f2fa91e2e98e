import Verif.GoV2.HeapDecode
import Verif.GoV2.HeapCalls

/-! # The decoding functions over memory agree with those by contents -/

namespace GoV2.Heap

open Spec

/-- `r` is what is left of `b` after some elements at the front. -/
structure Rest (b r : Slice) : Prop where
  arr : r.arr = b.arr
  off : b.off ≤ r.off
  len : r.off + r.len = b.off + b.len
  cap : r.off + r.cap = b.off + b.cap

theorem Rest.refl (b : Slice) : Rest b b := ⟨rfl, Nat.le_refl _, rfl, rfl⟩

theorem Rest.trans {a b c : Slice} (h : Rest a b) (k : Rest b c) : Rest a c :=
  ⟨k.arr.trans h.arr, Nat.le_trans h.off k.off, k.len.trans h.len, k.cap.trans h.cap⟩

/-- The run of `x` from `h` leaves the memory alone and its result is related to that of `y`. -/
def SimR {α β : Type} (h : Heap) (R : α → β → Prop) (x : H α) (y : Go β) : Prop :=
  match x h, y with
  | .ok (a, h'), .ok b => h' = h ∧ R a b
  | .panic, .panic => True
  | _, _ => False

/-- Results of decoding functions: the same value, and unread parts with the same contents. -/
def Dec {β : Type} (h : Heap) (b : Slice) (x : Slice × β) (y : Bytes × β) : Prop :=
  Rest b x.1 ∧ x.1.Ok h ∧ x.1.bytes h = y.1 ∧ x.2 = y.2

theorem SimR.pure {α β : Type} {h : Heap} {R : α → β → Prop} {a : α} {b : β} (r : R a b) : SimR h R (Pure.pure a) (Pure.pure b) := ⟨rfl, r⟩

theorem SimR.ret {β : Type} {h : Heap} {b r : Slice} {bs : Bytes} {v : β} (a : Rest b r) (o : r.Ok h) (e : r.bytes h = bs) :
    SimR h (Dec h b) (Pure.pure (r, v)) (Pure.pure (bs, v)) := ⟨rfl, a, o, e, rfl⟩

theorem SimR.bind {α β γ δ : Type} {h : Heap} {R : α → β → Prop} {S : γ → δ → Prop} {x : H α} {y : Go β} {f : α → H γ} {g : β → Go δ}
    (a : SimR h R x y) (k : ∀ u v, R u v → SimR h S (f u) (g v)) : SimR h S (x >>= f) (y >>= g) := by
  unfold SimR at a
  cases hx : x h with
  | panic =>
    rw [hx] at a
    cases hy : y with
    | panic => unfold SimR; rw [bind_panic hx]; trivial
    | ok v => rw [hy] at a; exact a.elim
  | ok r =>
    rw [hx] at a
    cases hy : y with
    | panic => rw [hy] at a; exact a.elim
    | ok v =>
      rw [hy] at a
      obtain ⟨u, h'⟩ := r
      obtain ⟨rfl, r⟩ := a
      have := k u v r
      unfold SimR at this ⊢
      rw [bind_ok hx]; exact this

theorem SimR.ite {α β : Type} {h : Heap} {R : α → β → Prop} {c : Prop} [Decidable c] {x1 x2 : H α} {y1 y2 : Go β}
    (a : c → SimR h R x1 y1) (b : ¬ c → SimR h R x2 y2) : SimR h R (if c then x1 else x2) (if c then y1 else y2) := by
  split
  · rename_i hc; exact a hc
  · rename_i hc; exact b hc

theorem at_sim {s : Slice} {h : Heap} (i : Nat) : SimR h Eq (s.at i) ((s.bytes h).at i) := by
  unfold SimR
  simp only [Slice.at, Bytes.at]
  cases (s.bytes h)[i]? <;> simp

theorem SimR.at {γ δ : Type} {h : Heap} {S : γ → δ → Prop} {s : Slice} {i : Nat} {f : Byte → H γ} {g : Byte → Go δ}
    (k : ∀ x, SimR h S (f x) (g x)) : SimR h S (s.at i >>= f) ((s.bytes h).at i >>= g) :=
  SimR.bind (at_sim i) (by rintro u v rfl; exact k u)

theorem slice_bytes {s : Slice} {h : Heap} {i n c : Nat} : (⟨s.arr, s.off + i, n, c⟩ : Slice).bytes h = ((h.mem s.arr).drop (s.off + i)).take n := rfl

theorem sliceFrom_sim {s : Slice} {h : Heap} (o : s.Ok h) (i : Nat) :
    SimR h (fun r bs => Rest s r ∧ r.Ok h ∧ r.bytes h = bs) (s.sliceFrom i) ((s.bytes h).sliceFrom i) := by
  have hl := o.len
  have hf := o.fits
  unfold SimR
  simp only [Slice.sliceFrom, Slice.slice, Bytes.sliceFrom, bytes_length o]
  by_cases hi : i ≤ s.len
  · rw [if_pos (by omega), if_pos (by omega)]
    refine ⟨rfl, ⟨rfl, by simp, ?_, ?_⟩, ⟨?_, o.arr, ?_⟩, ?_⟩
    · simp only [Int.toNat_natCast]; omega
    · simp only [Int.toNat_natCast]; omega
    · simp only [Int.toNat_natCast]; omega
    · simp only [Int.toNat_natCast]; omega
    · simp only [Slice.bytes, Int.toNat_natCast, ← List.drop_drop, List.drop_take]
  · rw [if_neg (by omega), if_neg (by omega)]; trivial

theorem SimR.sliceFrom {γ δ : Type} {h : Heap} {S : γ → δ → Prop} {b s : Slice} (o : s.Ok h) (a : Rest b s) {i : Nat} {f : Slice → H γ} {g : Bytes → Go δ}
    (k : ∀ r, Rest b r → r.Ok h → SimR h S (f r) (g (r.bytes h))) : SimR h S (s.sliceFrom i >>= f) ((s.bytes h).sliceFrom i >>= g) :=
  SimR.bind (sliceFrom_sim o i) (by rintro u v ⟨x, y, rfl⟩; exact k u (a.trans x) y)

macro "dec_body" : tactic => `(tactic| repeat' (first
  | (refine SimR.ret ?_ ?_ rfl <;> assumption)
  | (apply SimR.at; intro _)
  | (apply SimR.sliceFrom (by assumption) (by assumption); intro _ _ _)
  | (apply SimR.ite <;> intro _)))

theorem decodeNil_sim {b : Slice} {h : Heap} (o : b.Ok h) : SimR h (Dec h b) (decodeNil b) (GoV2.decodeNil (b.bytes h)) := by
  have ab := Rest.refl b
  unfold decodeNil GoV2.decodeNil
  simp only [bytes_length o]
  dec_body

theorem decodeUint32_sim {b : Slice} {h : Heap} (o : b.Ok h) : SimR h (Dec h b) (decodeUint32 b) (GoV2.decodeUint32 (b.bytes h)) := by
  have ab := Rest.refl b
  unfold decodeUint32 GoV2.decodeUint32
  simp only [bytes_length o]
  dec_body

theorem decodeInt32_sim {b : Slice} {h : Heap} (o : b.Ok h) : SimR h (Dec h b) (decodeInt32 b) (GoV2.decodeInt32 (b.bytes h)) := by
  have ab := Rest.refl b
  unfold decodeInt32 GoV2.decodeInt32
  simp only [bytes_length o]
  dec_body

theorem decodeUint16_sim {b : Slice} {h : Heap} (o : b.Ok h) : SimR h (Dec h b) (decodeUint16 b) (GoV2.decodeUint16 (b.bytes h)) := by
  have ab := Rest.refl b
  unfold decodeUint16 GoV2.decodeUint16
  simp only [bytes_length o]
  dec_body

theorem decodeUint64_sim {b : Slice} {h : Heap} (o : b.Ok h) : SimR h (Dec h b) (decodeUint64 b) (GoV2.decodeUint64 (b.bytes h)) := by
  have ab := Rest.refl b
  unfold decodeUint64 GoV2.decodeUint64
  simp only [bytes_length o]
  dec_body

theorem decodeInt64_sim {b : Slice} {h : Heap} (o : b.Ok h) : SimR h (Dec h b) (decodeInt64 b) (GoV2.decodeInt64 (b.bytes h)) := by
  have ab := Rest.refl b
  unfold decodeInt64 GoV2.decodeInt64
  simp only [bytes_length o]
  dec_body

theorem decodeBool_sim {b : Slice} {h : Heap} (o : b.Ok h) : SimR h (Dec h b) (decodeBool b) (GoV2.decodeBool (b.bytes h)) := by
  have ab := Rest.refl b
  unfold decodeBool GoV2.decodeBool
  simp only [bytes_length o]
  dec_body

theorem decodeUint8_sim {b : Slice} {h : Heap} (o : b.Ok h) : SimR h (Dec h b) (decodeUint8 b) (GoV2.decodeUint8 (b.bytes h)) := by
  have ab := Rest.refl b
  unfold decodeUint8 GoV2.decodeUint8
  simp only [bytes_length o]
  dec_body

theorem decodeFloat32_sim {b : Slice} {h : Heap} (o : b.Ok h) : SimR h (Dec h b) (decodeFloat32 b) (GoV2.decodeFloat32 (b.bytes h)) := by
  have ab := Rest.refl b
  unfold decodeFloat32 GoV2.decodeFloat32
  simp only [bytes_length o]
  dec_body

theorem decodeFloat64_sim {b : Slice} {h : Heap} (o : b.Ok h) : SimR h (Dec h b) (decodeFloat64 b) (GoV2.decodeFloat64 (b.bytes h)) := by
  have ab := Rest.refl b
  unfold decodeFloat64 GoV2.decodeFloat64
  simp only [bytes_length o]
  dec_body

theorem SimR.call {β γ δ : Type} {h : Heap} {S : γ → δ → Prop} {b s : Slice} (a : Rest b s) {x : H (Slice × β)} {y : Go (Bytes × β)}
    (e : SimR h (Dec h s) x y) {f : Slice × β → H γ} {g : Bytes × β → Go δ}
    (k : ∀ r v, Rest b r → r.Ok h → SimR h S (f (r, v)) (g (r.bytes h, v))) : SimR h S (x >>= f) (y >>= g) :=
  SimR.bind e (by rintro ⟨u1, u2⟩ ⟨v1, v2⟩ ⟨x, y, z, t⟩; simp only at x y z t; subst z; subst t; exact k u1 u2 (a.trans x) y)

theorem decodeMap_sim {b : Slice} {h : Heap} (o : b.Ok h) (k v : Kind) : SimR h (Dec h b) (decodeMap b k v) (GoV2.decodeMap (b.bytes h) k v) := by
  have ab := Rest.refl b
  unfold decodeMap GoV2.decodeMap
  simp only [bytes_length o]
  dec_body
  rename_i r hr hor
  apply SimR.call hr (decodeUint32_sim hor)
  rintro r ⟨size, err⟩ hr hor
  dsimp only
  dec_body

theorem decodeSlice_sim {b : Slice} {h : Heap} (o : b.Ok h) (k : Kind) : SimR h (Dec h b) (decodeSlice b k) (GoV2.decodeSlice (b.bytes h) k) := by
  have ab := Rest.refl b
  unfold decodeSlice GoV2.decodeSlice
  simp only [bytes_length o]
  dec_body
  rename_i r hr hor
  apply SimR.call hr (decodeUint32_sim hor)
  rintro r ⟨size, err⟩ hr hor
  dsimp only
  dec_body

theorem slice_read_sim {s : Slice} {h : Heap} (o : s.Ok h) {i j : Nat} (hj : j ≤ s.len) :
    SimR h Eq (do (← s.slice i j).read) ((s.bytes h).slice i j) := by
  have hl := o.len
  have hf := o.fits
  unfold SimR
  simp only [Bytes.slice, bytes_length o]
  by_cases hi : i ≤ j
  · rw [if_pos (by omega), bind_ok (a := ⟨s.arr, s.off + i, j - i, s.cap - i⟩) (h' := h) (by
      rw [Slice.slice, if_pos (by omega)]; simp only [Int.toNat_natCast]; rfl)]
    refine ⟨rfl, ?_⟩
    simp only [Slice.bytes, ← List.drop_drop, List.take_take, List.drop_take]
    congr 1; omega
  · rw [if_neg (by omega), bind_panic (by rw [Slice.slice, if_neg (by omega)]; rfl)]; trivial

theorem decodeString_sim {b : Slice} {h : Heap} (o : b.Ok h) : SimR h (Dec h b) (decodeString b) (GoV2.decodeString (b.bytes h)) := by
  have ab := Rest.refl b
  unfold decodeString GoV2.decodeString
  simp only [bytes_length o]
  dec_body
  rename_i r hr hor
  apply SimR.call hr (decodeUint32_sim hor)
  rintro r ⟨size, err⟩ hr hor
  dsimp only
  rw [bytes_length hor]
  dec_body
  rename_i hlt r2 hr2 hor2
  rw [← bind_assoc]
  refine SimR.bind (slice_read_sim (i := 0) hor (by omega)) ?_
  rintro u v rfl
  exact SimR.ret hr2 hor2 rfl

theorem decodeError_sim {b : Slice} {h : Heap} (o : b.Ok h) : SimR h (Dec h b) (decodeError b) (GoV2.decodeError (b.bytes h)) := by
  have ab := Rest.refl b
  unfold decodeError GoV2.decodeError
  simp only [bytes_length o]
  dec_body
  rename_i r hr hor
  apply SimR.call hr (decodeString_sim hor)
  rintro r ⟨size, err⟩ hr hor
  dsimp only
  dec_body

/-! ## Byte slices -/

/-- What decoding a byte slice does to memory: nothing on failure; otherwise the result is the front of the scratch slice,
or a new array when that is too small. -/
def BytesEff (rt : Runtime) (h : Heap) (b ret : Slice) (x : Slice × Slice × Option Err) (h' : Heap) (y : Bytes × Bytes × Option Err) : Prop :=
  Rest b x.1 ∧ x.1.Ok h ∧ x.1.bytes h = y.1 ∧ x.2.2 = y.2.2 ∧ x.2.1.bytes h' = y.2.1 ∧
  ((y.2.2 ≠ none ∧ x.2.1 = ⟨0, 0, 0, 0⟩ ∧ h' = h) ∨
   (y.2.2 = none ∧ x.2.1.Ok h' ∧ (y.2.1.length ≤ ret.cap ∧ x.2.1 = { ret with len := y.2.1.length } ∧
      Inside ⟨ret.arr, ret.off, y.2.1.length, y.2.1.length⟩ 0 h h')) ∨
   (y.2.2 = none ∧ x.2.1.Ok h' ∧ ret.cap < y.2.1.length ∧ x.2.1.arr = h.next ∧ h'.next = h.next + 1 ∧ (∀ a < h.next, h'.mem a = h.mem a) ∧
      (h'.mem h.next).length = x.2.1.len + rt.slack ret.cap x.2.1.len ∧ x.2.1.len ≤ b.len))

def SimG {α β : Type} (h : Heap) (R : α → Heap → β → Prop) (x : H α) (y : Go β) : Prop :=
  match x h, y with
  | .ok (a, h'), .ok b => R a h' b
  | .panic, .panic => True
  | _, _ => False

theorem SimG.bind {α β γ δ : Type} {h : Heap} {R : α → β → Prop} {S : γ → Heap → δ → Prop} {x : H α} {y : Go β} {f : α → H γ} {g : β → Go δ}
    (a : SimR h R x y) (k : ∀ u v, R u v → SimG h S (f u) (g v)) : SimG h S (x >>= f) (y >>= g) := by
  unfold SimR at a
  cases hx : x h with
  | panic =>
    rw [hx] at a
    cases hy : y with
    | panic => unfold SimG; rw [bind_panic hx]; trivial
    | ok v => rw [hy] at a; exact a.elim
  | ok r =>
    rw [hx] at a
    cases hy : y with
    | panic => rw [hy] at a; exact a.elim
    | ok v =>
      rw [hy] at a
      obtain ⟨u, h'⟩ := r
      obtain ⟨rfl, r⟩ := a
      have := k u v r
      unfold SimG at this ⊢
      rw [bind_ok hx]; exact this

theorem SimG.at {γ δ : Type} {h : Heap} {S : γ → Heap → δ → Prop} {s : Slice} {i : Nat} {f : Byte → H γ} {g : Byte → Go δ}
    (k : ∀ x, SimG h S (f x) (g x)) : SimG h S (s.at i >>= f) ((s.bytes h).at i >>= g) :=
  SimG.bind (at_sim i) (by rintro u v rfl; exact k u)

theorem SimG.ite {α β : Type} {h : Heap} {R : α → Heap → β → Prop} {c : Prop} [Decidable c] {x1 x2 : H α} {y1 y2 : Go β}
    (a : c → SimG h R x1 y1) (b : ¬ c → SimG h R x2 y2) : SimG h R (if c then x1 else x2) (if c then y1 else y2) := by
  split
  · rename_i hc; exact a hc
  · rename_i hc; exact b hc

theorem bytes_tail {b ret : Slice} {h : Heap} (rt : Runtime) (o : b.Ok h) (oret : ret.Ok h) {offset size : Int} (h1 : 0 ≤ offset) (h2 : 0 ≤ size) (hlt : size + offset ≤ b.len) :
    SimG h (BytesEff rt h b ret) (do
          let rest ← b.sliceFrom (size + offset).toNat
          let ret0 ← ret.slice 0 0
          let payload ← b.slice offset (size + offset)
          let value ← ret0.append rt (← payload.read)
          return (rest, value, none)) (do
          let rest ← (b.bytes h).sliceFrom (size + offset).toNat
          let payload ← (b.bytes h).slice offset.toNat (size + offset).toNat
          return (rest, List.take 0 [] ++ payload, none)) := by
  refine SimG.bind (sliceFrom_sim o _) ?_
  rintro rest bs ⟨hr, hor, rfl⟩
  have hl := o.len
  have hrl := oret.len
  have hrf := oret.fits
  have hpay := slice_read_sim (i := offset.toNat) (j := (size + offset).toNat) o (by omega)
  have e : ((offset.toNat : Nat) : Int) = offset := by omega
  have e2 : (((size + offset).toNat : Nat) : Int) = size + offset := by omega
  rw [e, e2] at hpay
  have hs : SimR h (fun x y => y = [] ∧ x = (⟨ret.arr, ret.off, 0, ret.cap⟩ : Slice)) (ret.slice 0 0) (pure ([] : Bytes)) := by
    unfold SimR
    rw [Slice.slice, if_pos (by omega)]
    exact ⟨rfl, rfl, rfl⟩
  rw [show ((b.bytes h).slice offset.toNat (size + offset).toNat >>= fun payload => (pure (rest.bytes h, List.take 0 [] ++ payload, none) : Go (Bytes × Bytes × Option Err))) =
    (pure ([] : Bytes) >>= fun _ => (b.bytes h).slice offset.toNat (size + offset).toNat >>= fun payload => pure (rest.bytes h, List.take 0 [] ++ payload, none)) from rfl]
  refine SimG.bind hs ?_
  rintro _ _ ⟨-, rfl⟩
  rw [← bind_assoc]
  have hpay' : SimR h (fun x y => x = y ∧ y.length ≤ b.len) (do (← b.slice offset (size + offset)).read)
      ((b.bytes h).slice offset.toNat (size + offset).toNat) := by
    have hbl : ∀ v, (b.bytes h).slice offset.toNat (size + offset).toNat = .ok v → v.length ≤ b.len := by
      intro v hv
      rw [Bytes.slice] at hv
      split at hv
      · cases hv; simp only [List.length_take, List.length_drop, bytes_length o]; omega
      · cases hv
    unfold SimR at hpay ⊢
    revert hpay hbl
    cases (do (← b.slice offset (size + offset)).read : H Bytes) h with
    | panic => cases (b.bytes h).slice offset.toNat (size + offset).toNat <;> exact fun x _ => x
    | ok r =>
      cases (b.bytes h).slice offset.toNat (size + offset).toNat with
      | panic => exact fun x _ => x
      | ok v => exact fun x k => ⟨x.1, x.2, k v rfl⟩
  refine SimG.bind hpay' ?_
  rintro _ v ⟨rfl, hvl⟩
  rename_i v
  unfold SimG
  by_cases hc : v.length ≤ ret.cap
  · have hin := inside_overwrite (s := ⟨ret.arr, ret.off, v.length, v.length⟩) (lo := 0) (h := h) (i := 0) (v := v)
      ⟨Nat.le_refl _, oret.arr, by simp only []; omega⟩ (Nat.zero_le _) (by simp)
    have hfull := full_overwrite (s := ⟨ret.arr, ret.off, v.length, v.length⟩) (h := h) (i := 0) (v := v)
      ⟨Nat.le_refl _, oret.arr, by simp only []; omega⟩ (by simp)
    rw [bind_ok (a := { ret with len := v.length }) (h' := h.set ret.arr (overwrite (h.mem ret.arr) (ret.off + 0) v)) (by
      rw [Slice.append, if_pos (by simp only []; omega)]; simp only [Nat.zero_add])]
    refine ⟨hr, hor, rfl, rfl, ?_, .inr (.inl ⟨rfl, ⟨hc, ?_, ?_⟩, hc, rfl, hin⟩)⟩
    · refine Eq.trans hfull ?_
      simp only [overwrite, Slice.full, List.take_zero, List.nil_append, Nat.zero_add]
      rw [List.drop_of_length_le (by simp; omega), List.append_nil]
    · exact oret.arr
    · show _ ≤ ((h.set _ _).mem _).length
      have := hin.length ret.arr
      simp only [] at this
      rw [this]; exact hrf
  · have hb0 : (⟨ret.arr, ret.off, 0, ret.cap⟩ : Slice).bytes h = [] := by simp [Slice.bytes]
    rw [bind_ok (a := ⟨h.next, 0, v.length, (v ++ mk0 (rt.slack ret.cap v.length)).length⟩) (h' := h.alloc (v ++ mk0 (rt.slack ret.cap v.length))) (by
      rw [Slice.append, if_neg (by simp only []; omega)]; simp only [Nat.zero_add, hb0, List.nil_append])]
    refine ⟨hr, hor, rfl, rfl, ?_, .inr (.inr ⟨rfl, ⟨by simp, by simp [Heap.alloc], by simp [Heap.alloc]⟩, ?_, rfl, rfl, ?_⟩)⟩
    · simp [Slice.bytes, Heap.alloc]
    · simp only [List.take_zero, List.nil_append]; omega
    · refine ⟨?_, by simp [Heap.alloc, mk0], hvl⟩
      intro a ha
      simp only [Heap.alloc]; rw [if_neg (by omega)]

theorem decodeBytes_sim {b ret : Slice} {h : Heap} (rt : Runtime) (o : b.Ok h) (oret : ret.Ok h) :
    SimG h (BytesEff rt h b ret) (decodeBytes rt b ret) (GoV2.decodeBytes (b.bytes h) []) := by
  have fin : SimG h (BytesEff rt h b ret) (pure (b, ⟨0, 0, 0, 0⟩, some .InvalidBytes)) (pure (b.bytes h, [], some .InvalidBytes)) :=
    ⟨Rest.refl b, o, rfl, rfl, by simp [Slice.bytes], .inl ⟨by simp, rfl, rfl⟩⟩
  unfold decodeBytes GoV2.decodeBytes
  simp only [bytes_length o]
  repeat' (first | exact fin | (apply SimG.at; intro _) | (apply SimG.ite <;> intro _) | (refine bytes_tail rt o oret ?_ ?_ ?_ <;> omega))

end GoV2.Heap
