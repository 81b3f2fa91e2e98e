import Verif.GoV1.HeapDecode
import Verif.GoV1.HeapHistory
import Verif.GoV1.Api

/-! # v1 decoding over memory agrees with the transcription by contents -/

namespace GoV1.Heap

open GoV2.Heap
open GoV2 (Runtime Err Outcome mk0 overwrite)

theorem kindAt_sim {h : Heap} (k : Kind) : SimR h Eq (kindAt k) (k.at 0) := by
  unfold SimR kindAt
  cases k.at 0 <;> simp

theorem SimR.kind {γ δ : Type} {h : Heap} {S : γ → δ → Prop} {k : Kind} {f : Byte → H γ} {g : Byte → Go δ}
    (e : ∀ x, SimR h S (f x) (g x)) : SimR h S (kindAt k >>= f) (k.at 0 >>= g) :=
  SimR.bind (kindAt_sim k) (by rintro u v rfl; exact e u)

/-- Related loop steps. -/
def StepR {σ τ : Type} (R : σ → τ → Prop) : ForInStep σ → ForInStep τ → Prop
  | .done a, .done b => R a b
  | .yield a, .yield b => R a b
  | _, _ => False

theorem SimR.forIn {σ τ : Type} {h : Heap} {R : σ → τ → Prop} {f : Nat → σ → H (ForInStep σ)} {g : Nat → τ → Go (ForInStep τ)}
    (step : ∀ i s t, R s t → SimR h (StepR R) (f i s) (g i t)) :
    ∀ (l : List Nat) (s : σ) (t : τ), R s t → SimR h R (ForIn.forIn l s f) (ForIn.forIn l t g) := by
  intro l
  induction l with
  | nil => intro s t r; exact SimR.pure r
  | cons i l ih =>
    intro s t r
    rw [List.forIn_cons, List.forIn_cons]
    refine SimR.bind (step i s t r) ?_
    intro u v huv
    cases u <;> cases v
    · exact SimR.pure huv
    · exact huv.elim
    · exact huv.elim
    · exact ih _ _ huv

/-- Related loop states: a result to return early, and the variables. -/
def LoopR {β γ : Type} (h : Heap) (b : Slice) (s : Option (Slice × β) × γ) (t : Option (_root_.Bytes × β) × γ) : Prop :=
  s.2 = t.2 ∧ match s.1, t.1 with
    | some x, some y => Dec h b x y
    | none, none => True
    | _, _ => False

macro "dec1" : tactic => `(tactic| repeat' (first
  | (refine SimR.ret ?_ ?_ rfl <;> assumption)
  | (apply SimR.at; intro _)
  | (apply SimR.kind; intro _)
  | (apply SimR.sliceFrom (by assumption) (by assumption); intro _ _ _)
  | (apply SimR.ite <;> intro _)))

theorem SimR.loop {β γ : Type} {h : Heap} {b : Slice} (o : b.Ok h) {f : Nat → Option (Slice × β) × γ → H (ForInStep (Option (Slice × β) × γ))}
    {g : Nat → Option (_root_.Bytes × β) × γ → Go (ForInStep (Option (_root_.Bytes × β) × γ))} {l : List Nat} {x : γ} {v : β}
    {F : Option (Slice × β) × γ → H (Slice × β)} {G : Option (_root_.Bytes × β) × γ → Go (_root_.Bytes × β)}
    (f1 : ∀ x, F (none, x) = Pure.pure (b, v)) (f2 : ∀ r x, F (some r, x) = Pure.pure r)
    (g1 : ∀ x, G (none, x) = Pure.pure (b.bytes h, v)) (g2 : ∀ r x, G (some r, x) = Pure.pure r)
    (step : ∀ i x e e', SimR h (StepR (LoopR h b)) (f i (e, x)) (g i (e', x))) :
    SimR h (Dec h b) (ForIn.forIn l (none, x) f >>= F) (ForIn.forIn l (none, x) g >>= G) := by
  refine SimR.bind (R := LoopR h b) (SimR.forIn ?_ _ _ _ ⟨rfl, trivial⟩) ?_
  · rintro i ⟨e, x⟩ ⟨e', y⟩ ⟨hxy, _⟩
    simp only at hxy
    subst hxy
    exact step i x e e'
  · rintro ⟨e, x⟩ ⟨e', y⟩ ⟨_, r⟩
    cases e <;> cases e'
    · rw [f1, g1]; exact SimR.ret (Rest.refl _) o rfl
    · exact r.elim
    · exact r.elim
    · rw [f2, g2]; exact SimR.pure r

macro "loop1" o:term:max : tactic => `(tactic| (
  refine SimR.loop $o (fun _ => rfl) (fun _ _ => rfl) (fun _ => rfl) (fun _ _ => rfl) ?_
  intro _ _ _ _
  repeat' (first
      | exact ⟨rfl, rfl, trivial⟩
      | exact ⟨rfl, rfl, Rest.refl _, $o, rfl, rfl⟩
      | (apply SimR.at; intro _)
      | (apply SimR.sliceFrom $o (Rest.refl _); intro _ hr ho; exact ⟨rfl, rfl, hr, ho, rfl, rfl⟩)
      | (apply SimR.ite <;> intro _))))

theorem decodeNil_sim {b : Slice} {h : Heap} (o : b.Ok h) : SimR h (Dec h b) (decodeNil b) (GoV1.decodeNil (b.bytes h)) := by
  have ab := Rest.refl b
  unfold decodeNil GoV1.decodeNil
  simp only [bytes_length o]
  dec1

theorem decodeBool_sim {b : Slice} {h : Heap} (o : b.Ok h) : SimR h (Dec h b) (decodeBool b) (GoV1.decodeBool (b.bytes h)) := by
  have ab := Rest.refl b
  unfold decodeBool GoV1.decodeBool
  simp only [bytes_length o]
  dec1

theorem decodeUint8_sim {b : Slice} {h : Heap} (o : b.Ok h) : SimR h (Dec h b) (decodeUint8 b) (GoV1.decodeUint8 (b.bytes h)) := by
  have ab := Rest.refl b
  unfold decodeUint8 GoV1.decodeUint8
  simp only [bytes_length o]
  dec1

theorem decodeFloat32_sim {b : Slice} {h : Heap} (o : b.Ok h) : SimR h (Dec h b) (decodeFloat32 b) (GoV1.decodeFloat32 (b.bytes h)) := by
  have ab := Rest.refl b
  unfold decodeFloat32 GoV1.decodeFloat32
  simp only [bytes_length o]
  dec1

theorem decodeFloat64_sim {b : Slice} {h : Heap} (o : b.Ok h) : SimR h (Dec h b) (decodeFloat64 b) (GoV1.decodeFloat64 (b.bytes h)) := by
  have ab := Rest.refl b
  unfold decodeFloat64 GoV1.decodeFloat64
  simp only [bytes_length o]
  dec1

theorem decodeUint16_sim {b : Slice} {h : Heap} (o : b.Ok h) : SimR h (Dec h b) (decodeUint16 b) (GoV1.decodeUint16 (b.bytes h)) := by
  have ab := Rest.refl b
  unfold decodeUint16 GoV1.decodeUint16
  simp only [bytes_length o, Std.Legacy.Range.forIn_eq_forIn_range']
  dec1
  loop1 o

theorem decodeUint32_sim {b : Slice} {h : Heap} (o : b.Ok h) : SimR h (Dec h b) (decodeUint32 b) (GoV1.decodeUint32 (b.bytes h)) := by
  have ab := Rest.refl b
  unfold decodeUint32 GoV1.decodeUint32
  simp only [bytes_length o, Std.Legacy.Range.forIn_eq_forIn_range']
  dec1
  loop1 o

theorem decodeUint64_sim {b : Slice} {h : Heap} (o : b.Ok h) : SimR h (Dec h b) (decodeUint64 b) (GoV1.decodeUint64 (b.bytes h)) := by
  have ab := Rest.refl b
  unfold decodeUint64 GoV1.decodeUint64
  simp only [bytes_length o, Std.Legacy.Range.forIn_eq_forIn_range']
  dec1
  loop1 o

theorem decodeInt32_sim {b : Slice} {h : Heap} (o : b.Ok h) : SimR h (Dec h b) (decodeInt32 b) (GoV1.decodeInt32 (b.bytes h)) := by
  have ab := Rest.refl b
  unfold decodeInt32 GoV1.decodeInt32
  simp only [bytes_length o, Std.Legacy.Range.forIn_eq_forIn_range']
  dec1
  loop1 o

theorem decodeInt64_sim {b : Slice} {h : Heap} (o : b.Ok h) : SimR h (Dec h b) (decodeInt64 b) (GoV1.decodeInt64 (b.bytes h)) := by
  have ab := Rest.refl b
  unfold decodeInt64 GoV1.decodeInt64
  simp only [bytes_length o, Std.Legacy.Range.forIn_eq_forIn_range']
  dec1
  loop1 o

theorem decodeMap_sim {b : Slice} {h : Heap} (o : b.Ok h) (k v : Kind) : SimR h (Dec h b) (decodeMap b k v) (GoV1.decodeMap (b.bytes h) k v) := by
  have ab := Rest.refl b
  unfold decodeMap GoV1.decodeMap
  simp only [bytes_length o]
  dec1
  rename_i r hr hor
  apply SimR.call hr (decodeUint32_sim hor)
  rintro r ⟨size, err⟩ hr hor
  dsimp only
  dec1

theorem decodeSlice_sim {b : Slice} {h : Heap} (o : b.Ok h) (k : Kind) : SimR h (Dec h b) (decodeSlice b k) (GoV1.decodeSlice (b.bytes h) k) := by
  have ab := Rest.refl b
  unfold decodeSlice GoV1.decodeSlice
  simp only [bytes_length o]
  dec1
  rename_i r hr hor
  apply SimR.call hr (decodeUint32_sim hor)
  rintro r ⟨size, err⟩ hr hor
  dsimp only
  dec1

theorem decodeString_sim {b : Slice} {h : Heap} (o : b.Ok h) : SimR h (Dec h b) (decodeString b) (GoV1.decodeString (b.bytes h)) := by
  have ab := Rest.refl b
  unfold decodeString GoV1.decodeString
  simp only [bytes_length o]
  dec1
  rename_i r hr hor
  apply SimR.call hr (decodeUint32_sim hor)
  rintro r ⟨size, err⟩ hr hor
  dsimp only
  rw [bytes_length hor]
  dec1
  rename_i hlt r2 hr2 hor2
  rw [← bind_assoc]
  refine SimR.bind (slice_read_sim (i := 0) hor (by omega)) ?_
  rintro u v rfl
  exact SimR.ret hr2 hor2 rfl

theorem decodeError_sim {b : Slice} {h : Heap} (o : b.Ok h) : SimR h (Dec h b) (decodeError b) (GoV1.decodeError (b.bytes h)) := by
  have ab := Rest.refl b
  unfold decodeError GoV1.decodeError
  simp only [bytes_length o]
  dec1
  rename_i r hr hor
  apply SimR.call hr (decodeString_sim hor)
  rintro r ⟨size, err⟩ hr hor
  dsimp only
  dec1

/-! ## Byte slices -/

/-- The room a new array for a payload of length `n` has beyond it: `make` (scratch nil) leaves none. -/
def retSlack (rt : Runtime) (ret : Option Slice) (n : Nat) : Nat :=
  match ret with
  | none => 0
  | some s => rt.slack s.cap n

/-- What decoding a byte slice does to memory: it writes at most within the capacity of the scratch slice and into new arrays;
the slice it returns lies there. -/
structure BytesEff (rt : Runtime) (h : Heap) (b : Slice) (ret : Option Slice) (x : Slice × Option Slice × Option Err) (h' : Heap)
    (y : _root_.Bytes × Option _root_.Bytes × Option Err) : Prop where
  rest : Rest b x.1
  ok : x.1.Ok h
  unread : x.1.bytes h = y.1
  err : x.2.2 = y.2.2
  value : x.2.1.map (fun s => s.bytes h') = y.2.1
  next : h.next ≤ h'.next
  length : ∀ a < h.next, (h'.mem a).length = (h.mem a).length
  cells : ∀ a < h.next, ∀ i, (∀ s, ret = some s → ¬ s.Reach a i) → (h'.mem a)[i]? = (h.mem a)[i]?
  place : ∀ v, x.2.1 = some v → v.Ok h' ∧ ∀ a i, v.Elem a i → h.next ≤ a ∨ ∃ s, ret = some s ∧ s.Reach a i
  failed : x.2.2 ≠ none → h' = h
  fresh : h'.next = h.next ∨ h'.next = h.next + 1 ∧ ∃ v, x.2.1 = some v ∧ v.len ≤ b.len ∧
    (h'.mem h.next).length = v.len + retSlack rt ret v.len

theorem read_front {b : Slice} {h : Heap} (o : b.Ok h) {size : Nat} (hl : size ≤ b.len) :
    (b.slice 0 size >>= fun x => x.read) h = .ok ((b.bytes h).take size, h) := by
  have := o.len
  rw [bind_ok (a := ⟨b.arr, b.off, size, b.cap⟩) (h' := h) (by
    rw [Slice.slice, if_pos (by omega)]; simp only [Int.toNat_natCast, Int.toNat_zero]; rfl)]
  simp only [Slice.read, Slice.bytes, List.take_take]
  congr 3; omega

theorem storeBytes_spec (rt : Runtime) {b : Slice} {h : Heap} (o : b.Ok h) (ret : Option Slice) (oret : ∀ s, ret = some s → s.Ok h)
    {size : Nat} (hl : size ≤ b.len) :
    ∃ v h', storeBytes rt b size ret h = .ok (v, h') ∧
      v.map (fun s => s.bytes h') = bytesResult (ret.map fun s => s.bytes h) ((b.bytes h).take size) ∧
      h.next ≤ h'.next ∧ (∀ a < h.next, (h'.mem a).length = (h.mem a).length) ∧
      (∀ a < h.next, ∀ i, (∀ s, ret = some s → ¬ s.Reach a i) → (h'.mem a)[i]? = (h.mem a)[i]?) ∧
      (∀ s, v = some s → s.Ok h' ∧ ∀ a i, s.Elem a i → h.next ≤ a ∨ ∃ s, ret = some s ∧ s.Reach a i) ∧
      (h'.next = h.next ∨ h'.next = h.next + 1 ∧ ∃ s, v = some s ∧ s.len = size ∧
        (h'.mem h.next).length = s.len + retSlack rt ret s.len) := by
  have hr := read_front o hl
  have hpl : ((b.bytes h).take size).length = size := by rw [List.length_take, bytes_length o]; omega
  generalize (b.bytes h).take size = payload at hr hpl
  unfold storeBytes
  cases ret with
  | none =>
    simp only [Option.getD_none]
    by_cases hz : 0 < size
    · rw [if_pos hz]
      have hm : make (size : Int) h = .ok (⟨h.next, 0, size, size⟩, h.alloc (mk0 size)) := by
        rw [make, if_neg (by omega)]; simp only [Int.toNat_natCast]
      have hr' : (b.slice 0 size >>= fun x => x.read) (h.alloc (mk0 size)) = .ok (payload, h.alloc (mk0 size)) := by
        have ha := o.arr
        have := read_front (h := h.alloc (mk0 size)) (b := b) (size := size) ⟨o.len, by simp [Heap.alloc]; omega, by
          simp only [Heap.alloc]; rw [if_neg (by omega)]; exact o.fits⟩ hl
        rw [this]
        have e : b.bytes (h.alloc (mk0 size)) = b.bytes h := bytes_congr fun i _ => by
          simp only [Heap.alloc]; rw [if_neg (by omega)]
        rw [e]
        have h2 := read_front o hl
        rw [hr] at h2
        injection h2 with h2
        injection h2 with h2
        rw [← h2]
      have hmin : min size payload.length = size := by omega
      have ho : overwrite (mk0 size) 0 payload = payload := by
        simp only [overwrite, List.take_zero, List.nil_append, Nat.zero_add]
        rw [List.drop_of_length_le (by simp; omega), List.append_nil]
      refine ⟨some ⟨h.next, 0, size, size⟩, (h.alloc (mk0 size)).set h.next payload, ?_, ?_, ?_, ?_, ?_, ?_, .inr ⟨rfl, _, rfl, rfl, by simp [Heap.set, hpl, retSlack]⟩⟩
      · rw [bind_ok hm, ← bind_assoc, bind_ok hr', bind_ok (a := size) (h' := (h.alloc (mk0 size)).set h.next payload)]
        · rfl
        · simp only [Slice.copy, hmin, Heap.alloc, if_true]
          rw [List.take_of_length_le (by omega), ho]
      · simp only [bytesResult, hpl, Option.getD_none, Option.map_none, List.length_nil, if_pos hz, Option.map_some, Slice.bytes, Heap.set, if_true, List.drop_zero]
        rw [List.take_of_length_le (by omega)]
      · simp only [Heap.set, Heap.alloc]; omega
      · intro a ha; simp only [Heap.set, Heap.alloc]; rw [if_neg (by omega), if_neg (by omega)]
      · intro a ha i _; simp only [Heap.set, Heap.alloc]; rw [if_neg (by omega), if_neg (by omega)]
      · rintro s ⟨rfl⟩
        refine ⟨⟨Nat.le_refl _, by simp [Heap.set, Heap.alloc], by simp [Heap.set, hpl]⟩, ?_⟩
        rintro a i ⟨rfl, _⟩
        exact .inl (Nat.le_refl _)
    · rw [if_neg hz]
      refine ⟨none, h, rfl, ?_, Nat.le_refl _, fun _ _ => rfl, fun _ _ _ _ => rfl, by simp, .inl rfl⟩
      simp [bytesResult, hpl, hz]
  | some r =>
    have or := oret r rfl
    have hrl := or.len
    have hrf := or.fits
    have hbl := bytes_length or
    have hReach : ∀ {n : Nat}, n ≤ r.cap → ∀ a i, (∀ s, some r = some s → ¬ s.Reach a i) → a ≠ r.arr ∨ i < r.off + 0 ∨ r.off + n ≤ i := by
      intro n hn a i hno
      have := hno r rfl
      simp only [Slice.Reach] at this
      by_cases ha : a = r.arr
      · right
        simp only [ha, true_and] at this
        omega
      · exact .inl ha
    simp only [Option.getD_some]
    by_cases hz : r.len < size
    · rw [if_pos hz]
      have hs : r.slice 0 0 h = .ok (⟨r.arr, r.off, 0, r.cap⟩, h) := by
        rw [Slice.slice, if_pos (by omega)]; rfl
      have res : bytesResult (Option.map (fun s => Slice.bytes s h) (some r)) payload = some payload := by
        simp [bytesResult, hbl, hpl, hz]
      by_cases hc : payload.length ≤ r.cap
      · have ot : (⟨r.arr, r.off, payload.length, payload.length⟩ : Slice).Ok h := ⟨Nat.le_refl _, or.arr, by simp only []; omega⟩
        have hin := inside_overwrite (lo := 0) (i := 0) (v := payload) ot (Nat.zero_le _) (by simp)
        have hfull := full_overwrite (i := 0) (v := payload) ot (by simp)
        refine ⟨some { r with len := payload.length }, h.set r.arr (overwrite (h.mem r.arr) (r.off + 0) payload), ?_, ?_, ?_, ?_, ?_, ?_, .inl rfl⟩
        · rw [bind_ok hs, ← bind_assoc, bind_ok hr]
          rw [bind_ok (a := { r with len := payload.length }) (h' := h.set r.arr (overwrite (h.mem r.arr) (r.off + 0) payload)) (by
            rw [GoV2.Heap.Slice.append, if_pos (by simp only []; omega)]; simp only [Nat.zero_add])]
          rfl
        · rw [res]
          simp only [Option.map_some]
          congr 1
          refine Eq.trans hfull ?_
          simp only [overwrite, Slice.full, List.take_zero, List.nil_append, Nat.zero_add]
          rw [List.drop_of_length_le (by simp; omega), List.append_nil]
        · exact Nat.le_of_eq hin.next.symm
        · intro a _; exact hin.length a
        · intro a _ i hno; exact hin.cells a i (hReach hc a i hno)
        · rintro s ⟨rfl⟩
          refine ⟨⟨hc, by rw [hin.next]; exact or.arr, by rw [hin.length]; exact hrf⟩, ?_⟩
          rintro a i ⟨k1, k2, k3⟩
          exact .inr ⟨r, rfl, k1, k2, by simp only at k3; omega⟩
      · have hb0 : (⟨r.arr, r.off, 0, r.cap⟩ : Slice).bytes h = [] := by simp [Slice.bytes]
        refine ⟨some ⟨h.next, 0, payload.length, (payload ++ mk0 (rt.slack r.cap payload.length)).length⟩,
          h.alloc (payload ++ mk0 (rt.slack r.cap payload.length)), ?_, ?_, ?_, ?_, ?_, ?_,
          .inr ⟨rfl, _, rfl, hpl, by simp [Heap.alloc, mk0, retSlack]⟩⟩
        · rw [bind_ok hs, ← bind_assoc, bind_ok hr]
          rw [bind_ok (a := ⟨h.next, 0, payload.length, (payload ++ mk0 (rt.slack r.cap payload.length)).length⟩)
            (h' := h.alloc (payload ++ mk0 (rt.slack r.cap payload.length))) (by
            rw [GoV2.Heap.Slice.append, if_neg (by simp only []; omega)]; simp only [Nat.zero_add, hb0, List.nil_append])]
          rfl
        · rw [res]; simp [Slice.bytes, Heap.alloc]
        · simp only [Heap.alloc]; omega
        · intro a ha; simp only [Heap.alloc]; rw [if_neg (by omega)]
        · intro a ha i _; simp only [Heap.alloc]; rw [if_neg (by omega)]
        · rintro s ⟨rfl⟩
          refine ⟨⟨by simp, by simp [Heap.alloc], by simp [Heap.alloc]⟩, ?_⟩
          rintro a i ⟨rfl, _⟩
          exact .inl (Nat.le_refl _)
    · rw [if_neg hz]
      have hmin : min r.len payload.length = payload.length := by omega
      have ot : (⟨r.arr, r.off, r.len, r.len⟩ : Slice).Ok h := ⟨Nat.le_refl _, or.arr, by simp only []; omega⟩
      have hin := inside_overwrite (lo := 0) (i := 0) (v := payload) ot (Nat.zero_le _) (by simp only []; omega)
      have hfull := full_overwrite (i := 0) (v := payload) ot (by simp only []; omega)
      refine ⟨some r, h.set r.arr (overwrite (h.mem r.arr) (r.off + 0) payload), ?_, ?_, ?_, ?_, ?_, ?_, .inl rfl⟩
      · rw [← bind_assoc, bind_ok hr]
        rw [bind_ok (a := payload.length) (h' := h.set r.arr (overwrite (h.mem r.arr) (r.off + 0) payload)) (by
          simp only [Slice.copy, hmin, List.take_length, Nat.add_zero])]
        rfl
      · simp only [Option.map_some, bytesResult, Option.getD_some, hbl, hpl, if_neg hz]
        congr 1
        refine Eq.trans hfull ?_
        simp only [overwrite, List.take_zero, List.nil_append, Nat.zero_add, hpl]
        rfl
      · exact Nat.le_of_eq hin.next.symm
      · intro a _; exact hin.length a
      · intro a _ i hno; exact hin.cells a i (hReach hrl a i hno)
      · rintro s ⟨rfl⟩
        refine ⟨⟨hrl, by rw [hin.next]; exact or.arr, by rw [hin.length]; exact hrf⟩, ?_⟩
        rintro a i ⟨k1, k2, k3⟩
        exact .inr ⟨r, rfl, k1, k2, by omega⟩

theorem content_tail (r : _root_.Bytes) (ret : Option _root_.Bytes) {n : Nat} (hl : n ≤ r.length) :
    (do
        let mut ret := ret
        let payload ← r.slice 0 n
        if (ret.getD []).length < n then
          if ret = none then
            ret := some (copyOver (List.replicate n 0) payload)
          else
            ret := some ((ret.getD []).take 0 ++ payload)
        else
          ret := ret.map (fun r => copyOver r payload)
        return (← r.sliceFrom n, ret, none) : Go (_root_.Bytes × Option _root_.Bytes × Option Err)) =
      .ok (r.drop n, bytesResult ret (r.take n), none) := by
  have hp : Bytes.slice r 0 n = .ok (r.take n) := by simp [Bytes.slice, hl]
  have hs : Bytes.sliceFrom r n = .ok (r.drop n) := by simp [Bytes.sliceFrom, hl]
  have hlen : (r.take n).length = n := by simp [hl]
  simp only [hp, hs, Go.bind_ok]
  cases ret with
  | none =>
    simp only [Option.getD_none, List.length_nil, bytesResult, hlen, Option.map_none, copyOver,
      List.length_replicate, Nat.min_self, if_true]
    by_cases hz : 0 < n
    · simp [hz, List.take_take, List.drop_replicate]
    · simp [hz]
  | some rt =>
    simp only [Option.getD_some, bytesResult, hlen, Option.map_some, copyOver, reduceCtorEq, if_false]
    by_cases hz : rt.length < n
    · simp [hz]
    · have : min rt.length n = n := by omega
      simp [hz, this, List.take_take]

theorem SimG.ofEq {α β : Type} {h h' : Heap} {R : α → Heap → β → Prop} {x : H α} {y : Go β} {a : α} {b : β} (hx : x h = .ok (a, h'))
    (hy : y = .ok b) (r : R a h' b) : SimG h R x y := by
  unfold SimG
  rw [hx, hy]; exact r

theorem decodeBytes_sim (rt : Runtime) {b : Slice} {h : Heap} (o : b.Ok h) (ret : Option Slice) (oret : ∀ s, ret = some s → s.Ok h) :
    SimG h (BytesEff rt h b ret) (decodeBytes rt b ret) (GoV1.decodeBytes (b.bytes h) (ret.map fun s => s.bytes h)) := by
  have fin : ∀ r, Rest b r → r.Ok h → SimG h (BytesEff rt h b ret) (pure (r, none, some .InvalidBytes)) (pure (r.bytes h, none, some .InvalidBytes)) :=
    fun r hr hor => ⟨hr, hor, rfl, rfl, rfl, Nat.le_refl _, fun _ _ => rfl, fun _ _ _ _ => rfl, by simp, fun _ => rfl, .inl rfl⟩
  unfold decodeBytes GoV1.decodeBytes
  simp only [bytes_length o]
  apply SimG.ite <;> intro _
  · apply SimG.at; intro _
    refine SimG.bind (kindAt_sim _) ?_
    rintro u v rfl
    apply SimG.ite <;> intro _
    · refine SimG.bind (sliceFrom_sim o 1) ?_
      rintro r _ ⟨hr, hor, rfl⟩
      refine SimG.bind (decodeUint32_sim hor) ?_
      rintro ⟨r2, size, err⟩ ⟨_, size', err'⟩ ⟨hr2, hor2, e1, e2⟩
      simp only at e1 hr2 hor2
      injection e2 with e2 e3
      subst e1 e2 e3
      simp only [bytes_length hor2]
      have hrr := hr.trans hr2
      apply SimG.ite <;> intro _
      · exact fin r2 hrr hor2
      · apply SimG.ite <;> intro hlt
        · have hl : size.toNat ≤ r2.len := by omega
          obtain ⟨v, h', s1, s2, s3, s4, s5, s6, s7⟩ := storeBytes_spec rt hor2 ret oret hl
          have ht := content_tail (r2.bytes h) (ret.map fun s => s.bytes h) (n := size.toNat) (by rw [bytes_length hor2]; exact hl)
          have hsf := sliceFrom_sim hor2 size.toNat
          have hb : (r2.bytes h).sliceFrom size.toNat = .ok ((r2.bytes h).drop size.toNat) := by
            rw [Bytes.sliceFrom, if_pos (by rw [bytes_length hor2]; exact hl)]
          have hx : ∀ g, r2.sliceFrom size.toNat g = .ok (⟨r2.arr, r2.off + size.toNat, r2.len - size.toNat, r2.cap - size.toNat⟩, g) := by
            intro g
            have := hor2.len
            rw [Slice.sliceFrom, Slice.slice, if_pos (by omega)]
            simp only [Int.toNat_natCast]; rfl
          unfold SimR at hsf
          rw [hx, hb] at hsf
          obtain ⟨_, q1, q2, q3⟩ := hsf
          exact SimG.ofEq (a := (⟨r2.arr, r2.off + size.toNat, r2.len - size.toNat, r2.cap - size.toNat⟩, v, none)) (h' := h')
            (by rw [bind_ok s1, bind_ok (hx h')]; rfl) ht ⟨hrr.trans q1, q2, q3, rfl, s2, s3, s4, s5, s6,
              fun hn => absurd rfl hn, s7.imp id fun ⟨k1, v, k2, k3, k4⟩ => ⟨k1, v, k2, by have := hrr.len; have := hrr.off; omega, k4⟩⟩
        · exact fin r2 hrr hor2
    · exact fin b (Rest.refl b) o
  · exact fin b (Rest.refl b) o

end GoV1.Heap
