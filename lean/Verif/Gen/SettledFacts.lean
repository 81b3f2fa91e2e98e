import Verif.Gen.LayoutFacts
import Verif.Gen.RustValues

/-! # Facts about `settled` and `RustOk` -/

namespace Gen

open Spec

theorem settledAll_length (vs : List V) : (settledAll vs).length = vs.length := by
  induction vs with
  | nil => rfl
  | cons v vs ih => simp [settledAll, ih]

theorem settled_facts (S : Schema) : ∀ n,
    (∀ v : V, sizeOf v ≤ n → ∀ f, v.OfField S f → v.settled.OfField S f ∧ v.settled.items S f = v.items S f) ∧
    (∀ vs : List V, sizeOf vs ≤ n → ∀ fs, OfFields S fs vs → OfFields S fs (settledAll vs) ∧
      ∀ g, itemsOf S g fs (settledAll vs) = itemsOf S g fs vs) ∧
    (∀ vs : List V, sizeOf vs ≤ n → ∀ f, OfElems S f vs → OfElems S f (settledAll vs) ∧
      itemsE S f (settledAll vs) = itemsE S f vs ∧ ∀ ks, itemsM S f ks (settledAll vs) = itemsM S f ks vs) := by
  intro n
  induction n with
  | zero =>
    refine ⟨fun v hs => ?_, fun vs hs => ?_, fun vs hs => ?_⟩
    · cases v <;> simp at hs
    all_goals cases vs <;> simp at hs
  | succ n ih =>
    refine ⟨fun v hv f h => ?_, fun vs hv fs h => ?_, fun vs hv f h => ?_⟩
    · cases v with
      | scalar s => exact ⟨h, rfl⟩
      | nil => exact ⟨h, rfl⟩
      | msg vs =>
        simp at hv
        cases f <;> simp [V.OfField] at h
        obtain ⟨a, b⟩ := ih.2.1 vs (by omega) _ h.2
        simp only [V.settled, V.OfField, V.items]
        exact ⟨⟨h.1, a⟩, by rw [b, b, b]⟩
      | slice vs =>
        simp at hv
        cases f <;> simp [V.OfField] at h
        obtain ⟨a, b, _⟩ := ih.2.2 vs (by omega) _ h.2
        simp only [V.settled, V.OfField, V.items, settledAll_length]
        exact ⟨⟨by simpa using h.1, a⟩, by rw [b]⟩
      | nilMap =>
        cases f <;> simp [V.OfField] at h
        simp [V.settled, V.OfField, V.items, OfElems, itemsM]
      | map ks vs =>
        simp at hv
        cases f <;> simp [V.OfField] at h
        obtain ⟨a, _, b⟩ := ih.2.2 vs (by omega) _ h.2.2.2.2
        simp only [V.settled, V.OfField, V.items, settledAll_length]
        exact ⟨⟨h.1, by simpa using h.2.1, h.2.2.1, h.2.2.2.1, a⟩, by rw [b]⟩
    · cases fs <;> cases vs <;> simp [OfFields] at h
      · simp [settledAll, OfFields]
      · simp at hv
        obtain ⟨a, b⟩ := ih.1 _ (by omega) _ h.1
        obtain ⟨c, d⟩ := ih.2.1 _ (by omega) _ h.2
        simp only [settledAll, OfFields, itemsOf]
        exact ⟨⟨a, c⟩, fun g => by rw [b, d]⟩
    · cases vs with
      | nil => simp [settledAll, OfElems, itemsE, itemsM]
      | cons v vs =>
        simp only [OfElems] at h
        simp at hv
        obtain ⟨a, b⟩ := ih.1 _ (by omega) _ h.1
        obtain ⟨c, d, e⟩ := ih.2.2 _ (by omega) _ h.2
        simp only [settledAll, OfElems, itemsE]
        refine ⟨⟨a, c⟩, by rw [b, d], fun ks => ?_⟩
        cases ks <;> simp only [itemsM]
        rw [b, e]

theorem settled_typed {S : Schema} {v : V} {f : Field} (h : v.OfField S f) : v.settled.OfField S f :=
  ((settled_facts S (sizeOf v)).1 v (Nat.le_refl _) f h).1

theorem layout_settled {S : Schema} {m : Nat} {v : V} (h : v.OfField S (.one .message m false)) :
    S.layout m v.settled = S.layout m v := ((settled_facts S (sizeOf v)).1 v (Nat.le_refl _) _ h).2

theorem Scalar.RustOk.fits {S : Schema} {r : Nat} {s : Scalar} (h : s.RustOk S r) : s.Fits := by
  cases s <;> simp_all [Scalar.RustOk, Scalar.Fits]

/-- A value of a Rust struct has no nil, is settled, and has lengths below 2^32. -/
theorem rustOk_facts (S : Schema) : ∀ n,
    (∀ v : V, sizeOf v ≤ n → ∀ f, v.OfField S f → v.RustOk S f → v.NoNil ∧ v.Fits ∧ v.settled = v) ∧
    (∀ vs : List V, sizeOf vs ≤ n → ∀ fs, OfFields S fs vs → RustOkF S fs vs → NoNilAll vs ∧ FitsAll vs ∧ settledAll vs = vs) ∧
    (∀ vs : List V, sizeOf vs ≤ n → ∀ f, OfElems S f vs → RustOkE S f vs → NoNilAll vs ∧ FitsAll vs ∧ settledAll vs = vs) := by
  intro n
  induction n with
  | zero =>
    refine ⟨fun v hs => ?_, fun vs hs => ?_, fun vs hs => ?_⟩
    · cases v <;> simp at hs
    all_goals cases vs <;> simp at hs
  | succ n ih =>
    refine ⟨fun v hv f h hr => ?_, fun vs hv fs h hr => ?_, fun vs hv f h hr => ?_⟩
    · cases v <;> cases f <;> simp [V.RustOk] at hr <;> simp [V.OfField] at h <;> simp at hv
      · exact ⟨by simp [V.NoNil], by simpa [V.Fits] using hr.fits, rfl⟩
      · obtain ⟨a, b, c⟩ := ih.2.1 _ (by omega) _ h.2 hr
        exact ⟨by simpa [V.NoNil] using a, by simpa [V.Fits] using b, by simp [V.settled, c]⟩
      · obtain ⟨a, b, c⟩ := ih.2.2 _ (by omega) _ h.2 hr
        exact ⟨by simpa [V.NoNil] using a, by simpa [V.Fits] using b, by simp [V.settled, c]⟩
      · obtain ⟨a, b, c⟩ := ih.2.2 _ (by omega) _ h.2.2.2.2 hr.2
        refine ⟨by simpa [V.NoNil] using a, ?_, by simp [V.settled, c]⟩
        simp only [V.Fits]
        exact ⟨fun s hs => (hr.1 s hs).fits, b⟩
    · cases fs <;> cases vs <;> simp [OfFields] at h
      · simp [settledAll, NoNilAll, FitsAll]
      · simp at hv
        simp only [RustOkF] at hr
        obtain ⟨a, b, c⟩ := ih.1 _ (by omega) _ h.1 hr.1
        obtain ⟨d, e, g⟩ := ih.2.1 _ (by omega) _ h.2 hr.2
        simp only [settledAll, NoNilAll, FitsAll]
        exact ⟨⟨a, d⟩, ⟨b, e⟩, by rw [c, g]⟩
    · cases vs with
      | nil => simp [settledAll, NoNilAll, FitsAll]
      | cons v vs =>
        simp only [OfElems] at h
        simp only [RustOkE] at hr
        simp at hv
        obtain ⟨a, b, c⟩ := ih.1 _ (by omega) _ h.1 hr.1
        obtain ⟨d, e, g⟩ := ih.2.2 _ (by omega) _ h.2 hr.2
        simp only [settledAll, NoNilAll, FitsAll]
        exact ⟨⟨a, d⟩, ⟨b, e⟩, by rw [c, g]⟩

theorem V.RustOk.noNil {S : Schema} {v : V} {f : Field} (h : v.OfField S f) (hr : v.RustOk S f) : v.NoNil :=
  ((rustOk_facts S (sizeOf v)).1 v (Nat.le_refl _) f h hr).1
theorem V.RustOk.fits {S : Schema} {v : V} {f : Field} (h : v.OfField S f) (hr : v.RustOk S f) : v.Fits :=
  ((rustOk_facts S (sizeOf v)).1 v (Nat.le_refl _) f h hr).2.1
theorem V.RustOk.settled {S : Schema} {v : V} {f : Field} (h : v.OfField S f) (hr : v.RustOk S f) : v.settled = v :=
  ((rustOk_facts S (sizeOf v)).1 v (Nat.le_refl _) f h hr).2.2

theorem depth_settled : ∀ n, (∀ v : V, sizeOf v ≤ n → v.settled.depth = v.depth) ∧
    (∀ vs : List V, sizeOf vs ≤ n → depths (settledAll vs) = depths vs) := by
  intro n
  induction n with
  | zero =>
    refine ⟨fun v hs => ?_, fun vs hs => ?_⟩
    · cases v <;> simp at hs
    · cases vs <;> simp at hs
  | succ n ih =>
    refine ⟨fun v hv => ?_, fun vs hv => ?_⟩
    · cases v <;> simp at hv <;> simp [V.settled, V.depth, depths] <;> exact ih.2 _ (by omega)
    · cases vs <;> simp at hv <;> simp [settledAll, depths]
      rw [ih.1 _ (by omega), ih.2 _ (by omega)]

end Gen
