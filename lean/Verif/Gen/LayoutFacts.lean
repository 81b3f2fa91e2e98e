import Verif.Gen.Layout
import Verif.Gen.Values
import Verif.GoV2.ApiFacts

/-! # Facts about layouts -/

namespace Gen

open Spec

theorem Scalar.FitsV2.fits {s : Scalar} (h : s.FitsV2) : s.Fits := by
  cases s <;> simp_all [Scalar.FitsV2, Scalar.Fits]
  omega

theorem fitsV2_fits_all : ∀ n, (∀ v : V, sizeOf v ≤ n → v.FitsV2 → v.Fits) ∧
    (∀ vs : List V, sizeOf vs ≤ n → FitsV2All vs → FitsAll vs) := by
  intro n
  induction n with
  | zero =>
    refine ⟨fun v hs => ?_, fun vs hs => ?_⟩
    · cases v <;> simp at hs
    · cases vs <;> simp at hs
  | succ n ih =>
    refine ⟨fun v hs h => ?_, fun vs hs h => ?_⟩
    · cases v <;> simp [V.FitsV2, V.Fits] at hs h ⊢
      · exact h.fits
      · exact ih.2 _ (by omega) h
      · exact ih.2 _ (by omega) h
      · exact ⟨fun s hs => (h.1 s hs).fits, ih.2 _ (by omega) h.2⟩
    · cases vs <;> simp [FitsV2All, FitsAll] at hs h ⊢
      exact ⟨ih.1 _ (by omega) h.1, ih.2 _ (by omega) h.2⟩

theorem V.FitsV2.fits {v : V} (h : v.FitsV2) : v.Fits := (fitsV2_fits_all (sizeOf v)).1 v (Nat.le_refl _) h

theorem Scalar.FitsV2.item {s : Scalar} (h : s.FitsV2) : s.item.FitsV2 := by
  cases s <;> simp_all [Scalar.FitsV2, Scalar.item, Item.FitsV2, Item.Fits]

/-- What holds of the items of scalars, of nil and of headers holds of all items of a layout. -/
theorem items_all (S : Schema) (P : Item → Prop) (Q : Scalar → Prop) (R : V → Prop) (hs : ∀ s, Q s → P s.item) (hn : R .nil → P .nil)
    (hh : ∀ n k, P (.slice n k)) (hm : ∀ n k l, P (.map n k l))
    (r1 : ∀ s, R (.scalar s) → Q s) (r2 : ∀ vs, R (.msg vs) → ∀ v ∈ vs, R v) (r3 : ∀ vs, R (.slice vs) → ∀ v ∈ vs, R v)
    (r4 : ∀ ks vs, R (.map ks vs) → (∀ s ∈ ks, Q s) ∧ ∀ v ∈ vs, R v) :
    ∀ n, (∀ v : V, sizeOf v ≤ n → R v → ∀ f, ∀ i ∈ v.items S f, P i) ∧
    (∀ vs : List V, sizeOf vs ≤ n → (∀ v ∈ vs, R v) → ∀ g fs, ∀ i ∈ itemsOf S g fs vs, P i) ∧
    (∀ vs : List V, sizeOf vs ≤ n → (∀ v ∈ vs, R v) → ∀ f, ∀ i ∈ itemsE S f vs, P i) ∧
    (∀ vs : List V, sizeOf vs ≤ n → (∀ v ∈ vs, R v) → ∀ f ks, (∀ s ∈ ks, Q s) → ∀ i ∈ itemsM S f ks vs, P i) := by
  intro n
  induction n with
  | zero =>
    refine ⟨fun v hs => ?_, fun vs hs => ?_, fun vs hs => ?_, fun vs hs => ?_⟩
    · cases v <;> simp at hs
    all_goals cases vs <;> simp at hs
  | succ n ih =>
    refine ⟨fun v hv h f i hi => ?_, fun vs hv h g fs i hi => ?_, fun vs hv h f i hi => ?_, fun vs hv h f ks hk i hi => ?_⟩
    · unfold V.items at hi
      split at hi <;> simp at hv hi
      · subst hi; exact hs _ (r1 _ h)
      · subst hi; exact hn h
      · rcases hi with hi | hi | hi <;> exact ih.2.1 _ (by omega) (r2 _ h) _ _ _ hi
      · rcases hi with rfl | hi
        · exact hh _ _
        · exact ih.2.2.1 _ (by omega) (r3 _ h) _ _ hi
      · subst hi; exact hm _ _ _
      · rcases hi with rfl | hi
        · exact hm _ _ _
        · exact ih.2.2.2 _ (by omega) (r4 _ _ h).2 _ _ (r4 _ _ h).1 _ hi
    · cases fs <;> cases vs <;> simp [itemsOf] at hi hv
      rename_i f fs v vs
      simp at h
      rcases hi with hi | hi
      · exact ih.1 _ (by omega) h.1 _ _ hi.2
      · exact ih.2.1 _ (by omega) h.2 _ _ _ hi
    · cases vs <;> simp [itemsE] at hi hv
      simp at h
      rcases hi with hi | hi
      · exact ih.1 _ (by omega) h.1 _ _ hi
      · exact ih.2.2.1 _ (by omega) h.2 _ _ hi
    · cases ks <;> cases vs <;> simp [itemsM] at hi hv
      simp at h hk
      rcases hi with rfl | hi | hi
      · exact hs _ hk.1
      · exact ih.1 _ (by omega) h.1 _ _ hi
      · exact ih.2.2.2 _ (by omega) h.2 _ _ hk.2 _ hi

theorem fitsV2All_iff (vs : List V) : FitsV2All vs ↔ ∀ v ∈ vs, v.FitsV2 := by
  induction vs with
  | nil => simp [FitsV2All]
  | cons v vs ih => simp [FitsV2All, ih]

theorem layout_fitsV2 (S : Schema) {v : V} (h : v.FitsV2) (m : Nat) : ∀ i ∈ S.layout m v, i.FitsV2 :=
  (items_all S Item.FitsV2 Scalar.FitsV2 V.FitsV2 (fun _ h => h.item) (fun _ => by simp [Item.FitsV2, Item.Fits])
    (fun _ _ => by simp [Item.FitsV2, Item.Fits]) (fun _ _ _ => by simp [Item.FitsV2, Item.Fits])
    (fun _ h => by simpa [V.FitsV2] using h) (fun _ h => by simpa [V.FitsV2, fitsV2All_iff] using h)
    (fun _ h => by simpa [V.FitsV2, fitsV2All_iff] using h) (fun _ _ h => by simpa [V.FitsV2, fitsV2All_iff] using h)
    (sizeOf v)).1 v (Nat.le_refl _) h _

end Gen
