import Verif.Gen.V1Style

/-!
# For which type the constructor of v1 code terminates
-/

namespace Gen

/-- An endless chain of types, each with a singular message field of the next. -/
def Schema.Endless (S : Schema) (m : Nat) : Prop :=
  ∃ c : Nat → Nat, c 0 = m ∧ ∀ i, ∃ r, .one .message (c (i + 1)) r ∈ S.fields (c i)

end Gen

namespace GoGen

open Gen

/-- What `New` returns does not depend on the stack, if that is large enough. -/
theorem new_stable {S : Schema} (h : S.GoSupported) {n m : Nat} {vs : List V} (hn : New v1 S n m = some vs) :
    ∃ N, ∀ k, N ≤ k → New v1 S k m = some vs := by
  obtain ⟨N, hN⟩ := allocatedAll_new h (fields_supported h m) (allocated_of_new h n m vs hn)
  refine ⟨N + 1, fun k hk => ?_⟩
  obtain ⟨k, rfl⟩ : ∃ j, k = j + 1 := ⟨k - 1, by omega⟩
  exact hN k (by omega)

theorem new_bound {S : Schema} (h : S.GoSupported) : ∀ fs : List Field, (∀ r c, .one .message r c ∈ fs → ∃ n vs, New v1 S n r = some vs) →
    ∃ N, ∀ r c, .one .message r c ∈ fs → (New v1 S N r).isSome
  | [], _ => ⟨0, fun r c h => by cases h⟩
  | f :: fs, hf => by
    have key : ∃ N, ∀ k, N ≤ k → ∀ r c, .one .message r c ∈ f :: fs → (New v1 S k r).isSome := by
      have : ∀ gs : List Field, (∀ r c, .one .message r c ∈ gs → ∃ n vs, New v1 S n r = some vs) → ∃ N, ∀ k, N ≤ k → ∀ r c, .one .message r c ∈ gs → (New v1 S k r).isSome := by
        intro gs
        induction gs with
        | nil => intro _; exact ⟨0, fun k _ r c h => by cases h⟩
        | cons g gs ih =>
          intro hg
          obtain ⟨N1, h1⟩ := ih fun r c hr => hg r c (List.mem_cons_of_mem _ hr)
          by_cases hm : ∃ r c, g = .one .message r c
          · obtain ⟨r, c, rfl⟩ := hm
            obtain ⟨n, vs, hn⟩ := hg r c (List.mem_cons_self ..)
            obtain ⟨N2, h2⟩ := new_stable h hn
            refine ⟨max N1 N2, fun k hk r' c' hr => ?_⟩
            rcases List.mem_cons.mp hr with e | hr
            · cases e; rw [h2 k (by omega)]; rfl
            · exact h1 k (by omega) r' c' hr
          · refine ⟨N1, fun k hk r c hr => ?_⟩
            rcases List.mem_cons.mp hr with e | hr
            · exact absurd ⟨r, c, e.symm⟩ hm
            · exact h1 k hk r c hr
      exact this _ hf
    obtain ⟨N, hN⟩ := key
    exact ⟨N, hN N (Nat.le_refl _)⟩

/-- A type whose `New` never returns has a field of such a type. -/
theorem new_stuck {S : Schema} (h : S.GoSupported) {m : Nat} (hm : ∀ n, New v1 S n m = none) :
    ∃ r, (∃ c, .one .message r c ∈ S.fields m) ∧ ∀ n, New v1 S n r = none := by
  refine Classical.byContradiction fun hc => ?_
  obtain ⟨N, hN⟩ := new_bound h (S.fields m) fun r c hr => by
    refine Classical.byContradiction fun hx => hc ⟨r, ⟨c, hr⟩, fun n => ?_⟩
    cases hn : New v1 S n r with
    | none => rfl
    | some vs => exact absurd ⟨n, vs, hn⟩ hx
  have := newFields_some (ver := v1) (new := New v1 S N) _ (fields_supported h m) hN
  have h2 := hm (N + 1)
  rw [New] at h2
  rw [h2] at this
  cases this

theorem newFields_none {new : Nat → Option (List V)} {r : Nat} {c : Bool} (h : new r = none) : ∀ fs : List Field, .one .message r c ∈ fs →
    newFields v1 new fs = none
  | [], hf => by cases hf
  | f :: fs, hf => by
    rcases List.mem_cons.mp hf with rfl | hf
    · have : (Field.one .message r c).Cardinality ≠ .repeated := by cases c <;> simp [Field.Cardinality]
      simp [newFields, newField, v1, Field.Kind, this, h]
    · rw [newFields, newFields_none h fs hf]
      cases newField v1 new f <;> rfl

/-- `New` never returns exactly for the types with an endless chain. -/
theorem new_endless {S : Schema} (h : S.GoSupported) (m : Nat) : (∀ n, New v1 S n m = none) ↔ S.Endless m := by
  constructor
  · intro hm
    let T := { m : Nat // ∀ n, New v1 S n m = none }
    let step : T → T := fun x => ⟨(new_stuck h x.2).choose, (new_stuck h x.2).choose_spec.2⟩
    let c : Nat → T := fun i => Nat.rec ⟨m, hm⟩ (fun _ x => step x) i
    exact ⟨fun i => (c i).1, rfl, fun i => (new_stuck h (c i).2).choose_spec.1⟩
  · rintro ⟨c, rfl, hc⟩ n
    have key : ∀ n i, New v1 S n (c i) = none := by
      intro n
      induction n with
      | zero => intro i; rfl
      | succ n ih =>
        intro i
        obtain ⟨r, hr⟩ := hc i
        exact newFields_none (ih (i + 1)) _ hr
    exact key n 0

end GoGen

namespace Gen

/-- No type has an endless chain exactly if the types can be ranked. -/
theorem endless_iff {S : Schema} (h : S.GoSupported) : S.FiniteSize ↔ ∀ m, ¬ S.Endless m := by
  constructor
  · rintro ⟨rank, hr⟩ m ⟨c, _, hc⟩
    have key : ∀ n i, rank (c i) < n → False := by
      intro n
      induction n with
      | zero => intro i h; omega
      | succ n ih =>
        intro i hi
        obtain ⟨r, hm⟩ := hc i
        have := hr _ _ hm _ r rfl
        exact ih (i + 1) (by omega)
    exact key _ 0 (Nat.lt_succ_self _)
  · intro hm
    have : ∀ m, ∃ vs, AllocatedAll S (S.fields m) vs := by
      intro m
      have := hm m
      rw [← GoGen.new_endless h] at this
      obtain ⟨n, hn⟩ := Classical.not_forall.mp this
      cases hv : GoGen.New GoGen.v1 S n m with
      | none => exact absurd hv hn
      | some vs => exact ⟨vs, allocated_of_new h n m vs hv⟩
    exact finite_of_style (w := ⟨fun m => (this m).choose, true⟩) ⟨fun m => (this m).choose_spec, rfl⟩

end Gen
