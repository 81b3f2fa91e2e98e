import Verif.Gen.GoDone
import Verif.Gen.GoSafe

/-!
# Which types the constructors of v1 code terminate for
-/

namespace Gen

theorem allocatedAll_build {S : Schema} : ∀ (fs : List Field), (∀ r c, Field.one .message r c ∈ fs → ∃ vs, AllocatedAll S (S.fields r) vs) → ∃ vs, AllocatedAll S fs vs
  | [], _ => ⟨[], .nil⟩
  | f :: fs, h => by
    obtain ⟨vs, hvs⟩ := allocatedAll_build fs fun r c hf => h r c (List.mem_cons_of_mem _ hf)
    by_cases hf : ∃ r c, f = .one .message r c
    · obtain ⟨r, c, rfl⟩ := hf
      obtain ⟨ws, hws⟩ := h r c (List.mem_cons_self ..)
      exact ⟨_, .cons _ _ _ _ (.message _ _ _ hws) hvs⟩
    · exact ⟨_, .cons _ _ _ _ (.other f fun r c e => hf ⟨r, c, e⟩) hvs⟩

/-- For types that do not contain themselves there is a new message of each type with all messages inside allocated. -/
theorem style_v1 {S : Schema} (h : S.FiniteSize) : ∃ w : Style, w.IsV1 S := by
  obtain ⟨rank, hr⟩ := h
  have key : ∀ n m, rank m < n → ∃ vs, AllocatedAll S (S.fields m) vs := by
    intro n
    induction n with
    | zero => intro m h; omega
    | succ n ih =>
      intro m hm
      refine allocatedAll_build _ fun r c hf => ih r ?_
      have := hr m _ hf r c rfl
      omega
  exact ⟨⟨fun m => (key (rank m + 1) m (by omega)).choose, true⟩, fun m => (key (rank m + 1) m (by omega)).choose_spec, rfl⟩

mutual
theorem allocated_unique {S : Schema} {f : Field} {v w : V} (h1 : Allocated S f v) (h2 : Allocated S f w) : v = w := by
  cases h1 with
  | message m c vs ha =>
    cases h2 with
    | message _ _ ws hb => rw [allocatedAll_unique ha hb]
    | other _ hne => exact absurd rfl (hne m c)
  | other _ hne =>
    cases h2 with
    | message m c ws hb => exact absurd rfl (hne m c)
    | other _ _ => rfl
theorem allocatedAll_unique {S : Schema} {fs : List Field} {vs ws : List V} (h1 : AllocatedAll S fs vs) (h2 : AllocatedAll S fs ws) : vs = ws := by
  cases h1 with
  | nil => cases h2; rfl
  | cons f v fs vs ha hb =>
    cases h2 with
    | cons _ w _ ws hc hd => rw [allocated_unique ha hc, allocatedAll_unique hb hd]
end

theorem allocatedAll_mem {S : Schema} : ∀ {fs : List Field} {vs : List V}, AllocatedAll S fs vs → ∀ {r c}, Field.one .message r c ∈ fs →
    ∃ ws, V.msg ws ∈ vs ∧ AllocatedAll S (S.fields r) ws
  | _, _, .nil, _, _, h => by cases h
  | _, _, .cons f v fs vs ha hb, r, c, h => by
    rcases List.mem_cons.mp h with rfl | h
    · cases ha with
      | message _ _ ws hw => exact ⟨ws, List.mem_cons_self .., hw⟩
      | other _ hne => exact absurd rfl (hne r c)
    · obtain ⟨ws, h1, h2⟩ := allocatedAll_mem hb h
      exact ⟨ws, List.mem_cons_of_mem _ h1, h2⟩

/-- And for no others. -/
theorem finite_of_style {S : Schema} {w : Style} (h : w.IsV1 S) : S.FiniteSize := by
  refine ⟨fun m => (V.msg (w.fresh m)).depth, ?_⟩
  rintro m _ hf r c rfl
  obtain ⟨ws, h1, h2⟩ := allocatedAll_mem (h.fresh m) hf
  rw [allocatedAll_unique h2 (h.fresh r)] at h1
  have := depth_le_depths h1
  show (V.msg (w.fresh r)).depth < (V.msg (w.fresh m)).depth
  rw [V.depth.eq_def (V.msg (w.fresh m))]
  simp only []
  omega

/-- What `New` returns has all messages inside allocated. -/
theorem allocated_of_new {S : Schema} (h : S.GoSupported) : ∀ (n m : Nat) (vs : List V), GoGen.New GoGen.v1 S n m = some vs → AllocatedAll S (S.fields m) vs := by
  intro n
  induction n with
  | zero => intro m vs h; cases h
  | succ n ih =>
    intro m vs hv
    rw [GoGen.New] at hv
    have hfs := GoGen.fields_supported h m
    revert hv vs
    generalize S.fields m = fs at hfs
    induction fs with
    | nil => intro vs hv; cases hv; exact .nil
    | cons f fs ihf =>
      intro vs hv
      rw [GoGen.newFields] at hv
      cases h1 : GoGen.newField GoGen.v1 (GoGen.New GoGen.v1 S n) f with
      | none => rw [h1] at hv; cases hv
      | some v =>
        cases h2 : GoGen.newFields GoGen.v1 (GoGen.New GoGen.v1 S n) fs with
        | none => rw [h1, h2] at hv; cases hv
        | some ws =>
          rw [h1, h2] at hv
          cases hv
          refine .cons _ _ _ _ ?_ (ihf (fun g hg => hfs g (List.mem_cons_of_mem _ hg)) ws h2)
          by_cases hf : ∃ r c, f = .one .message r c
          · obtain ⟨r, c, rfl⟩ := hf
            have hc : (Field.one .message r c).Cardinality ≠ .repeated := by cases c <;> simp [Field.Cardinality]
            simp only [GoGen.newField, GoGen.v1, Field.Kind, true_and, ne_eq, hc, not_false_eq_true, if_true] at h1
            replace h1 : Option.map V.msg (GoGen.New GoGen.v1 S n r) = some v := h1
            cases hn : GoGen.New GoGen.v1 S n r with
            | none => rw [hn] at h1; cases h1
            | some us =>
              rw [hn] at h1
              cases h1
              exact .message _ _ _ (ih r us hn)
          · obtain ⟨N, hN⟩ := GoGen.allocated_new h (hfs f (List.mem_cons_self ..)) (.other f fun r c e => hf ⟨r, c, e⟩)
            have h3 := hN N (Nat.le_refl _)
            have h4 : ∀ new, GoGen.newField GoGen.v1 new f = (GoGen.FindValue f).map GoGen.zero := by
              intro new
              have : ¬ (f.Kind = .message ∧ f.Cardinality ≠ .repeated) := by
                cases f with
                | one k r c =>
                  rintro ⟨e, _⟩
                  simp only [Field.Kind] at e
                  subst e
                  exact hf ⟨_, _, rfl⟩
                | many k r => simp [Field.Cardinality]
                | map k v r => simp [Field.Cardinality]
              simp only [GoGen.newField, this, and_false, if_false]
            rw [h4] at h1 h3
            rw [h1] at h3
            cases h3
            exact .other f fun r c e => hf ⟨r, c, e⟩

end Gen
