import Verif.Gen.PackageFacts

/-! # Facts about the dependency analysis of the Rust generator and the names of generated Rust files -/

namespace Package
open Utils

namespace Rust

/-- Message type `a` has a field, or a map field with values, of message type `b`. -/
def Refers (W : World) (a b : Bytes) : Prop := ∃ fd ∈ W a, fd.ref = .message b

theorem tf_nil (W : World) (k : Nat) (d : Dependencies) : traverseFields W (k + 1) [] d = some d := by
  rw [traverseFields]

theorem tf_map (W : World) (k : Nat) (f : FieldD) (fs : List FieldD) (d : Dependencies) (h : f.shape = .map) :
    traverseFields W (k + 1) (f :: fs) d =
      match traverseFields W k [⟨ascii "key", .one, .scalar⟩, ⟨ascii "value", .one, f.ref⟩] { d with Maps := true } with
      | none => none
      | some d => traverseFields W (k + 1) fs d := by
  rw [traverseFields, h]
  simp only
  generalize traverseFields W k _ { d with Maps := true } = x
  cases x <;> rfl

theorem tf_message (W : World) (k : Nat) (f : FieldD) (fs : List FieldD) (d : Dependencies) (h : f.shape ≠ .map)
    (n : Bytes) (hr : f.ref = .message n) :
    traverseFields W (k + 1) (f :: fs) d =
      if (W n).length > 0 then
        match traverseFields W k (W n) d with
        | none => none
        | some d => traverseFields W (k + 1) fs d
      else traverseFields W (k + 1) fs d := by
  rw [traverseFields]
  cases hs : f.shape with
  | map => exact absurd hs h
  | one => simp only [hr]; generalize traverseFields W k (W n) d = x; cases x <;> rfl
  | many => simp only [hr]; generalize traverseFields W k (W n) d = x; cases x <;> rfl

theorem tf_other (W : World) (k : Nat) (f : FieldD) (fs : List FieldD) (d : Dependencies) (h : f.shape ≠ .map)
    (hr : ∀ n, f.ref ≠ .message n) : traverseFields W (k + 1) (f :: fs) d = traverseFields W (k + 1) fs d := by
  rw [traverseFields]
  cases hs : f.shape with
  | map => exact absurd hs h
  | one =>
    cases hf : f.ref with
    | message n => exact absurd hf (hr n)
    | _ => simp only
  | many =>
    cases hf : f.ref with
    | message n => exact absurd hf (hr n)
    | _ => simp only

/-- Cases of one step. -/
theorem field_cases (f : FieldD) : f.shape = .map ∨ (f.shape ≠ .map ∧ ∃ n, f.ref = .message n) ∨
    (f.shape ≠ .map ∧ ∀ n, f.ref ≠ .message n) := by
  by_cases h : f.shape = .map
  · exact .inl h
  · cases hr : f.ref with
    | message n => exact .inr (.inl ⟨h, n, rfl⟩)
    | _ => exact .inr (.inr ⟨h, by simp⟩)

/-- The traversal of a list of fields needs bounded depth if that of every referenced message does. -/
theorem tf_total (W : World) (fs : List FieldD)
    (h : ∀ fd ∈ fs, ∀ n, fd.ref = .message n → ∃ k, ∀ fuel, k ≤ fuel → ∀ d, ∃ d', traverseFields W fuel (W n) d = some d') :
    ∃ k, ∀ fuel, k ≤ fuel → ∀ d, ∃ d', traverseFields W fuel fs d = some d' := by
  induction fs with
  | nil =>
    refine ⟨1, fun fuel hf d => ?_⟩
    obtain ⟨k, rfl⟩ : ∃ k, fuel = k + 1 := ⟨fuel - 1, by omega⟩
    exact ⟨d, tf_nil W k d⟩
  | cons f fs ih =>
    obtain ⟨k1, h1⟩ := ih fun fd hm => h fd (by simp [hm])
    have hf := h f (by simp)
    rcases field_cases f with hs | ⟨hs, n, hr⟩ | ⟨hs, hr⟩
    · -- the entry message
      have hentry : ∃ k, ∀ fuel, k ≤ fuel → ∀ d, ∃ d',
          traverseFields W fuel [⟨ascii "key", .one, .scalar⟩, ⟨ascii "value", .one, f.ref⟩] d = some d' := by
        by_cases hx : ∃ n, f.ref = .message n
        · obtain ⟨n, hn⟩ := hx
          obtain ⟨k2, h2⟩ := hf n hn
          refine ⟨k2 + 1, fun fuel hle d => ?_⟩
          obtain ⟨k, rfl⟩ : ∃ k, fuel = k + 1 := ⟨fuel - 1, by omega⟩
          rw [tf_other W k _ _ _ (by simp) (by simp), tf_message W k ⟨ascii "value", .one, f.ref⟩ _ _ (by simp) n hn]
          obtain ⟨d2, e2⟩ := h2 k (by omega) d
          split
          · rw [e2]; exact ⟨_, tf_nil W k d2⟩
          · exact ⟨_, tf_nil W k d⟩
        · refine ⟨1, fun fuel hle d => ?_⟩
          obtain ⟨k, rfl⟩ : ∃ k, fuel = k + 1 := ⟨fuel - 1, by omega⟩
          rw [tf_other W k _ _ _ (by simp) (by simp), tf_other W k ⟨ascii "value", .one, f.ref⟩ _ _ (by simp) (fun n hn => hx ⟨n, hn⟩)]
          exact ⟨_, tf_nil W k d⟩
      obtain ⟨k2, h2⟩ := hentry
      refine ⟨max k1 k2 + 1, fun fuel hle d => ?_⟩
      obtain ⟨k, rfl⟩ : ∃ k, fuel = k + 1 := ⟨fuel - 1, by omega⟩
      rw [tf_map W k f fs d hs]
      obtain ⟨d2, e2⟩ := h2 k (by omega) { d with Maps := true }
      rw [e2]
      exact h1 (k + 1) (by omega) d2
    · obtain ⟨k2, h2⟩ := hf n hr
      refine ⟨max k1 k2 + 1, fun fuel hle d => ?_⟩
      obtain ⟨k, rfl⟩ : ∃ k, fuel = k + 1 := ⟨fuel - 1, by omega⟩
      rw [tf_message W k f fs d hs n hr]
      split
      · obtain ⟨d2, e2⟩ := h2 k (by omega) d
        rw [e2]
        exact h1 (k + 1) (by omega) d2
      · exact h1 (k + 1) (by omega) d
    · refine ⟨k1 + 1, fun fuel hle d => ?_⟩
      obtain ⟨k, rfl⟩ : ∃ k, fuel = k + 1 := ⟨fuel - 1, by omega⟩
      rw [tf_other W k f fs d hs hr]
      exact h1 (k + 1) (by omega) d

theorem tf_acc (W : World) (n : Bytes) (h : Acc (fun b a => Refers W a b) n) :
    ∃ k, ∀ fuel, k ≤ fuel → ∀ d, ∃ d', traverseFields W fuel (W n) d = some d' := by
  induction h with
  | intro n _ ih => exact tf_total W (W n) fun fd hfd m hm => ih m ⟨fd, hfd, hm⟩

/-- If the traversal returns, every referenced message is well-founded. -/
theorem acc_of_tf (W : World) (fuel : Nat) (fs : List FieldD) (d d' : Dependencies)
    (h : traverseFields W fuel fs d = some d') :
    ∀ fd ∈ fs, ∀ n, fd.ref = .message n → Acc (fun b a => Refers W a b) n := by
  induction fuel generalizing fs d d' with
  | zero => rw [traverseFields] at h; simp at h
  | succ k ih =>
    induction fs generalizing d with
    | nil => intro fd hfd; simp at hfd
    | cons f fs ihf =>
      have hrest : ∀ d1, traverseFields W (k + 1) fs d1 = some d' →
          (∀ n, f.ref = .message n → Acc (fun b a => Refers W a b) n) →
          ∀ fd ∈ f :: fs, ∀ n, fd.ref = .message n → Acc (fun b a => Refers W a b) n := by
        intro d1 h1 h2 fd hfd n hn
        rcases List.mem_cons.mp hfd with rfl | hfd
        · exact h2 n hn
        · exact ihf d1 h1 fd hfd n hn
      rcases field_cases f with hs | ⟨hs, n, hr⟩ | ⟨hs, hr⟩
      · rw [tf_map W k f fs d hs] at h
        split at h
        · simp at h
        · next d1 e1 =>
          refine hrest d1 h fun n hn => ?_
          exact ih _ _ _ e1 ⟨ascii "value", .one, f.ref⟩ (by simp) n hn
      · rw [tf_message W k f fs d hs n hr] at h
        split at h
        · split at h
          · simp at h
          · next d1 e1 =>
            refine hrest d1 h fun m hm => ?_
            obtain rfl : n = m := by rw [hr] at hm; exact Ref.message.inj hm
            refine Acc.intro _ ?_
            rintro b ⟨fd, hfd, hb⟩
            exact ih _ _ _ e1 fd hfd b hb
        · next hlen =>
          refine hrest d h fun m hm => ?_
          obtain rfl : n = m := by rw [hr] at hm; exact Ref.message.inj hm
          refine Acc.intro _ ?_
          rintro b ⟨fd, hfd, hb⟩
          have : W n = [] := by cases hw : W n with
            | nil => rfl
            | cons _ _ => rw [hw] at hlen; simp at hlen
          rw [this] at hfd; simp at hfd
      · rw [tf_other W k f fs d hs hr] at h
        exact hrest d h fun n hn => absurd hn (hr n)

/-- What the traversal reports. -/
theorem tf_result (W : World) (fuel : Nat) (fs : List FieldD) (d d' : Dependencies)
    (h : traverseFields W fuel fs d = some d') :
    d'.Enums = d.Enums ∧ (d'.Maps = true ↔ d.Maps = true ∨ ∃ fd ∈ fs, LeadsToMap W fd) := by
  induction fuel generalizing fs d d' with
  | zero => rw [traverseFields] at h; simp at h
  | succ k ih =>
    induction fs generalizing d with
    | nil => rw [tf_nil] at h; obtain rfl := Option.some.inj h; simp
    | cons f fs ihf =>
      rcases field_cases f with hs | ⟨hs, n, hr⟩ | ⟨hs, hr⟩
      · rw [tf_map W k f fs d hs] at h
        split at h
        · simp at h
        · next d1 e1 =>
          have h1 := ih _ _ _ e1
          have h2 := ihf d1 h
          refine ⟨h2.1.trans h1.1, ?_⟩
          have hm : d1.Maps = true := h1.2.mpr (.inl rfl)
          constructor
          · intro _; exact .inr ⟨f, by simp, .here hs⟩
          · intro _; exact h2.2.mpr (.inl hm)
      · have hlead : LeadsToMap W f ↔ ∃ g ∈ W n, LeadsToMap W g := by
          constructor
          · intro hl
            cases hl with
            | here h => exact absurd h hs
            | through h1 h2 h3 =>
              rw [hr] at h1
              obtain rfl := Ref.message.inj h1
              exact ⟨_, h2, h3⟩
          · rintro ⟨g, h1, h2⟩; exact .through hr h1 h2
        rw [tf_message W k f fs d hs n hr] at h
        split at h
        · split at h
          · simp at h
          · next d1 e1 =>
            have h1 := ih _ _ _ e1
            have h2 := ihf d1 h
            refine ⟨h2.1.trans h1.1, ?_⟩
            rw [h2.2, h1.2, ← hlead]
            simp only [List.mem_cons, exists_eq_or_imp]
            exact or_assoc
        · next hlen =>
          have hw : W n = [] := by cases hw : W n with
            | nil => rfl
            | cons _ _ => rw [hw] at hlen; simp at hlen
          have h2 := ihf d h
          refine ⟨h2.1, ?_⟩
          rw [h2.2]
          simp only [List.mem_cons, exists_eq_or_imp, hlead, hw, List.not_mem_nil, false_and, exists_false, false_or]
      · rw [tf_other W k f fs d hs hr] at h
        have h2 := ihf d h
        refine ⟨h2.1, ?_⟩
        rw [h2.2]
        have hn : ¬ LeadsToMap W f := by
          intro hl
          cases hl with
          | here h => exact hs h
          | through h1 _ _ => exact hr _ h1
        simp only [List.mem_cons, exists_eq_or_imp, hn, false_or]

theorem tm_result (W : World) (fuel : Nat) (ms : List MsgD) (d d' : Dependencies)
    (h : traverseMessages W fuel ms d = some d') :
    d'.Enums = d.Enums ∧ (d'.Maps = true ↔ d.Maps = true ∨ ∃ m ∈ ms, ∃ fd ∈ m.fields, LeadsToMap W fd) := by
  induction ms generalizing d with
  | nil => rw [traverseMessages] at h; obtain rfl := Option.some.inj h; simp
  | cons m ms ih =>
    rw [traverseMessages] at h
    split at h
    · simp at h
    · next d1 e1 =>
      have h1 := tf_result W fuel _ _ _ e1
      have h2 := ih d1 h
      refine ⟨h2.1.trans h1.1, ?_⟩
      rw [h2.2, h1.2]
      simp only [List.mem_cons, exists_eq_or_imp]
      exact or_assoc

theorem tm_acc (W : World) (fuel : Nat) (ms : List MsgD) (d d' : Dependencies)
    (h : traverseMessages W fuel ms d = some d') :
    ∀ m ∈ ms, ∀ fd ∈ m.fields, ∀ n, fd.ref = .message n → Acc (fun b a => Refers W a b) n := by
  induction ms generalizing d with
  | nil => intro m hm; simp at hm
  | cons m ms ih =>
    rw [traverseMessages] at h
    split at h
    · simp at h
    · next d1 e1 =>
      intro m' hm'
      rcases List.mem_cons.mp hm' with rfl | hm'
      · exact acc_of_tf W fuel _ _ _ e1
      · exact ih d1 h m' hm'

theorem tm_total (W : World) (ms : List MsgD)
    (h : ∀ m ∈ ms, ∀ fd ∈ m.fields, ∀ n, fd.ref = .message n → Acc (fun b a => Refers W a b) n) :
    ∃ k, ∀ fuel, k ≤ fuel → ∀ d, ∃ d', traverseMessages W fuel ms d = some d' := by
  induction ms with
  | nil => exact ⟨0, fun _ _ d => ⟨d, rfl⟩⟩
  | cons m ms ih =>
    obtain ⟨k1, h1⟩ := ih fun m' hm' => h m' (by simp [hm'])
    obtain ⟨k2, h2⟩ := tf_total W m.fields fun fd hfd n hn => tf_acc W n (h m (by simp) fd hfd n hn)
    refine ⟨max k1 k2, fun fuel hle d => ?_⟩
    obtain ⟨d2, e2⟩ := h2 fuel (by omega) d
    obtain ⟨d3, e3⟩ := h1 fuel (by omega) d2
    exact ⟨d3, by rw [traverseMessages, e2]; exact e3⟩

theorem analysis_iff_acc (W : World) (f : FileD) : (∃ fuel d, DependencyAnalysis W fuel f = some d) ↔
    ∀ m ∈ f.messages, ∀ fd ∈ m.fields, ∀ n, fd.ref = .message n → Acc (fun b a => Refers W a b) n := by
  constructor
  · rintro ⟨fuel, d, h⟩; exact tm_acc W fuel _ _ _ h
  · intro h
    obtain ⟨k, hk⟩ := tm_total W f.messages h
    obtain ⟨d, hd⟩ := hk k (Nat.le_refl _) ⟨f.enums.length > 0, false⟩
    exact ⟨k, d, hd⟩

/-- Well-foundedness in terms of chains. -/
theorem acc_iff_chain (R : Bytes → Bytes → Prop) (a : Bytes) :
    Acc (fun b a => R a b) a ↔ ¬ ∃ s : Nat → Bytes, s 0 = a ∧ ∀ i, R (s i) (s (i + 1)) := by
  constructor
  · intro h
    induction h with
    | intro a _ ih =>
      rintro ⟨s, rfl, hs⟩
      exact ih (s 1) (hs 0) ⟨fun i => s (i + 1), rfl, fun i => hs (i + 1)⟩
  · intro h
    refine Classical.byContradiction fun hn => h ?_
    have step : ∀ x : { x // ¬ Acc (fun b a => R a b) x }, ∃ y : { x // ¬ Acc (fun b a => R a b) x }, R x.1 y.1 := by
      rintro ⟨x, hx⟩
      refine Classical.byContradiction fun hc => hx ?_
      refine Acc.intro x fun y hy => ?_
      refine Classical.byContradiction fun hy' => hc ⟨⟨y, hy'⟩, hy⟩
    let next := fun x => Classical.choose (step x)
    let s : Nat → { x // ¬ Acc (fun b a => R a b) x } := fun i => Nat.rec ⟨a, hn⟩ (fun _ x => next x) i
    exact ⟨fun i => (s i).1, rfl, fun i => Classical.choose_spec (step (s i))⟩

end Rust
end Package
