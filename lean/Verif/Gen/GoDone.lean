import Verif.Gen.GoMain

/-! # Generated Go code: consequences of the main lemma, per version -/

namespace GoGen

open Gen Spec

theorem good {st : Bool} {S : Schema} {ver : Version} {w : Style} {N : Nat} (hS : Setup ver w S N) : ∀ n, Good st ver w S N n := by
  intro n
  induction n with
  | zero => exact good_zero st ver w S N
  | succ n ih => exact good_succ hS ih

/-! ## The two versions -/

theorem newFields_v2 (new : Nat → Option (List V)) : ∀ (fs : List Field), (∀ f ∈ fs, f.GoSupported) →
    newFields v2 new fs = some (fs.map Field.fresh) := by
  intro fs
  induction fs with
  | nil => intro _; rfl
  | cons f fs ih =>
    intro h
    obtain ⟨t, h1, h2⟩ := zero_fresh (h f (by simp))
    have h3 : newField v2 new f = some f.fresh := by simp [newField, v2, h1, h2]
    simp [newFields, h3, ih (fun g hg => h g (by simp [hg]))]

theorem setup_v2 {S : Schema} (h : S.GoSupported) : Setup v2 (Style.v2 S) S 1 where
  supported := h
  new := by
    intro n hn m
    obtain ⟨k, rfl⟩ : ∃ k, n = k + 1 := ⟨n - 1, by omega⟩
    exact newFields_v2 _ _ (fields_supported h m)
  typed := fun m => fresh_typed h m
  merge := rfl
  law := ⟨_, law_v2⟩

mutual
theorem allocated_new {S : Schema} (h : S.GoSupported) {f : Field} {v : V} (hf : f.GoSupported) (ha : Allocated S f v) :
    ∃ N, ∀ n, N ≤ n → newField v1 (New v1 S n) f = some v := by
  cases ha with
  | message m c vs hv =>
    obtain ⟨N, hN⟩ := allocatedAll_new h (fields_supported h m) hv
    refine ⟨N + 1, fun n hn => ?_⟩
    obtain ⟨k, rfl⟩ : ∃ k, n = k + 1 := ⟨n - 1, by omega⟩
    have := hN k (by omega)
    have hc : (Field.one .message m c).Cardinality ≠ .repeated := by cases c <;> simp [Field.Cardinality]
    simp [newField, v1, Field.Kind, hc, New]
    simpa [v1] using this
  | other _ hne =>
    obtain ⟨t, h1, h2⟩ := zero_fresh hf
    refine ⟨0, fun n _ => ?_⟩
    have : ¬ (f.Kind = .message ∧ f.Cardinality ≠ .repeated) := by
      cases f with
      | one k r c =>
        intro ⟨hk, _⟩
        simp only [Field.Kind] at hk
        subst hk
        exact hne r c rfl
      | many => simp [Field.Cardinality]
      | map => simp [Field.Cardinality]
    simp [newField, v1, this, h1, h2]
theorem allocatedAll_new {S : Schema} (h : S.GoSupported) {fs : List Field} {vs : List V} (hf : ∀ f ∈ fs, f.GoSupported)
    (ha : AllocatedAll S fs vs) : ∃ N, ∀ n, N ≤ n → newFields v1 (New v1 S n) fs = some vs := by
  cases ha with
  | nil => exact ⟨0, fun n _ => rfl⟩
  | cons f v fs vs h1 h2 =>
    obtain ⟨N1, g1⟩ := allocated_new h (hf f (by simp)) h1
    obtain ⟨N2, g2⟩ := allocatedAll_new h (fun g hg => hf g (by simp [hg])) h2
    exact ⟨max N1 N2, fun n hn => by simp [newFields, g1 n (by omega), g2 n (by omega)]⟩
end

mutual
theorem allocated_typed {S : Schema} (h : S.GoSupported) {f : Field} {v : V} (hf : f.GoSupported) (ha : Allocated S f v) :
    v.OfField S f := by
  cases ha with
  | message m c vs hv => simpa [V.OfField] using allocatedAll_typed h (fields_supported h m) hv
  | other _ hne => exact fresh_ofField S hf
theorem allocatedAll_typed {S : Schema} (h : S.GoSupported) {fs : List Field} {vs : List V} (hf : ∀ f ∈ fs, f.GoSupported)
    (ha : AllocatedAll S fs vs) : OfFields S fs vs := by
  cases ha with
  | nil => simp [OfFields]
  | cons f v fs vs h1 h2 =>
    simp only [OfFields]
    exact ⟨allocated_typed h (hf f (by simp)) h1, allocatedAll_typed h (fun g hg => hf g (by simp [hg])) h2⟩
end

theorem new_all {S : Schema} (h : S.GoSupported) {w : Style} (hw : w.IsV1 S) :
    ∃ N, ∀ n, N ≤ n → ∀ m, New v1 S n m = some (w.fresh m) := by
  have one : ∀ m, ∃ N, ∀ n, N ≤ n → New v1 S n m = some (w.fresh m) := by
    intro m
    obtain ⟨N, hN⟩ := allocatedAll_new h (fields_supported h m) (hw.fresh m)
    refine ⟨N + 1, fun n hn => ?_⟩
    obtain ⟨k, rfl⟩ : ∃ k, n = k + 1 := ⟨n - 1, by omega⟩
    exact hN k (by omega)
  have upto : ∀ k, ∃ N, ∀ n, N ≤ n → ∀ m, m < k → New v1 S n m = some (w.fresh m) := by
    intro k
    induction k with
    | zero => exact ⟨0, by intros; omega⟩
    | succ k ih =>
      obtain ⟨N1, h1⟩ := ih
      obtain ⟨N2, h2⟩ := one k
      refine ⟨max N1 N2, fun n hn m hm => ?_⟩
      by_cases hk : m = k
      · subst hk; exact h2 n (by omega)
      · exact h1 n (by omega) m (by omega)
  obtain ⟨N, hN⟩ := upto S.messages.length
  refine ⟨N + 1, fun n hn m => ?_⟩
  by_cases hm : m < S.messages.length
  · exact hN n (by omega) m hm
  · obtain ⟨k, rfl⟩ : ∃ k, n = k + 1 := ⟨n - 1, by omega⟩
    have hf : S.fields m = [] := by
      unfold Schema.fields; rw [List.getElem?_eq_none (by omega)]; rfl
    have := hw.fresh m
    rw [hf] at this
    cases hfr : w.fresh m with
    | nil => simp [New, hf, newFields]
    | cons => rw [hfr] at this; cases this

theorem setup_v1 {S : Schema} (h : S.GoSupported) {w : Style} (hw : w.IsV1 S) : ∃ N, Setup v1 w S N := by
  obtain ⟨N, hN⟩ := new_all h hw
  exact ⟨N, h, hN, fun m => allocatedAll_typed h (fields_supported h m) (hw.fresh m), by rw [hw.merge]; rfl, _, law_v1⟩

/-! ## Values -/

theorem over_scalar (w : Style) (S : Schema) (f : Field) (old : V) (s : Scalar) : V.over w S f old (.scalar s) = .scalar s := by
  cases f <;> cases old <;> simp [V.over]
theorem over_nilMap (w : Style) (S : Schema) (f : Field) (old : V) : V.over w S f old .nilMap = .map [] [] := by
  cases f <;> cases old <;> simp [V.over]
theorem over_slice (w : Style) (S : Schema) (k : PKind) (r : Nat) (olds vs : List V) :
    V.over w S (.many k r) (.slice olds) (.slice vs) =
      if olds.length = vs.length then .slice (oversE w S r olds vs) else .slice (oversE w S r [] vs) := by simp [V.over]
theorem over_map (w : Style) (S : Schema) (kk k : PKind) (r : Nat) (old : V) (ks : List Scalar) (vs : List V) :
    V.over w S (.map kk k r) old (.map ks vs) = .map ks (oversE w S r [] vs) := by cases old <;> simp [V.over]
theorem over_msg (w : Style) (S : Schema) (k : PKind) (m : Nat) (c : Bool) (old : V) (vs : List V) :
    V.over w S (.one k m c) old (.msg vs) =
      .msg (oversF w S (S.fields m) (if w.merge then w.into m old else w.fresh m) vs) := by cases old <;> simp [V.over]
theorem overElem_msg (w : Style) (S : Schema) (m : Nat) (old : V) (vs : List V) :
    V.overElem w S m old (.msg vs) = .msg (oversF w S (S.fields m) (w.into m old) vs) := by simp [V.overElem]

theorem oversE_scalar (w : Style) (S : Schema) (k : PKind) (r : Nat) (hk : k ≠ .message) : ∀ (vs : List V),
    OfElems S (.one k r false) vs → ∀ olds : List V, oversE w S r olds vs = settledAll vs := by
  intro vs
  induction vs with
  | nil => intro _ olds; cases olds <;> simp [oversE, settledAll]
  | cons v vs ih =>
    intro hv olds
    simp only [OfElems] at hv
    rcases ofField_one hv.1 with ⟨s, rfl, hs⟩ | ⟨h, _⟩ | ⟨h, _⟩
    · cases olds <;> simp [oversE, settledAll, V.overElem, V.settled, ih hv.2]
    · exact absurd h hk
    · exact absurd h hk

theorem into_typed {S : Schema} {w : Style} (hw : ∀ m, OfFields S (S.fields m) (w.fresh m)) {m : Nat} {c : Bool} {old : V}
    (ho : old.OfField S (.one .message m c)) : OfFields S (S.fields m) (w.into m old) := by
  rcases ofField_one ho with ⟨s, rfl, hs⟩ | ⟨_, rfl⟩ | ⟨_, fs, rfl, hfs⟩
  · exact hw m
  · exact hw m
  · exact hfs

/-- A value without nil messages replaces whatever was there. -/
theorem over_noNil (w : Style) (S : Schema) (hw : ∀ m, OfFields S (S.fields m) (w.fresh m)) : ∀ n,
    (∀ v : V, sizeOf v ≤ n → ∀ (f : Field) (old : V), v.OfField S f → v.NoNil → old.OfField S f →
      V.over w S f old v = v.settled) ∧
    (∀ v : V, sizeOf v ≤ n → ∀ (r : Nat) (old : V), v.OfField S (.one .message r false) → v.NoNil →
      old.OfField S (.one .message r false) → V.overElem w S r old v = v.settled) ∧
    (∀ vs : List V, sizeOf vs ≤ n → ∀ (fs : List Field) (olds : List V), OfFields S fs vs → NoNilAll vs → OfFields S fs olds →
      oversF w S fs olds vs = settledAll vs) ∧
    (∀ vs : List V, sizeOf vs ≤ n → ∀ (r : Nat) (olds : List V), OfElems S (.one .message r false) vs → NoNilAll vs →
      OfElems S (.one .message r false) olds → oversE w S r olds vs = settledAll vs) := by
  intro n
  induction n with
  | zero =>
    refine ⟨?_, ?_, ?_, ?_⟩
    · intro v h; cases v <;> simp at h
    · intro v h; cases v <;> simp at h
    · intro vs h; cases vs <;> simp at h
    · intro vs h; cases vs <;> simp at h
  | succ n ih =>
    obtain ⟨iv, ie, iF, iE⟩ := ih
    refine ⟨?_, ?_, ?_, ?_⟩
    · intro v h f old hv hn ho
      cases v with
      | scalar s => rw [over_scalar]; simp [V.settled]
      | nil => simp [V.NoNil] at hn
      | nilMap => rw [over_nilMap]; simp [V.settled]
      | slice vs =>
        simp only [V.slice.sizeOf_spec] at h
        cases f <;> simp only [V.OfField] at hv
        rename_i k r
        cases old <;> simp only [V.OfField] at ho
        rename_i olds
        simp only [V.NoNil] at hn
        rw [over_slice, V.settled]
        by_cases hk : k = .message
        · subst hk
          rw [iE vs (by omega) r olds hv.2 hn ho.2, iE vs (by omega) r [] hv.2 hn (by simp [OfElems])]
          simp
        · rw [oversE_scalar w S k r hk vs hv.2, oversE_scalar w S k r hk vs hv.2]
          simp
      | map ks vs =>
        simp only [V.map.sizeOf_spec] at h
        cases f <;> simp only [V.OfField] at hv
        rename_i kk k r
        simp only [V.NoNil] at hn
        rw [over_map, V.settled]
        by_cases hk : k = .message
        · subst hk; rw [iE vs (by omega) r [] hv.2.2.2.2 hn (by simp [OfElems])]
        · rw [oversE_scalar w S k r hk vs hv.2.2.2.2]
      | msg vs =>
        simp only [V.msg.sizeOf_spec] at h
        cases f <;> simp only [V.OfField] at hv
        rename_i k m c
        obtain ⟨rfl, hv⟩ := hv
        simp only [V.NoNil] at hn
        rw [over_msg, V.settled]
        congr 1
        apply iF vs (by omega) _ _ hv hn
        split
        · exact into_typed hw ho
        · exact hw m
    · intro v h r old hv hn ho
      rcases ofField_one hv with ⟨s, rfl, hs⟩ | ⟨_, rfl⟩ | ⟨_, vs, rfl, hvs⟩
      · cases s <;> simp [Scalar.OfKind] at hs
      · simp [V.NoNil] at hn
      · simp only [V.msg.sizeOf_spec] at h
        simp only [V.NoNil] at hn
        rw [overElem_msg, V.settled, iF vs (by omega) _ _ hvs hn (into_typed hw ho)]
    · intro vs h fs olds hv hn ho
      cases vs with
      | nil => cases fs <;> cases olds <;> simp [oversF, settledAll]
      | cons v vs =>
        simp only [List.cons.sizeOf_spec] at h
        cases fs with
        | nil => simp [OfFields] at hv
        | cons f fs =>
          cases olds with
          | nil => simp [OfFields] at ho
          | cons old olds =>
            simp only [OfFields] at hv ho
            simp only [NoNilAll] at hn
            rw [oversF, settledAll, iv v (by omega) f old hv.1 hn.1 ho.1, iF vs (by omega) fs olds hv.2 hn.2 ho.2]
    · intro vs h r olds hv hn ho
      cases vs with
      | nil => cases olds <;> simp [oversE, settledAll]
      | cons v vs =>
        simp only [List.cons.sizeOf_spec] at h
        simp only [OfElems] at hv
        simp only [NoNilAll] at hn
        cases olds with
        | nil =>
          rw [oversE, settledAll, ie v (by omega) r .nil hv.1 hn.1 (by simp [V.OfField]),
            iE vs (by omega) r [] hv.2 hn.2 (by simp [OfElems])]
        | cons old olds =>
          simp only [OfElems] at ho
          rw [oversE, settledAll, ie v (by omega) r old hv.1 hn.1 ho.1, iE vs (by omega) r olds hv.2 hn.2 ho.2]

/-- Go v2: decoding into fresh messages gives the message back if no element of a collection is nil. -/
theorem over_fresh (S : Schema) : ∀ n,
    (∀ v : V, sizeOf v ≤ n → ∀ (f : Field), v.OfField S f → v.NoNilElems →
      V.over (.v2 S) S f f.fresh v = v.settled) ∧
    (∀ v : V, sizeOf v ≤ n → ∀ (r : Nat), v.OfField S (.one .message r false) → v ≠ .nil → v.NoNilElems →
      V.overElem (.v2 S) S r .nil v = v.settled) ∧
    (∀ vs : List V, sizeOf vs ≤ n → ∀ (fs : List Field), OfFields S fs vs → NoNilElemsAll vs →
      oversF (.v2 S) S fs (fs.map Field.fresh) vs = settledAll vs) ∧
    (∀ vs : List V, sizeOf vs ≤ n → ∀ (r : Nat), OfElems S (.one .message r false) vs → (∀ v ∈ vs, v ≠ .nil) → NoNilElemsAll vs →
      oversE (.v2 S) S r [] vs = settledAll vs) := by
  intro n
  induction n with
  | zero =>
    refine ⟨?_, ?_, ?_, ?_⟩
    · intro v h; cases v <;> simp at h
    · intro v h; cases v <;> simp at h
    · intro vs h; cases vs <;> simp at h
    · intro vs h; cases vs <;> simp at h
  | succ n ih =>
    obtain ⟨iv, ie, iF, iE⟩ := ih
    refine ⟨?_, ?_, ?_, ?_⟩
    · intro v h f hv hn
      cases v with
      | scalar s => rw [over_scalar]; simp [V.settled]
      | nil =>
        cases f <;> simp only [V.OfField] at hv
        subst hv
        simp [V.over, Field.fresh, V.settled, Style.v2]
      | nilMap => rw [over_nilMap]; simp [V.settled]
      | slice vs =>
        simp only [V.slice.sizeOf_spec] at h
        cases f <;> simp only [V.OfField] at hv
        rename_i k r
        simp only [V.NoNilElems] at hn
        rw [Field.fresh, over_slice, V.settled]
        by_cases hk : k = .message
        · subst hk
          rw [iE vs (by omega) r hv.2 hn.1 hn.2]; simp
        · rw [oversE_scalar _ S k r hk vs hv.2]; simp
      | map ks vs =>
        simp only [V.map.sizeOf_spec] at h
        cases f <;> simp only [V.OfField] at hv
        rename_i kk k r
        simp only [V.NoNilElems] at hn
        rw [over_map, V.settled]
        by_cases hk : k = .message
        · subst hk; rw [iE vs (by omega) r hv.2.2.2.2 hn.1 hn.2]
        · rw [oversE_scalar _ S k r hk vs hv.2.2.2.2]
      | msg vs =>
        simp only [V.msg.sizeOf_spec] at h
        cases f <;> simp only [V.OfField] at hv
        rename_i k m c
        obtain ⟨rfl, hv⟩ := hv
        simp only [V.NoNilElems] at hn
        rw [over_msg, V.settled]
        congr 1
        exact iF vs (by omega) _ hv hn
    · intro v h r hv hne hn
      rcases ofField_one hv with ⟨s, rfl, hs⟩ | ⟨_, rfl⟩ | ⟨_, vs, rfl, hvs⟩
      · cases s <;> simp [Scalar.OfKind] at hs
      · exact absurd rfl hne
      · simp only [V.msg.sizeOf_spec] at h
        simp only [V.NoNilElems] at hn
        rw [overElem_msg, V.settled]
        congr 1
        exact iF vs (by omega) _ hvs hn
    · intro vs h fs hv hn
      cases vs with
      | nil => cases fs <;> simp [oversF, settledAll]
      | cons v vs =>
        simp only [List.cons.sizeOf_spec] at h
        cases fs with
        | nil => simp [OfFields] at hv
        | cons f fs =>
          simp only [OfFields] at hv
          simp only [NoNilElemsAll] at hn
          rw [List.map_cons, oversF, settledAll, iv v (by omega) f hv.1 hn.1, iF vs (by omega) fs hv.2 hn.2]
    · intro vs h r hv hne hn
      cases vs with
      | nil => simp [oversE, settledAll]
      | cons v vs =>
        simp only [List.cons.sizeOf_spec] at h
        simp only [OfElems] at hv
        simp only [NoNilElemsAll] at hn
        rw [oversE, settledAll, ie v (by omega) r hv.1 (hne v (by simp)) hn.1,
          iE vs (by omega) r hv.2 (fun x hx => hne x (by simp [hx])) hn.2]

/-! ## Whole messages -/

theorem fields_mem {S : Schema} {m : Nat} (h : m < S.messages.length) : S.fields m ∈ S.messages := by
  unfold Schema.fields
  rw [List.getElem?_eq_getElem h]
  exact List.getElem_mem h

theorem anchored_all (S : Schema) (hS : S.Anchored) (hc : S.Closed) : ∀ n,
    (∀ v : V, sizeOf v ≤ n → ∀ f : Field, f.Closed S → v.OfField S f → v.Anchored S f) ∧
    (∀ vs : List V, sizeOf vs ≤ n → ∀ fs : List Field, (∀ f ∈ fs, f.Closed S) → OfFields S fs vs → AnchoredF S fs vs) ∧
    (∀ vs : List V, sizeOf vs ≤ n → ∀ f : Field, f.Closed S → OfElems S f vs → AnchoredE S f vs) := by
  intro n
  induction n with
  | zero =>
    refine ⟨?_, ?_, ?_⟩
    · intro v h; cases v <;> simp at h
    · intro vs h; cases vs <;> simp at h
    · intro vs h; cases vs <;> simp at h
  | succ n ih =>
    obtain ⟨iv, iF, iE⟩ := ih
    refine ⟨?_, ?_, ?_⟩
    · intro v h f hf hv
      cases v with
      | scalar s => cases f <;> simp [V.Anchored]
      | nil => cases f <;> simp [V.Anchored]
      | nilMap => cases f <;> simp [V.Anchored]
      | slice vs =>
        simp only [V.slice.sizeOf_spec] at h
        cases f <;> simp only [V.OfField] at hv
        rename_i k r
        simp only [V.Anchored]
        exact iE vs (by omega) _ hf hv.2
      | map ks vs =>
        simp only [V.map.sizeOf_spec] at h
        cases f <;> simp only [V.OfField] at hv
        rename_i kk k r
        simp only [V.Anchored]
        exact iE vs (by omega) _ hf hv.2.2.2.2
      | msg vs =>
        simp only [V.msg.sizeOf_spec] at h
        cases f <;> simp only [V.OfField] at hv
        rename_i k m c
        obtain ⟨rfl, hv⟩ := hv
        have hm := fields_mem (hf rfl)
        simp only [V.Anchored]
        refine ⟨?_, iF vs (by omega) _ (hc _ hm) hv⟩
        rcases hS _ hm with hl | ⟨f, h1, h2⟩
        · exact .inl hl
        · right
          cases hfs : S.fields m with
          | nil => rw [hfs] at h1; simp at h1
          | cons g gs =>
            rw [hfs] at h1 hv
            simp at h1; subst h1
            cases vs with
            | nil => simp [OfFields] at hv
            | cons v vs =>
              simp only [OfFields] at hv
              refine ⟨v, by simp, ?_⟩
              rintro rfl
              cases g <;> simp [Field.IsMap] at h2
              simp [V.OfField] at hv
    · intro vs h fs hf hv
      cases vs with
      | nil => cases fs <;> simp [AnchoredF]
      | cons v vs =>
        simp only [List.cons.sizeOf_spec] at h
        cases fs with
        | nil => simp [AnchoredF]
        | cons f fs =>
          simp only [OfFields] at hv
          simp only [AnchoredF]
          exact ⟨iv v (by omega) f (hf f (by simp)) hv.1, iF vs (by omega) fs (fun g hg => hf g (by simp [hg])) hv.2⟩
    · intro vs h f hf hv
      cases vs with
      | nil => simp [AnchoredE]
      | cons v vs =>
        simp only [List.cons.sizeOf_spec] at h
        simp only [OfElems] at hv
        simp only [AnchoredE]
        exact ⟨iv v (by omega) f hf hv.1, iE vs (by omega) f hf hv.2⟩

theorem decode_cond {st : Bool} {S : Schema} {ver : Version} {w : Style} {N : Nat} (hS : Setup ver w S N) {m : Nat} {vs olds : List V}
    (hv : (V.msg vs).OfField S (.one .message m false)) (ha : Cond st S (.one .message m false) (.msg vs)) (hf : (V.msg vs).Fits)
    (ho : (V.msg olds).OfField S (.one .message m false)) :
    ∃ calls, Encode S m (.msg vs) = some calls ∧ (∀ i ∈ calls, i.Fits) ∧
      ∀ rd, Law ver rd → ∀ fuel, (V.msg vs).depth + N ≤ fuel → ∀ t, Tail st t →
        decode ver rd S fuel m olds (wireAll calls ++ t) = .ok t (oversF w S (S.fields m) olds vs) := by
  simp only [V.OfField] at hv ho
  simp only [V.Fits] at hf
  obtain ⟨cs, h1, h2, _, _⟩ := good hS (depths vs + 1) m vs hv.2 ha hf (by omega)
  refine ⟨cs, h1, fun i hi => (h2 i hi).1, ?_⟩
  intro rd hl fuel hfuel t ht
  simp only [V.depth] at hfuel
  obtain ⟨cs', h1', _, _, h4⟩ := good hS (fuel - N) m vs hv.2 ha hf (by omega)
  rw [h1] at h1'; simp at h1'; subst h1'
  have := h4 rd hl olds t ht ho.2
  rwa [show fuel - N + N = fuel by omega] at this

/-- Decoding what was encoded, into a struct that holds anything. -/
theorem decode_encoded {S : Schema} {ver : Version} {w : Style} {N : Nat} (hS : Setup ver w S N) {m : Nat} {vs olds : List V}
    (hv : (V.msg vs).OfField S (.one .message m false)) (ha : (V.msg vs).Anchored S (.one .message m false)) (hf : (V.msg vs).Fits)
    (ho : (V.msg olds).OfField S (.one .message m false)) :
    ∃ calls, Encode S m (.msg vs) = some calls ∧ (∀ i ∈ calls, i.Fits) ∧
      ∀ rd, Law ver rd → ∀ fuel, (V.msg vs).depth + N ≤ fuel → ∀ t,
        decode ver rd S fuel m olds (wireAll calls ++ t) = .ok t (oversF w S (S.fields m) olds vs) := by
  obtain ⟨calls, h1, h2, h3⟩ := decode_cond (st := true) hS hv (by simpa [Cond] using ha) hf ho
  exact ⟨calls, h1, h2, fun rd hl fuel hfuel t => h3 rd hl fuel hfuel t (.inl rfl)⟩

/-- The same for values without nil, if the input after the message does not start with nil. -/
theorem decode_noNil {S : Schema} {ver : Version} {w : Style} {N : Nat} (hS : Setup ver w S N) {m : Nat} {vs olds : List V}
    (hv : (V.msg vs).OfField S (.one .message m false)) (hn : (V.msg vs).NoNil) (hf : (V.msg vs).Fits)
    (ho : (V.msg olds).OfField S (.one .message m false)) :
    ∃ calls, Encode S m (.msg vs) = some calls ∧ (∀ i ∈ calls, i.Fits) ∧
      ∀ rd, Law ver rd → ∀ fuel, (V.msg vs).depth + N ≤ fuel → ∀ t, t.head? ≠ some kNil →
        decode ver rd S fuel m olds (wireAll calls ++ t) = .ok t (settledAll vs) := by
  obtain ⟨calls, h1, h2, h3⟩ := decode_cond (st := false) hS hv (by simpa [Cond] using hn) hf ho
  refine ⟨calls, h1, h2, fun rd hl fuel hfuel t ht => ?_⟩
  rw [h3 rd hl fuel hfuel t (.inr ht)]
  simp only [V.OfField] at hv ho
  simp only [V.NoNil] at hn
  rw [(over_noNil w S hS.typed (sizeOf vs)).2.2.1 vs (Nat.le_refl _) (S.fields m) olds hv.2 hn ho.2]

end GoGen
