import Verif.Gen.GoFacts

/-! # Generated Go code: the main lemma -/

namespace GoGen

open Gen Spec
open GoV2 (Req Outcome Err Matches)

/-! ## Field classification -/

/-- Indices (from `i` on) of the fields with a property. -/
def idx (p : Field → Bool) : Nat → List Field → List Nat
  | _, [] => []
  | i, f :: fs => if p f then i :: idx p (i + 1) fs else idx p (i + 1) fs

def isValue : Field → Bool
  | .one k _ _ => k ≠ .message
  | _ => false
def isSlice : Field → Bool
  | .many .. => true
  | _ => false
def isMsg : Field → Bool
  | .one k _ _ => k = .message
  | .many .. => false
  | .map .. => true

theorem mem_idx (p : Field → Bool) : ∀ (fs : List Field) (i j : Nat),
    j ∈ idx p i fs ↔ i ≤ j ∧ ∃ f, fs[j - i]? = some f ∧ p f = true := by
  intro fs
  induction fs with
  | nil => simp [idx]
  | cons f fs ih =>
    intro i j
    have key : j ∈ idx p (i + 1) fs ↔ i < j ∧ ∃ g, (f :: fs)[j - i]? = some g ∧ p g = true := by
      rw [ih]
      constructor
      · rintro ⟨h1, g, h2, h3⟩
        refine ⟨h1, g, ?_, h3⟩
        rw [show j - i = (j - (i + 1)) + 1 by omega, List.getElem?_cons_succ]; exact h2
      · rintro ⟨h1, g, h2, h3⟩
        refine ⟨h1, g, ?_, h3⟩
        rw [show j - i = (j - (i + 1)) + 1 by omega, List.getElem?_cons_succ] at h2; exact h2
    rw [idx]
    by_cases hp : p f = true
    · rw [if_pos hp, List.mem_cons, key]
      constructor
      · rintro (rfl | ⟨h1, h2⟩)
        · exact ⟨Nat.le_refl _, f, by simp, hp⟩
        · exact ⟨by omega, h2⟩
      · rintro ⟨h1, h2⟩
        by_cases h : j = i
        · exact .inl h
        · exact .inr ⟨by omega, h2⟩
    · rw [if_neg hp, key]
      constructor
      · rintro ⟨h1, h2⟩; exact ⟨by omega, h2⟩
      · rintro ⟨h1, g, h2, h3⟩
        by_cases h : j = i
        · subst h; simp at h2; subst h2; exact absurd h3 hp
        · exact ⟨by omega, g, h2, h3⟩

theorem idx_nodup (p : Field → Bool) : ∀ (fs : List Field) (i : Nat), (idx p i fs).Nodup := by
  intro fs
  induction fs with
  | nil => simp [idx]
  | cons f fs ih =>
    intro i
    rw [idx]
    split
    · rw [List.nodup_cons]
      refine ⟨?_, ih _⟩
      rw [mem_idx]; omega
    · exact ih _

/-- The call that writes a value field. -/
def callOf (f : Field) (i : Nat) : ValueCall := ⟨(encodeLUT f.Kind).getD .Bool, i, f.Kind = .enum⟩

def calls : Nat → List Field → List ValueCall
  | _, [] => []
  | i, f :: fs => if isValue f then callOf f i :: calls (i + 1) fs else calls (i + 1) fs

theorem classify {f : Field} (h : f.GoSupported) :
    (f.Cardinality = .repeated ∧ f.IsMap = false ∧ isSlice f = true ∧ isValue f = false ∧ isMsg f = false) ∨
    (¬ (f.Cardinality = .repeated ∧ f.IsMap = false) ∧ encodeLUT f.Kind = none ∧ decodeLUT f.Kind = none ∧
      f.Kind = .message ∧ isSlice f = false ∧ isValue f = false ∧ isMsg f = true) ∨
    (¬ (f.Cardinality = .repeated ∧ f.IsMap = false) ∧ (∃ m, encodeLUT f.Kind = some m ∧ decodeLUT f.Kind = some m) ∧
      isSlice f = false ∧ isValue f = true ∧ isMsg f = false) := by
  cases f with
  | one k r c =>
    cases c <;> cases k <;>
      simp [Field.GoSupported, Field.Cardinality, Field.IsMap, Field.Kind, isSlice, isValue, isMsg, encodeLUT, decodeLUT] at *
  | many k r => left; exact ⟨rfl, rfl, rfl, rfl, rfl⟩
  | map kk k r => right; left; exact ⟨by simp [Field.IsMap], rfl, rfl, rfl, rfl, rfl, rfl⟩

theorem encLoop_eq : ∀ (fs : List Field) (i : Nat), (∀ f ∈ fs, f.GoSupported) →
    encLoop i fs = some ⟨idx isMsg i fs, idx isSlice i fs, calls i fs⟩ := by
  intro fs
  induction fs with
  | nil => intro i _; rfl
  | cons f fs ih =>
    intro i h
    have h1 := ih (i + 1) (fun g hg => h g (by simp [hg]))
    rw [encLoop, h1]
    rcases classify (h f (by simp)) with ⟨a, b, c, d, e⟩ | ⟨a, b, c, d, e, g, h⟩ | ⟨a, ⟨m, b, c⟩, d, e, g⟩
    · simp [idx, calls, a, b, c, d, e]
    · simp only [bind, Option.bind, if_neg a, d]
      simp [idx, calls, e, g, h, encodeLUT]
    · simp only [bind, Option.bind, if_neg a, b]
      by_cases hk : f.Kind = .enum <;> simp [idx, calls, d, e, g, callOf, b, hk] at *
      · simp [b]

theorem decLoop_eq : ∀ (fs : List Field) (i : Nat), (∀ f ∈ fs, f.GoSupported) →
    decLoop i fs = some ⟨idx isMsg i fs, idx isSlice i fs, idx isValue i fs⟩ := by
  intro fs
  induction fs with
  | nil => intro i _; rfl
  | cons f fs ih =>
    intro i h
    have h1 := ih (i + 1) (fun g hg => h g (by simp [hg]))
    rw [decLoop, h1]
    rcases classify (h f (by simp)) with ⟨a, b, c, d, e⟩ | ⟨a, b, c, d, e, g, h⟩ | ⟨a, ⟨m, b, c⟩, d, e, g⟩
    · simp [idx, a, b, c, d, e]
    · simp only [bind, Option.bind, if_neg a, d]
      simp [idx, e, g, h, decodeLUT]
    · simp only [bind, Option.bind, if_neg a, c]
      simp [idx, d, e, g]

/-- The chain of value calls, by field index. -/
def emitAt (ps : List Part) (fields : List Field) (j : Nat) : Option (List Item) :=
  match fields[j]? with
  | some f => emitValue ps (callOf f j)
  | none => none

theorem concat_calls (ps : List Part) (fields : List Field) : ∀ (fs : List Field) (i : Nat), fields.drop i = fs →
    concatM (emitValue ps) (calls i fs) = concatM (emitAt ps fields) (idx isValue i fs) := by
  intro fs
  induction fs with
  | nil => intros; rfl
  | cons f fs ih =>
    intro i h
    have hi : fields[i]? = some f := by
      have := congrArg (fun l => l[0]?) h
      simpa using this
    have h1 : fields.drop (i + 1) = fs := by
      have := congrArg List.tail h
      simpa using this
    simp only [calls, idx]
    split
    · rw [concatM, concatM, ih _ h1]
      simp only [emitAt, hi]
    · exact ih _ h1

/-! ## Running a statement per field -/

/-- Replace the listed positions by those of `T`. -/
def setAll (T : List V) : List Nat → List V → List V
  | [], x => x
  | i :: is, x => setAll T is (x.set i (T[i]?.getD .nil))

theorem setAll_length (T : List V) : ∀ (is : List Nat) (x : List V), (setAll T is x).length = x.length := by
  intro is
  induction is with
  | nil => intro x; rfl
  | cons i is ih => intro x; rw [setAll, ih]; simp

theorem setAll_get (T : List V) : ∀ (is : List Nat) (x : List V) (j : Nat), x.length = T.length →
    (setAll T is x)[j]? = if j ∈ is then T[j]? else x[j]? := by
  intro is
  induction is with
  | nil => intro x j _; simp [setAll]
  | cons i is ih =>
    intro x j h
    rw [setAll, ih _ _ (by simpa using h)]
    by_cases h1 : j ∈ is
    · simp [h1]
    · by_cases h2 : j = i
      · subst h2
        simp only [h1, if_false, List.mem_cons, true_or, if_true]
        by_cases hl : j < x.length
        · rw [List.getElem?_set_self hl]
          have : T[j]? = some T[j] := List.getElem?_eq_getElem (by omega)
          simp [this]
        · have : j ≥ T.length := by omega
          rw [List.getElem?_eq_none (by simpa using hl), List.getElem?_eq_none this]
      · rw [List.getElem?_set_ne (by omega)]
        simp [h1, h2]

/-- The items generated code writes; without `st` no nil among them. -/
def Okay (st : Bool) (i : Item) : Prop := i.Fits ∧ (st = true ∨ i ≠ .nil)

/-- What may follow in the input: anything, or (without `st`) anything that does not start with nil. -/
def Tail (st : Bool) (t : Bytes) : Prop := st = true ∨ t.head? ≠ some kNil

theorem tail_items {st : Bool} {is : List Item} {t : Bytes} (h : ∀ i ∈ is, Okay st i) (ht : Tail st t) : Tail st (wireAll is ++ t) := by
  rcases ht with rfl | ht
  · exact .inl rfl
  · cases is with
    | nil => exact .inr ht
    | cons i is =>
      rcases (h i (by simp)).2 with rfl | hi
      · exact .inl rfl
      · exact .inr (head_wireAll hi is t)

theorem no_nil {st : Bool} {cs : List Item} {t : Bytes} (h : ∀ i ∈ cs, Okay st i) (hf : st = true → ∃ i is, cs = i :: is ∧ i ≠ .nil)
    (ht : Tail st t) : (wireAll cs ++ t).head? ≠ some kNil := by
  cases st with
  | true => obtain ⟨i, is, rfl, hi⟩ := hf rfl; exact head_wireAll hi is t
  | false => simpa [Tail] using tail_items h ht

theorem okay_itemOf {st : Bool} {s : Scalar} (h : s.Fits) : Okay st (itemOf s) := ⟨itemOf_fits h, .inr (itemOf_ne_nil s)⟩

theorem forFields_spec {st : Bool} {stmt : Field → V → D V} {fields : List Field} {em : Nat → Option (List Item)} {T : List V} :
    ∀ (is : List Nat) (x : List V), is.Nodup →
    (∀ i ∈ is, ∃ f old v items, fields[i]? = some f ∧ x[i]? = some old ∧ T[i]? = some v ∧ em i = some items ∧
      (∀ j ∈ items, Okay st j) ∧ ∀ t, Tail st t → stmt f old (wireAll items ++ t) = .ok t v) →
    ∃ items, concatM em is = some items ∧ (∀ j ∈ items, Okay st j) ∧
      ∀ t, Tail st t → forFields stmt fields is x (wireAll items ++ t) = .ok t (setAll T is x) := by
  intro is
  induction is with
  | nil => intro x _ _; exact ⟨[], rfl, by simp, fun t _ => by simp [wireAll, forFields, setAll]⟩
  | cons i is ih =>
    intro x hn h
    rw [List.nodup_cons] at hn
    obtain ⟨f, old, v, items, h1, h2, h3, h4, h5, h6⟩ := h i (by simp)
    obtain ⟨items', h7, h8, h9⟩ := ih (x.set i v) hn.2 (by
      intro j hj
      obtain ⟨f', old', v', it', a, b, c, d⟩ := h j (by simp [hj])
      refine ⟨f', old', v', it', a, ?_, c, d⟩
      rw [List.getElem?_set_ne (by rintro rfl; exact hn.1 hj)]; exact b)
    refine ⟨items ++ items', by simp [concatM, h4, h7], ?_, ?_⟩
    · intro j hj
      rcases List.mem_append.mp hj with hj | hj
      · exact h5 j hj
      · exact h8 j hj
    · intro t ht
      rw [forFields, h1, h2]
      simp only []
      rw [wireAll_append, List.append_assoc, bind_ok (h6 _ (tail_items h8 ht)), h9 _ ht, setAll, h3]; rfl

/-! ## Values of fields -/

theorem ofFields_length (S : Schema) : ∀ (fs : List Field) (vs : List V), OfFields S fs vs → fs.length = vs.length := by
  intro fs
  induction fs with
  | nil => intro vs h; cases vs <;> simp [OfFields] at *
  | cons f fs ih => intro vs h; cases vs <;> simp only [OfFields] at h; simp [ih _ h.2]

theorem ofFields_get (S : Schema) : ∀ (fs : List Field) (vs : List V) (i : Nat) (f : Field), OfFields S fs vs →
    fs[i]? = some f → ∃ v, vs[i]? = some v ∧ v.OfField S f := by
  intro fs
  induction fs with
  | nil => intro vs i f _ h; simp at h
  | cons g fs ih =>
    intro vs i f h hi
    cases vs with
    | nil => simp only [OfFields] at h
    | cons v vs =>
      simp only [OfFields] at h
      cases i with
      | zero => simp at hi; subst hi; exact ⟨v, rfl, h.1⟩
      | succ i => simpa using ih vs i f h.2 (by simpa using hi)

theorem ofElems_iff (S : Schema) (f : Field) (vs : List V) : OfElems S f vs ↔ ∀ v ∈ vs, v.OfField S f := by
  induction vs with
  | nil => simp [OfElems]
  | cons v vs ih => simp [OfElems, ih]

theorem anchoredE_iff (S : Schema) (f : Field) (vs : List V) : AnchoredE S f vs ↔ ∀ v ∈ vs, v.Anchored S f := by
  induction vs with
  | nil => simp [AnchoredE]
  | cons v vs ih => simp [AnchoredE, ih]

theorem anchoredF_get (S : Schema) : ∀ (fs : List Field) (vs : List V) (i : Nat) (f : Field) (v : V),
    AnchoredF S fs vs → fs[i]? = some f → vs[i]? = some v → v.Anchored S f := by
  intro fs
  induction fs with
  | nil => intro vs i f v _ h; simp at h
  | cons g fs ih =>
    intro vs i f v h hi hv
    cases vs with
    | nil => simp at hv
    | cons w vs =>
      simp only [AnchoredF] at h
      cases i with
      | zero => simp at hi hv; subst hi; subst hv; exact h.1
      | succ i => exact ih vs i f v h.2 (by simpa using hi) (by simpa using hv)

theorem noNilAll_iff (vs : List V) : NoNilAll vs ↔ ∀ v ∈ vs, v.NoNil := by
  induction vs with
  | nil => simp [NoNilAll]
  | cons v vs ih => simp [NoNilAll, ih]

/-- The condition on values: with `st` every message writes an item other than nil first, without `st` nothing is nil. -/
def Cond (st : Bool) (S : Schema) (f : Field) (v : V) : Prop := if st then v.Anchored S f else v.NoNil

theorem cond_slice {st : Bool} {S : Schema} {k : PKind} {r : Nat} {vs : List V} (h : Cond st S (.many k r) (.slice vs)) :
    ∀ v ∈ vs, Cond st S (.one k r false) v := by
  cases st
  · simpa [Cond, V.NoNil, noNilAll_iff] using h
  · simpa [Cond, V.Anchored, anchoredE_iff] using h

theorem cond_map {st : Bool} {S : Schema} {kk k : PKind} {r : Nat} {ks : List Scalar} {vs : List V}
    (h : Cond st S (.map kk k r) (.map ks vs)) : ∀ v ∈ vs, Cond st S (.one k r false) v := by
  cases st
  · simpa [Cond, V.NoNil, noNilAll_iff] using h
  · simpa [Cond, V.Anchored, anchoredE_iff] using h

theorem cond_get {st : Bool} {S : Schema} {k : PKind} {m : Nat} {c : Bool} {vs : List V} (h : Cond st S (.one k m c) (.msg vs))
    {i : Nat} {f : Field} {v : V} (hf : (S.fields m)[i]? = some f) (hv : vs[i]? = some v) : Cond st S f v := by
  cases st
  · simp only [Cond, Bool.false_eq_true, if_false, V.NoNil, noNilAll_iff] at *
    exact h v (List.mem_of_getElem? hv)
  · simp only [Cond, if_true, V.Anchored] at *
    exact anchoredF_get S _ _ i f v h.2 hf hv

theorem cond_card {st : Bool} {S : Schema} {k : PKind} {m : Nat} {c c' : Bool} {vs : List V} (h : Cond st S (.one k m c) (.msg vs)) :
    Cond st S (.one k m c') (.msg vs) := by
  cases st <;> simpa [Cond, V.NoNil, V.Anchored] using h

theorem cond_nil {st : Bool} {S : Schema} {f : Field} (h : Cond st S f .nil) : st = true := by
  cases st <;> simp [Cond, V.NoNil] at *

theorem fitsAll_iff (vs : List V) : FitsAll vs ↔ ∀ v ∈ vs, v.Fits := by
  induction vs with
  | nil => simp [FitsAll]
  | cons v vs ih => simp [FitsAll, ih]

theorem oversF_get (w : Style) (S : Schema) : ∀ (fs : List Field) (olds vs : List V) (i : Nat) (f : Field) (old v : V),
    fs[i]? = some f → olds[i]? = some old → vs[i]? = some v → (oversF w S fs olds vs)[i]? = some (V.over w S f old v) := by
  intro fs
  induction fs with
  | nil => intro _ _ i f _ _ h; simp at h
  | cons g fs ih =>
    intro olds vs i f old v h1 h2 h3
    cases olds with
    | nil => simp at h2
    | cons o olds =>
      cases vs with
      | nil => simp at h3
      | cons w vs =>
        rw [oversF]
        cases i with
        | zero => simp at h1 h2 h3; subst h1; subst h2; subst h3; rfl
        | succ i => simpa using ih olds vs i f old v (by simpa using h1) (by simpa using h2) (by simpa using h3)

theorem oversF_length (w : Style) (S : Schema) : ∀ (fs : List Field) (olds vs : List V), fs.length = olds.length →
    fs.length = vs.length → (oversF w S fs olds vs).length = fs.length := by
  intro fs
  induction fs with
  | nil => intro olds vs _ _; cases olds <;> cases vs <;> simp [oversF]
  | cons f fs ih =>
    intro olds vs h1 h2
    cases olds with
    | nil => simp at h1
    | cons o olds =>
      cases vs with
      | nil => simp at h2
      | cons v vs => rw [oversF]; simp [ih olds vs (by simpa using h1) (by simpa using h2)]

/-- A value of a singular field: a scalar, or nil or a message. -/
theorem ofField_one {S : Schema} {k : PKind} {r : Nat} {c : Bool} {v : V} (h : v.OfField S (.one k r c)) :
    (∃ s, v = .scalar s ∧ s.OfKind k) ∨ (k = .message ∧ v = .nil) ∨
    (k = .message ∧ ∃ vs, v = .msg vs ∧ OfFields S (S.fields r) vs) := by
  cases v <;> simp only [V.OfField] at h
  · exact .inl ⟨_, rfl, h⟩
  · exact .inr (.inl ⟨h, rfl⟩)
  · exact .inr (.inr ⟨h.1, _, rfl, h.2⟩)

theorem fresh_ofField (S : Schema) {f : Field} (h : f.GoSupported) : f.fresh.OfField S f := by
  cases f with
  | one k r c => cases k <;> simp [Field.GoSupported, Field.fresh, V.OfField, Scalar.OfKind] at *
  | many k r => simp [Field.fresh, V.OfField, OfElems]
  | map kk k r => simp [Field.fresh, V.OfField]

theorem fresh_ofFields (S : Schema) : ∀ (fs : List Field), (∀ f ∈ fs, f.GoSupported) → OfFields S fs (fs.map Field.fresh) := by
  intro fs
  induction fs with
  | nil => intro _; simp [OfFields]
  | cons f fs ih =>
    intro h
    simp only [List.map_cons, OfFields]
    exact ⟨fresh_ofField S (h f (by simp)), ih (fun g hg => h g (by simp [hg]))⟩

theorem zero_fresh {f : Field} (h : f.GoSupported) : ∃ t, FindValue f = some t ∧ zero t = f.fresh := by
  cases f with
  | one k r c => cases k <;> simp [Field.GoSupported, FindValue, FindElem, typeLUT, zero, Field.fresh] at *
  | many k r => cases k <;> simp [Field.GoSupported, FindValue, FindElem, typeLUT, zero, Field.fresh] at *
  | map kk k r =>
    cases kk <;> cases k <;> simp [Field.GoSupported, FindValue, FindElem, typeLUT, zero, Field.fresh] at *

theorem fields_supported {S : Schema} (h : S.GoSupported) (m : Nat) : ∀ f ∈ S.fields m, f.GoSupported := by
  intro f hf
  unfold Schema.fields at hf
  cases hm : S.messages[m]? with
  | none => rw [hm] at hf; simp at hf
  | some fs =>
    rw [hm] at hf
    exact (h fs (List.mem_of_getElem? hm)).1 f (by simpa using hf)

theorem errUsed_ok {S : Schema} (h : S.GoSupported) (m : Nat) :
    errUsed (S.fields m) ⟨idx isMsg 0 (S.fields m), idx isSlice 0 (S.fields m), idx isValue 0 (S.fields m)⟩ = true := by
  have hs : S.fields m = [] ∨ ∃ f ∈ S.fields m, f.IsMap = false := by
    unfold Schema.fields
    cases hm : S.messages[m]? with
    | none => simp
    | some fs => simpa using (h fs (List.mem_of_getElem? hm)).2
  rcases hs with hs | ⟨f, hf, hmap⟩
  · simp [hs, errUsed, idx]
  · obtain ⟨i, hi⟩ := List.mem_iff_getElem?.mp hf
    have key : ∀ p : Field → Bool, p f = true → i ∈ idx p 0 (S.fields m) := fun p hp =>
      (mem_idx p _ 0 i).mpr ⟨Nat.zero_le _, f, by simpa using hi, hp⟩
    cases f with
    | map => simp [Field.IsMap] at hmap
    | many k r =>
      have := key isSlice rfl
      cases hl : idx isSlice 0 (S.fields m) with
      | nil => rw [hl] at this; simp at this
      | cons => simp [errUsed]
    | one k r c =>
      by_cases hk : k = .message
      · have := key isMsg (by simp [isMsg, hk])
        simp only [errUsed, Bool.or_eq_true, List.any_eq_true]
        right
        exact ⟨i, this, by simp [hi, Field.IsMap]⟩
      · have := key isValue (by simp [isValue, hk])
        cases hl : idx isValue 0 (S.fields m) with
        | nil => rw [hl] at this; simp at this
        | cons => simp [errUsed]

theorem fresh_typed {S : Schema} (h : S.GoSupported) (m : Nat) : OfFields S (S.fields m) (S.fresh m) :=
  fresh_ofFields S _ (fields_supported h m)


/-- The version, the specification of how it treats old values, and a bound on the depth of `New`. -/
structure Setup (ver : Version) (w : Style) (S : Schema) (N : Nat) : Prop where
  supported : S.GoSupported
  new : ∀ n, N ≤ n → ∀ m, New ver S n m = some (w.fresh m)
  typed : ∀ m, OfFields S (S.fields m) (w.fresh m)
  merge : w.merge = !ver.skipNil
  law : ∃ rd, Law ver rd

/-- The functions generated code calls, with a bound on their depth. -/
def callees (ver : Version) (rd : Codec) (S : Schema) (n : Nat) : Callees := ⟨callNew ver S n, decode ver rd S n⟩

theorem Setup.current {ver : Version} {w : Style} {S : Schema} {N : Nat} (h : Setup ver w S N) (rd : Codec) (n m : Nat)
    (old : V) (b : Bytes) : GoGen.current (callees ver rd S (n + N)) m old b = .ok b (w.into m old) := by
  unfold GoGen.current Style.into
  split
  · rfl
  · show callNew ver S (n + N) m b = _
    simp [callNew, h.new (n + N) (by omega) m]

theorem Setup.into {ver : Version} {w : Style} {S : Schema} {N : Nat} (h : Setup ver w S N) {m : Nat} {c : Bool}
    {old : V} (ho : old.OfField S (.one .message m c)) : OfFields S (S.fields m) (w.into m old) := by
  rcases ofField_one ho with ⟨s, rfl, hs⟩ | ⟨_, rfl⟩ | ⟨_, fs, rfl, hfs⟩
  · exact h.typed m
  · exact h.typed m
  · exact hfs

/-! ## Nested messages -/

/-- Encoding and decoding work for every message of nesting depth at most `n`. -/
def Good (st : Bool) (ver : Version) (w : Style) (S : Schema) (N n : Nat) : Prop := ∀ (m : Nat) (vs : List V), OfFields S (S.fields m) vs →
  Cond st S (.one .message m false) (.msg vs) → FitsAll vs → depths vs < n →
  ∃ cs, Encode S m (.msg vs) = some cs ∧ (∀ i ∈ cs, Okay st i) ∧ (st = true → ∃ i is, cs = i :: is ∧ i ≠ .nil) ∧
    ∀ (rd : Codec), Law ver rd → ∀ (olds : List V) (t : Bytes), Tail st t → OfFields S (S.fields m) olds →
      decode ver rd S (n + N) m olds (wireAll cs ++ t) = .ok t (oversF w S (S.fields m) olds vs)

theorem part_encode {S : Schema} {m : Nat} {c : Bool} {v : V} {cs : List Item} (h : Encode S m v = some cs) :
    part S (.one .message m c) v = some (.encode cs) := by
  have hc : part S (.one .message m c) v = part S (.one .message m false) v := by
    cases v <;> simp only [part]
  rw [hc]
  unfold Encode at h
  split at h
  · rename_i h1; rw [h1]; simpa using h
  · simp at h

/-- Decoding a nil pointer: nothing but the nil byte is read. -/
theorem decode_nil {ver : Version} {rd : Codec} (hl : Law ver rd) (S : Schema) (n m : Nat) (olds : List V) (t : Bytes) :
    decode ver rd S (n + 1) m olds (wireAll [.nil] ++ t) = .ok t olds := by
  rw [decode, show wireAll [.nil] = wire .nil from rfl, bind_ok (isNil_nil hl t)]
  rfl

/-- An element of message type. -/
theorem elemMessage {st : Bool} {S : Schema} {ver : Version} {w : Style} {N : Nat} (hS : Setup ver w S N) {n : Nat} (hn : Good st ver w S N n) {r : Nat} {v : V}
    (hv : v.OfField S (.one .message r false)) (ha : Cond st S (.one .message r false) v) (hf : v.Fits)
    (hd : v.depth ≤ n) :
    ∃ cs, part S (.one .message r false) v = some (.encode cs) ∧ (∀ i ∈ cs, Okay st i) ∧
      ∀ (rd : Codec), Law ver rd → ∀ (old : V) (t : Bytes), Tail st t → old.OfField S (.one .message r false) →
        decInto (callees ver rd S (n + N)) r old (wireAll cs ++ t) = .ok t (V.overElem w S r old v) := by
  have hold := fun old ho => hS.into (m := r) (c := false) (old := old) ho
  rcases ofField_one hv with ⟨s, rfl, hs⟩ | ⟨_, rfl⟩ | ⟨_, vs, rfl, hvs⟩
  · cases s <;> simp [Scalar.OfKind] at hs
  · refine ⟨[.nil], by simp [part], by simp [Okay, cond_nil ha, Item.Fits], ?_⟩
    intro rd hl old t ht ho
    obtain ⟨k, hk⟩ : ∃ k, n + N = k + 1 := ⟨n + N - 1, by simp only [V.depth] at hd; omega⟩
    rw [decInto, bind_ok (hS.current rd n r old _), show (callees ver rd S (n + N)).decode = decode ver rd S (n + N) from rfl, hk,
      bind_ok (decode_nil hl S k r _ t)]
    simp [V.overElem]
  · have hd' : depths vs < n := by simp only [V.depth] at hd; omega
    obtain ⟨cs, h1, h2, h3, h4⟩ := hn r vs hvs ha (by simpa [V.Fits] using hf) hd'
    refine ⟨cs, part_encode h1, h2, ?_⟩
    intro rd hl old t ht ho
    rw [decInto, bind_ok (hS.current rd n r old _), show (callees ver rd S (n + N)).decode = decode ver rd S (n + N) from rfl,
      bind_ok (h4 rd hl _ t ht (hold old ho))]
    simp [V.overElem]

/-! ## Repeated fields -/

theorem elemsMessage {st : Bool} {S : Schema} {ver : Version} {w : Style} {N : Nat} (hS : Setup ver w S N) {n : Nat} (hn : Good st ver w S N n) {r : Nat} :
    ∀ (vs : List V), (∀ v ∈ vs, v.OfField S (.one .message r false)) →
    (∀ v ∈ vs, Cond st S (.one .message r false) v) → (∀ v ∈ vs, v.Fits) → (∀ v ∈ vs, v.depth ≤ n) →
    ∃ ps es, elemParts S (.one .message r false) vs = some ps ∧ concatM emitElemMessage ps = some es ∧ (∀ i ∈ es, Okay st i) ∧
      ∀ (rd : Codec), Law ver rd → ∀ (olds : List V) (t : Bytes), Tail st t → olds.length = vs.length →
        (∀ o ∈ olds, o.OfField S (.one .message r false)) →
        decElems rd (callees ver rd S (n + N)) .message r olds (wireAll es ++ t) = .ok t (oversE w S r olds vs) := by
  intro vs
  induction vs with
  | nil =>
    intro _ _ _ _
    refine ⟨[], [], by simp [elemParts], rfl, by simp, ?_⟩
    intro rd hl olds t ht ho _
    cases olds with
    | nil => simp [decElems, oversE, wireAll]
    | cons => simp at ho
  | cons v vs ih =>
    intro h1 h2 h3 h4
    obtain ⟨cs, g1, g2, g3⟩ := elemMessage hS hn (h1 v (by simp)) (h2 v (by simp)) (h3 v (by simp)) (h4 v (by simp))
    obtain ⟨ps, es, k1, k2, k3, k4⟩ := ih (fun w hw => h1 w (by simp [hw])) (fun w hw => h2 w (by simp [hw]))
      (fun w hw => h3 w (by simp [hw])) (fun w hw => h4 w (by simp [hw]))
    refine ⟨.encode cs :: ps, cs ++ es, by simp [elemParts, g1, k1], by simp [concatM, emitElemMessage, k2], ?_, ?_⟩
    · intro i hi
      rcases List.mem_append.mp hi with hi | hi
      · exact g2 i hi
      · exact k3 i hi
    · intro rd hl olds t ht ho hty
      cases olds with
      | nil => simp at ho
      | cons o olds =>
        rw [decElems, wireAll_append, List.append_assoc, if_pos rfl,
          bind_ok (g3 rd hl o _ (tail_items k3 ht) (hty o (by simp))),
          bind_ok (k4 rd hl olds t ht (by simpa using ho) (fun w hw => hty w (by simp [hw])))]
        rw [oversE]; rfl

theorem elemsScalar {st : Bool} {S : Schema} {ver : Version} {w : Style} {N n : Nat} {k : PKind} {r : Nat} (hk : IsScalar k) (he : k ≠ .enum) (hb : k ≠ .bytes)
    {m : Method} (hm : encodeLUT k = some m) :
    ∀ (vs : List V), (∀ v ∈ vs, v.OfField S (.one k r false)) → (∀ v ∈ vs, v.Fits) →
    ∃ ps es, elemParts S (.one k r false) vs = some ps ∧ concatM (emitElemScalar m) ps = some es ∧ (∀ i ∈ es, Okay st i) ∧
      ∀ (rd : Codec), Law ver rd → ∀ (olds : List V) (t : Bytes), Tail st t → olds.length = vs.length →
        decElems rd (callees ver rd S (n + N)) k r olds (wireAll es ++ t) = .ok t (oversE w S r olds vs) := by
  intro vs
  induction vs with
  | nil =>
    intro _ _
    refine ⟨[], [], by simp [elemParts], rfl, by simp, ?_⟩
    intro rd hl olds t ht ho
    cases olds with
    | nil => simp [decElems, oversE, wireAll]
    | cons => simp at ho
  | cons v vs ih =>
    intro h1 h2
    obtain ⟨s, rfl, hs⟩ : ∃ s, v = .scalar s ∧ s.OfKind k := by
      rcases ofField_one (h1 v (by simp)) with h | ⟨h, _⟩ | ⟨h, _⟩
      · exact h
      · exact absurd h hk.1
      · exact absurd h hk.1
    have hsf : s.Fits := by simpa [V.Fits] using h2 (.scalar s) (by simp)
    obtain ⟨ps, es, k1, k2, k3, k4⟩ := ih (fun w hw => h1 w (by simp [hw])) (fun w hw => h2 w (by simp [hw]))
    refine ⟨.scalar s :: ps, itemOf s :: es, by simp [elemParts, part, k1],
      by simp [concatM, emitElemScalar, emitScalar_plain hs hm he, k2], ?_, ?_⟩
    · intro i hi
      rcases List.mem_cons.mp hi with rfl | hi
      · exact okay_itemOf hsf
      · exact k3 i hi
    · intro rd hl olds t ht ho
      cases olds with
      | nil => simp at ho
      | cons o olds =>
        obtain ⟨m', e1, e2, _⟩ := encodeLUT_scalar hk
        have hmm : m' = m := by rw [hm] at e1; simpa using e1.symm
        subst hmm
        obtain ⟨ty, a1, a2⟩ := assign_wire hl hs he e2 r [] (wireAll es ++ t) hsf (.inr rfl)
        have hmb : m' ≠ .Bytes := fun h => hb (decodeLUT_bytes (h ▸ e2))
        rw [decElems, wireAll_cons, List.append_assoc, if_neg hk.1, e2, a1]
        simp only []
        rw [if_neg hmb]
        have : (do
            let s ← assign rd m' [] ty
            pure (V.scalar s) : D V) (wire (itemOf s) ++ (wireAll es ++ t)) = .ok (wireAll es ++ t) (.scalar s) := by
          rw [bind_ok a2]; rfl
        rw [bind_ok this, bind_ok (k4 rd hl olds t ht (by simpa using ho))]
        rw [oversE]; simp [V.overElem]

theorem oversE_pad (w : Style) (S : Schema) (r : Nat) (z : V) : ∀ (vs : List V) (n : Nat),
    (∀ v ∈ vs, V.overElem w S r z v = V.overElem w S r .nil v) → oversE w S r (List.replicate n z) vs = oversE w S r [] vs := by
  intro vs
  induction vs with
  | nil => intro n _; cases n <;> simp [oversE]
  | cons v vs ih =>
    intro n h
    cases n with
    | zero => rfl
    | succ n =>
      rw [List.replicate_succ, oversE, oversE, h v (by simp), ih n (fun w hw => h w (by simp [hw]))]

theorem ofNat_inj {a b : Nat} (ha : a < 2 ^ 32) (hb : b < 2 ^ 32) :
    (BitVec.ofNat 32 a ≠ BitVec.ofNat 32 b) ↔ a ≠ b := by
  constructor
  · intro h e; exact h (by rw [e])
  · intro h e
    have := congrArg BitVec.toNat e
    simp only [BitVec.toNat_ofNat] at this
    rw [Nat.mod_eq_of_lt ha, Nat.mod_eq_of_lt hb] at this
    exact h this

/-- A repeated field. -/
theorem sliceField {st : Bool} {S : Schema} {ver : Version} {w : Style} {N : Nat} (hS : Setup ver w S N) {n : Nat} (hn : Good st ver w S N n) {k : PKind} {r : Nat} {v : V}
    (hk : (Field.many k r).GoSupported)
    (hv : v.OfField S (.many k r)) (ha : Cond st S (.many k r) v) (hf : v.Fits) (hd : v.depth ≤ n) :
    ∃ cs, part S (.many k r) v = some (.slice cs) ∧ (∀ i ∈ cs, Okay st i) ∧ (∃ i is, cs = i :: is ∧ i ≠ .nil) ∧
      ∀ (rd : Codec), Law ver rd → ∀ (old : V) (t : Bytes), Tail st t → old.OfField S (.many k r) →
        decSlice rd (callees ver rd S (n + N)) (.many k r) old (wireAll cs ++ t) = .ok t (V.over w S (.many k r) old v) := by
  cases v <;> simp only [V.OfField] at hv
  rename_i vs
  have hvs := (ofElems_iff ..).mp hv.2
  have hfs := (fitsAll_iff vs).mp (by simpa [V.Fits] using hf)
  have hds : ∀ v ∈ vs, v.depth ≤ n := fun v h => Nat.le_trans (depth_le_depths h) (by simpa [V.depth] using hd)
  -- the elements, decoded into any old elements of the right number
  have key : ∃ kk ps es, GetKind k = some kk ∧ elemParts S (.one k r false) vs = some ps ∧
      emitElems k vs.length ps = some (.slice (.slice (BitVec.ofNat 32 vs.length) kk :: es)) ∧ (∀ i ∈ es, Okay st i) ∧
      ∀ (rd : Codec), Law ver rd → ∀ (olds : List V) (t : Bytes), Tail st t → olds.length = vs.length →
        (∀ o ∈ olds, o.OfField S (.one k r false)) →
        decElems rd (callees ver rd S (n + N)) k r olds (wireAll es ++ t) = .ok t (oversE w S r olds vs) := by
    by_cases hm : k = .message
    · subst hm
      have has := cond_slice ha
      obtain ⟨ps, es, h1, h2, h3, h4⟩ := elemsMessage hS hn vs hvs has hfs hds
      refine ⟨GoV2.AnyRawKind, ps, es, rfl, h1, ?_, h3, h4⟩
      simp [emitElems, encodeLUT, h2]
    · have hsc : IsScalar k := ⟨hm, hk.1⟩
      obtain ⟨m, e1, e2, kk, e3, e4⟩ := encodeLUT_scalar hsc
      obtain ⟨ps, es, h1, h2, h3, h4⟩ := elemsScalar (S := S) (ver := ver) (w := w) (N := N) (n := n) (r := r) hsc hk.2.1 hk.2.2 e1 vs hvs hfs
      refine ⟨kk, ps, es, e4, h1, ?_, h3, fun rd hl olds t ht h _ => h4 rd hl olds t ht h⟩
      simp [emitElems, e1, e3, h2]
  obtain ⟨kk, ps, es, h1, h2, h3, h4, h5⟩ := key
  refine ⟨.slice (BitVec.ofNat 32 vs.length) kk :: es, by simp [part, h2, h3], ?_, ⟨_, _, rfl, by simp⟩, ?_⟩
  · intro i hi
    rcases List.mem_cons.mp hi with rfl | hi
    · simp [Okay, Item.Fits]
    · exact h4 i hi
  · intro rd hl old t ht ho
    cases old <;> simp only [V.OfField] at ho
    rename_i olds
    have hos := (ofElems_iff ..).mp ho.2
    rw [show decSlice rd (callees ver rd S (n + N)) (.many k r) (.slice olds) = (match GetKind k with
      | some kk => do
        match ← read rd (.slice kk) with
        | .slice sliceSize _ => do
          let cur := if BitVec.ofNat 32 olds.length ≠ sliceSize
            then List.replicate sliceSize.toNat (((FindElem k r false).map zero).getD .nil)
            else olds
          let vs ← decElems rd (callees ver rd S (n + N)) k r cur
          pure (.slice vs)
        | _ => D.bad
      | none => D.bad : D V) by
        unfold decSlice
        simp only [Field.Kind, elems]
        cases GetKind k <;> rfl, h1]
    simp only []
    rw [wireAll_cons, List.append_assoc, bind_ok (read_wire hl (Matches.slice _ kk) (by simp [Item.Fits]) (.inr (by simp)) _)]
    simp only [V.over]
    by_cases hlen : olds.length = vs.length
    · rw [if_neg (by rw [hlen]; simp), if_pos hlen, bind_ok (h5 rd hl olds t ht hlen hos)]; rfl
    · rw [if_pos ((ofNat_inj ho.1 hv.1).mpr hlen), if_neg hlen]
      obtain ⟨ty, z1, z2⟩ := zero_fresh (f := .one k r false) hk.1
      have hz : ((FindElem k r false).map zero).getD .nil = (Field.one k r false).fresh := by
        simp only [FindValue] at z1; rw [z1]; simpa using z2
      rw [hz]
      have hto : (BitVec.ofNat 32 vs.length).toNat = vs.length := by
        rw [BitVec.toNat_ofNat, Nat.mod_eq_of_lt hv.1]
      rw [hto, bind_ok (h5 rd hl (List.replicate vs.length _) t ht (by simp) (by
        intro o ho
        rw [List.eq_of_mem_replicate ho]
        exact fresh_ofField S (f := .one k r false) hk.1))]
      rw [oversE_pad]
      · rfl
      · intro v hvm
        rcases ofField_one (hvs v hvm) with ⟨s, rfl, hs⟩ | ⟨rfl, rfl⟩ | ⟨rfl, ws, rfl, _⟩
        · simp [V.overElem]
        · rfl
        · rfl


/-! ## Maps -/

theorem put_fresh : ∀ (ks : List Scalar) (vs : List V) (k : Scalar) (v : V), ks.length = vs.length → k ∉ ks →
    put k v ks vs = (ks ++ [k], vs ++ [v]) := by
  intro ks
  induction ks with
  | nil => intro vs k v h _; cases vs with
    | nil => rfl
    | cons => simp at h
  | cons k' ks ih =>
    intro vs k v h hn
    cases vs with
    | nil => simp at h
    | cons v' vs =>
      have h1 : k ≠ k' := fun e => hn (by simp [e])
      have h2 := ih vs k v (by simpa using h) (fun e => hn (by simp [e]))
      rw [put, if_neg h1, h2]; rfl

/-- One value of a map. -/
theorem mapValue {st : Bool} {S : Schema} {ver : Version} {w : Style} {N : Nat} (hS : Setup ver w S N) {n : Nat} (hn : Good st ver w S N n) {k : PKind} {r : Nat} {v : V}
    (hk : k ≠ .group) (hb : k ≠ .bytes) (hv : v.OfField S (.one k r false)) (ha : Cond st S (.one k r false) v) (hf : v.Fits)
    (hd : v.depth ≤ n) :
    ∃ p cs, part S (.one k r false) v = some p ∧ emitMapValue k p = some cs ∧ (∀ i ∈ cs, Okay st i) ∧
      ∀ (rd : Codec), Law ver rd → ∀ t : Bytes, Tail st t →
        decMapValue rd (callees ver rd S (n + N)) k r (wireAll cs ++ t) = .ok t (V.overElem w S r .nil v) := by
  by_cases hm : k = .message
  · subst hm
    obtain ⟨cs, h1, h2, h3⟩ := elemMessage hS hn hv ha hf hd
    refine ⟨_, cs, h1, rfl, h2, ?_⟩
    intro rd hl t ht
    exact h3 rd hl .nil t ht (by simp [V.OfField])
  · have hsc : IsScalar k := ⟨hm, hk⟩
    obtain ⟨s, rfl, hs⟩ : ∃ s, v = .scalar s ∧ s.OfKind k := by
      rcases ofField_one hv with h | ⟨h, _⟩ | ⟨h, _⟩
      · exact h
      · exact absurd h hm
      · exact absurd h hm
    have hsf : s.Fits := by simpa [V.Fits] using hf
    obtain ⟨m, e1, e2, _⟩ := encodeLUT_scalar hsc
    refine ⟨.scalar s, [itemOf s], by simp [part], by simp only [emitMapValue, e1]; exact emitScalar_enum hs e1, ?_, ?_⟩
    · intro i hi; simp at hi; subst hi; exact okay_itemOf hsf
    · intro rd hl t ht
      rw [show wireAll [itemOf s] = wire (itemOf s) by simp [wireAll], V.overElem]
      · by_cases he : k = .enum
        · subst he
          obtain ⟨w, rfl⟩ := enum_cases hs
          show (do
            let s ← assignEnum rd .Uint32
            pure (.scalar s) : D V) _ = _
          rw [itemOf, bind_ok (assignEnum_wire hl w t)]; rfl
        · obtain ⟨ty, a1, a2⟩ := assign_wire hl hs he e2 r [] t hsf (.inr rfl)
          have hmb : m ≠ .Bytes := fun h => hb (decodeLUT_bytes (h ▸ e2))
          rw [decMapValue, e2, a1]
          simp only []
          rw [if_neg he, if_neg hmb, bind_ok a2]; rfl
      all_goals simp

theorem entries {st : Bool} {S : Schema} {ver : Version} {w : Style} {N : Nat} (hS : Setup ver w S N) {n : Nat} (hn : Good st ver w S N n) {kk k : PKind} {r : Nat}
    (hkk : kk ≠ .bytes) (hk : k ≠ .group) (hb : k ≠ .bytes) :
    ∀ (ks : List Scalar) (vs : List V), ks.length = vs.length → ks.Nodup → (∀ s ∈ ks, s.OfKind kk) → (∀ s ∈ ks, s.Fits) →
    (∀ v ∈ vs, v.OfField S (.one k r false)) →
    (∀ v ∈ vs, Cond st S (.one k r false) v) → (∀ v ∈ vs, v.Fits) → (∀ v ∈ vs, v.depth ≤ n) →
    ∃ ps es, elemParts S (.one k r false) vs = some ps ∧ ps.length = vs.length ∧ emitEntries kk k ks ps = some es ∧
      (∀ i ∈ es, Okay st i) ∧
      ∀ (rd : Codec), Law ver rd → ∀ (ks0 : List Scalar) (vs0 : List V) (t : Bytes), Tail st t → ks0.length = vs0.length →
        (∀ s ∈ ks, s ∉ ks0) →
        decEntries rd (callees ver rd S (n + N)) kk k r vs.length ks0 vs0 (wireAll es ++ t) =
          .ok t (ks0 ++ ks, vs0 ++ oversE w S r [] vs) := by
  intro ks
  induction ks with
  | nil =>
    intro vs h
    cases vs with
    | nil =>
      intros
      exact ⟨[], [], by simp [elemParts], rfl, rfl, by simp, by intros; simp [decEntries, wireAll, oversE]⟩
    | cons => simp at h
  | cons s ks ih =>
    intro vs h hnd hty hsf h1 h2 h3 h4
    cases vs with
    | nil => simp at h
    | cons v vs =>
      rw [List.nodup_cons] at hnd
      obtain ⟨p, cs, g1, g2, g3, g4⟩ := mapValue hS hn hk hb (h1 v (by simp)) (h2 v (by simp)) (h3 v (by simp)) (h4 v (by simp))
      obtain ⟨ps, es, k1, k2, k3, k4, k5⟩ := ih vs (by simpa using h) hnd.2 (fun w hw => hty w (by simp [hw]))
        (fun w hw => hsf w (by simp [hw])) (fun w hw => h1 w (by simp [hw])) (fun w hw => h2 w (by simp [hw]))
        (fun w hw => h3 w (by simp [hw])) (fun w hw => h4 w (by simp [hw]))
      have hs := hty s (by simp)
      obtain ⟨m, e1, e2, _⟩ := encodeLUT_scalar (ofKind_scalar hs)
      have hkey : emitKey kk s = some [itemOf s] := by
        simp only [emitKey, e1]; exact emitScalar_enum hs e1
      refine ⟨p :: ps, [itemOf s] ++ cs ++ es, by simp [elemParts, g1, k1], by simp [k2], by simp [emitEntries, hkey, g2, k3], ?_, ?_⟩
      · intro i hi
        simp only [List.cons_append, List.nil_append, List.mem_cons, List.mem_append] at hi
        rcases hi with rfl | hi | hi
        · exact okay_itemOf (hsf s (by simp))
        · exact g3 i hi
        · exact k4 i hi
      · intro rd hl ks0 vs0 t ht h0 hfr
        have hw : wireAll ([itemOf s] ++ cs ++ es) ++ t = wire (itemOf s) ++ (wireAll cs ++ (wireAll es ++ t)) := by
          simp [wireAll]
        rw [List.length_cons, decEntries, hw, bind_ok (decKey_wire hl hs hkk _ (hsf s (by simp))), bind_ok (g4 rd hl _ (tail_items k4 ht)),
          put_fresh ks0 vs0 s _ h0 (hfr s (by simp)),
          k5 rd hl _ _ t ht (by simp [h0]) (by
            intro s' hs' hmem
            rcases List.mem_append.mp hmem with hmem | hmem
            · exact hfr s' (by simp [hs']) hmem
            · simp at hmem; subst hmem; exact hnd.1 hs')]
        rw [oversE]; simp

theorem getKind_ok {k : PKind} (h : k ≠ .group) : ∃ kk, GetKind k = some kk := by
  cases k <;> simp [GetKind, kindLUT] at *

/-- A map field. -/
theorem mapField {st : Bool} {S : Schema} {ver : Version} {w : Style} {N : Nat} (hS : Setup ver w S N) {n : Nat} (hn : Good st ver w S N n) {kk k : PKind} {r : Nat} {v : V}
    (hk : (Field.map kk k r).GoSupported)
    (hv : v.OfField S (.map kk k r)) (ha : Cond st S (.map kk k r) v) (hf : v.Fits) (hd : v.depth ≤ n) :
    ∃ cs, part S (.map kk k r) v = some (.encode cs) ∧ (∀ i ∈ cs, Okay st i) ∧ (∃ i is, cs = i :: is ∧ i ≠ .nil) ∧
      ∀ (rd : Codec), Law ver rd → ∀ (old : V) (t : Bytes), Tail st t →
        decMessage ver rd (callees ver rd S (n + N)) (.map kk k r) old (wireAll cs ++ t) = .ok t (V.over w S (.map kk k r) old v) := by
  obtain ⟨hk1, hk2, hk3, hk4, hk5⟩ := hk
  obtain ⟨keyKind, q1⟩ := getKind_ok hk1
  obtain ⟨valKind, q2⟩ := getKind_ok hk4
  have key : ∃ (ks : List Scalar) (vs : List V) (es : List Item), vs.length < 2 ^ 32 ∧
      part S (.map kk k r) v = some (.encode (.map (BitVec.ofNat 32 vs.length) keyKind valKind :: es)) ∧
      (∀ i ∈ es, Okay st i) ∧ (∀ old, V.over w S (.map kk k r) old v = .map ks (oversE w S r [] vs)) ∧
      ∀ (rd : Codec), Law ver rd → ∀ t : Bytes, Tail st t →
        decEntries rd (callees ver rd S (n + N)) kk k r vs.length [] [] (wireAll es ++ t) = .ok t (ks, oversE w S r [] vs) := by
    cases v <;> simp only [V.OfField] at hv
    · refine ⟨[], [], [], by simp, ?_, by simp, by simp [V.over, oversE], by intros; simp [decEntries, oversE, wireAll]⟩
      simp [part, emitMap, q1, q2, emitEntries]
    · rename_i ks vs
      obtain ⟨v1, v2, v3, v4, v5⟩ := hv
      simp only [V.Fits] at hf
      obtain ⟨ps, es, h1, h2, h3, h4, h5⟩ := entries hS hn hk3 hk4 hk5 ks vs v1 v3 v4 hf.1 ((ofElems_iff ..).mp v5)
        (cond_map ha) ((fitsAll_iff vs).mp hf.2)
        (fun v h => Nat.le_trans (depth_le_depths h) (by simpa [V.depth] using hd))
      refine ⟨ks, vs, es, v2, ?_, h4, by simp [V.over], ?_⟩
      · simp [part, emitMap, q1, q2, h1, h2, h3]
      · intro rd hl t ht
        have := h5 rd hl [] [] t ht rfl (by simp)
        simpa using this
  obtain ⟨ks, vs, es, g1, g2, g3, g4, g5⟩ := key
  refine ⟨_, g2, ?_, ⟨_, _, rfl, by simp⟩, ?_⟩
  · intro i hi
    rcases List.mem_cons.mp hi with rfl | hi
    · simp [Okay, Item.Fits]
    · exact g3 i hi
  · intro rd hl old t ht
    rw [decMessage, q1, q2]
    simp only []
    rw [bind_ok (isNil_no hl (head_wireAll (by simp) es t))]
    simp only [Bool.false_eq_true, if_false]
    have hto : (BitVec.ofNat 32 vs.length).toNat = vs.length := by rw [BitVec.toNat_ofNat, Nat.mod_eq_of_lt g1]
    rw [wireAll_cons, List.append_assoc, bind_ok (read_wire hl (Matches.map _ keyKind valKind) (by simp [Item.Fits]) (.inr (by simp)) _)]
    simp only [hto]
    rw [bind_ok (g5 rd hl t ht), g4]; rfl

/-- A singular message field. -/
theorem messageField {st : Bool} {S : Schema} {ver : Version} {w : Style} {N : Nat} (hS : Setup ver w S N) {n : Nat} (hn : Good st ver w S N n) {m : Nat} {c : Bool} {v : V}
    (hv : v.OfField S (.one .message m c)) (ha : Cond st S (.one .message m c) v) (hf : v.Fits) (hd : v.depth ≤ n) :
    ∃ cs, part S (.one .message m c) v = some (.encode cs) ∧ (∀ i ∈ cs, Okay st i) ∧
      (st = true → v ≠ .nil → ∃ i is, cs = i :: is ∧ i ≠ .nil) ∧
      ∀ (rd : Codec), Law ver rd → ∀ (old : V) (t : Bytes), Tail st t → old.OfField S (.one .message m c) →
        decMessage ver rd (callees ver rd S (n + N)) (.one .message m c) old (wireAll cs ++ t) =
          .ok t (V.over w S (.one .message m c) old v) := by
  rcases ofField_one hv with ⟨s, rfl, hs⟩ | ⟨_, rfl⟩ | ⟨_, vs, rfl, hvs⟩
  · cases s <;> simp [Scalar.OfKind] at hs
  · refine ⟨[.nil], by simp [part], by simp [Okay, cond_nil ha, Item.Fits], by simp, ?_⟩
    intro rd hl old t ht ho
    rw [decMessage, show wireAll [.nil] = wire .nil from rfl]
    by_cases hv : ver.skipNil = true
    · rw [if_pos hv, bind_ok (isNil_nil hl t)]
      simp [V.over, hS.merge, hv]
    · rw [if_neg hv]
      obtain ⟨k, hk⟩ : ∃ k, n + N = k + 1 := ⟨n + N - 1, by simp only [V.depth] at hd; omega⟩
      rw [decInto, bind_ok (hS.current rd n m old _), show (callees ver rd S (n + N)).decode = decode ver rd S (n + N) from rfl,
        hk, show wire .nil = wireAll [.nil] from rfl, bind_ok (decode_nil hl S k m _ t)]
      simp [V.over, hS.merge, hv]
  · obtain ⟨cs, h1, h2, h3, h4⟩ := hn m vs hvs (cond_card ha) (by simpa [V.Fits] using hf)
      (by simp only [V.depth] at hd; omega)
    refine ⟨cs, part_encode h1, h2, fun h _ => h3 h, ?_⟩
    intro rd hl old t ht ho
    rw [decMessage]
    by_cases hv : ver.skipNil = true
    · rw [if_pos hv, bind_ok (isNil_no hl (no_nil h2 h3 ht))]
      simp only [Bool.false_eq_true, if_false]
      rw [decInto, bind_ok (hS.current rd n m .nil _), show (callees ver rd S (n + N)).decode = decode ver rd S (n + N) from rfl,
        show w.into m .nil = w.fresh m from rfl, bind_ok (h4 rd hl _ t ht (hS.typed m)), V.over]
      simp [hS.merge, hv]
    · rw [if_neg hv, decInto, bind_ok (hS.current rd n m old _),
        show (callees ver rd S (n + N)).decode = decode ver rd S (n + N) from rfl, bind_ok (h4 rd hl _ t ht (hS.into ho)), V.over]
      simp [hS.merge, hv]

end GoGen
