import Verif.Gen.Layout
import Verif.Gen.GoTotal

/-! # Generated Go code writes the specified layout -/

namespace GoGen

open Gen Spec

theorem item_eq (s : Scalar) : s.item = itemOf s := by cases s <;> rfl

theorem isValue_iff (f : Field) : isValue f = decide (f.group = .scalars) := by
  cases f with
  | one k r c => cases k <;> rfl
  | many => rfl
  | map => rfl
theorem isSlice_iff (f : Field) : isSlice f = decide (f.group = .repeateds) := by
  cases f with
  | one k r c => cases k <;> rfl
  | many => rfl
  | map => rfl
theorem isMsg_iff (f : Field) : isMsg f = decide (f.group = .nesteds) := by
  cases f with
  | one k r c => cases k <;> rfl
  | many => rfl
  | map => rfl

/-- Concatenation over the fields of one group. -/
theorem concat_group {S : Schema} {g : Group} {p : Field → Bool} (hp : ∀ f, p f = decide (f.group = g)) {em : Nat → Option (List Item)} :
    ∀ (fs : List Field) (vs : List V) (i : Nat), fs.length = vs.length →
    (∀ (j : Nat) f v, fs[j]? = some f → vs[j]? = some v → f.group = g → em (i + j) = some (v.items S f)) →
    concatM em (idx p i fs) = some (itemsOf S g fs vs) := by
  intro fs
  induction fs with
  | nil => intro vs i h _; cases vs <;> simp [idx, concatM, itemsOf] at *
  | cons f fs ih =>
    intro vs i h hem
    cases vs with
    | nil => simp at h
    | cons v vs =>
      have h1 := ih vs (i + 1) (by simpa using h) (fun j f v a b c => by
        have := hem (j + 1) f v (by simpa using a) (by simpa using b) c
        rw [← this]; congr 1; omega)
      rw [idx, itemsOf, hp]
      by_cases hg : f.group = g
      · have h0 := hem 0 f v (by simp) (by simp) hg
        rw [Nat.add_zero] at h0
        simp [hg, concatM, h0, h1]
      · simp [hg, h1]

/-- The contribution of a field, by the specification. -/
def partOf (S : Schema) (f : Field) (v : V) : Part :=
  match f.group, v with
  | .scalars, .scalar s => .scalar s
  | .repeateds, v => .slice (v.items S f)
  | _, v => .encode (v.items S f)

theorem announced_kind {k : PKind} (h : k ≠ .group) : GetKind k = some k.announced := by
  cases k <;> first | exact absurd rfl h | rfl

theorem announced_lut {k : PKind} (h : IsScalar k) : kindLUT k = some k.announced := by
  cases k <;> simp [IsScalar] at h <;> rfl

theorem group_scalar {k : PKind} (h : k ≠ .message) (r : Nat) (c : Bool) : (Field.one k r c).group = .scalars := by
  cases k <;> first | exact absurd rfl h | rfl

theorem zipWith_get {α β γ : Type} (g : α → β → γ) {as : List α} {bs : List β} {i : Nat} {a : α} {b : β} (h1 : as[i]? = some a) (h2 : bs[i]? = some b) :
    (List.zipWith g as bs)[i]? = some (g a b) := by
  rw [List.getElem?_zipWith, h1, h2]

theorem part_layout {S : Schema} (hS : S.GoSupported) : ∀ n,
    (∀ v : V, sizeOf v ≤ n → ∀ f : Field, f.GoSupported → v.OfField S f → part S f v = some (partOf S f v)) ∧
    (∀ vs : List V, sizeOf vs ≤ n → ∀ fs : List Field, (∀ f ∈ fs, f.GoSupported) → OfFields S fs vs →
      parts S fs vs = some (List.zipWith (partOf S) fs vs)) ∧
    (∀ vs : List V, sizeOf vs ≤ n → ∀ (k : PKind) (r : Nat), k ≠ .group → OfElems S (.one k r false) vs →
      elemParts S (.one k r false) vs = some (vs.map (partOf S (.one k r false)))) := by
  intro n
  induction n with
  | zero =>
    refine ⟨?_, ?_, ?_⟩
    · intro v h; cases v <;> simp at h
    · intro vs h; cases vs <;> simp at h
    · intro vs h; cases vs <;> simp at h
  | succ n ih =>
    obtain ⟨iv, iF, iE⟩ := ih
    refine ⟨?_, ?_, ?_⟩
    · intro v h f hf hv
      cases f with
      | one k m c =>
        rcases ofField_one hv with ⟨s, rfl, hs⟩ | ⟨rfl, rfl⟩ | ⟨rfl, vs, rfl, hvs⟩
        · simp [part, partOf, group_scalar (ofKind_scalar hs).1]
        · simp [part, partOf, Field.group, V.items]
        · simp only [V.msg.sizeOf_spec] at h
          have hsup := fields_supported hS m
          have hlen := ofFields_length S _ _ hvs
          have hps := iF vs (by omega) _ hsup hvs
          have ha : concatM (emitValue (List.zipWith (partOf S) (S.fields m) vs)) (calls 0 (S.fields m)) =
              some (itemsOf S .scalars (S.fields m) vs) := by
            rw [concat_calls _ (S.fields m) _ 0 (by simp)]
            refine concat_group isValue_iff _ _ 0 hlen ?_
            intro j f v h1 h2 h3
            obtain ⟨w, h4, h5⟩ := ofFields_get S _ _ j f hvs h1
            have : w = v := by rw [h2] at h4; simpa using h4.symm
            subst this
            rw [Nat.zero_add]
            cases f with
            | many => cases h3
            | map => cases h3
            | one k r c =>
              have hk : k ≠ .message := by rintro rfl; cases h3
              rcases ofField_one h5 with ⟨s, rfl, hs⟩ | ⟨rfl, rfl⟩ | ⟨rfl, _⟩
              · obtain ⟨mm, e1, _⟩ := encodeLUT_scalar (ofKind_scalar hs)
                have hz := zipWith_get (partOf S) h1 h2
                have hpo : partOf S (.one k r c) (.scalar s) = .scalar s := by simp [partOf, group_scalar hk]
                rw [hpo] at hz
                simp only [emitAt, h1, emitValue, callOf, hz, Field.Kind, e1, Option.getD_some, V.items, item_eq]
                exact emitScalar_enum hs e1
              · exact absurd rfl hk
              · exact absurd rfl hk
          have hb : concatM (emitSlice (List.zipWith (partOf S) (S.fields m) vs)) (idx isSlice 0 (S.fields m)) =
              some (itemsOf S .repeateds (S.fields m) vs) := by
            refine concat_group isSlice_iff _ _ 0 hlen ?_
            intro j f v h1 h2 h3
            have hz := zipWith_get (partOf S) h1 h2
            rw [Nat.zero_add]
            simp only [emitSlice, hz, partOf, h3]
          have hc : concatM (emitMessage (List.zipWith (partOf S) (S.fields m) vs)) (idx isMsg 0 (S.fields m)) =
              some (itemsOf S .nesteds (S.fields m) vs) := by
            refine concat_group isMsg_iff _ _ 0 hlen ?_
            intro j f v h1 h2 h3
            have hz := zipWith_get (partOf S) h1 h2
            rw [Nat.zero_add]
            simp only [emitMessage, hz, partOf, h3]
          simp [part, hps, GetEncodingFields, encLoop_eq _ 0 hsup, arrange, ha, hb, hc, partOf, Field.group, V.items]
      | many k r =>
        cases v <;> simp only [V.OfField] at hv
        rename_i vs
        simp only [V.slice.sizeOf_spec] at h
        have h1 := iE vs (by omega) k r hf.1 hv.2
        have key : ∀ em : Part → Option (List Item), (∀ v ∈ vs, em (partOf S (.one k r false) v) = some (v.items S (.one k r false))) →
            concatM em (vs.map (partOf S (.one k r false))) = some (itemsE S (.one k r false) vs) := by
          intro em
          clear h1 hv h
          induction vs with
          | nil => intro _; simp [concatM, itemsE]
          | cons v vs ihv =>
            intro he
            simp [concatM, itemsE, he v (by simp), ihv (fun w hw => he w (by simp [hw]))]
        rw [part, h1]
        show emitElems k vs.length _ = _
        by_cases hm : k = .message
        · subst hm
          have := key emitElemMessage (fun v _ => rfl)
          simp [emitElems, encodeLUT, this, partOf, Field.group, V.items, PKind.announced]; rfl
        · obtain ⟨mm, e1, e2, _⟩ := encodeLUT_scalar (k := k) ⟨hm, hf.1⟩
          have e3 := announced_lut (k := k) ⟨hm, hf.1⟩
          have := key (emitElemScalar mm) (fun v hvm => by
            have hvf := (ofElems_iff ..).mp hv.2 v hvm
            rcases ofField_one hvf with ⟨s, rfl, hs⟩ | ⟨h, _⟩ | ⟨h, _⟩
            · simp only [partOf, group_scalar hm, emitElemScalar, V.items, item_eq]
              exact emitScalar_plain hs e1 hf.2.1
            · exact absurd h hm
            · exact absurd h hm)
          simp [emitElems, e1, e3, this, partOf, Field.group, V.items]
      | map kk k r =>
        obtain ⟨f1, f2, f3, f4, f5⟩ := hf
        have q1 := announced_kind f1
        have q2 := announced_kind f4
        cases v <;> simp only [V.OfField] at hv
        · simp [part, emitMap, q1, q2, emitEntries, partOf, Field.group, V.items]
        · rename_i ks vs
          simp only [V.map.sizeOf_spec] at h
          obtain ⟨v1, v2, v3, v4, v5⟩ := hv
          have h1 := iE vs (by omega) k r f4 v5
          have key : emitEntries kk k ks (vs.map (partOf S (.one k r false))) = some (itemsM S (.one k r false) ks vs) := by
            clear h1 h v2 v3
            induction vs generalizing ks with
            | nil =>
              cases ks with
              | nil => simp [emitEntries, itemsM]
              | cons => simp at v1
            | cons v vs ihv =>
              cases ks with
              | nil => simp at v1
              | cons s ks =>
                simp only [OfElems] at v5
                have a := ihv ks (by simpa using v1) (fun t ht => v4 t (by simp [ht])) v5.2
                have hs := v4 s (by simp)
                obtain ⟨m, e1, _⟩ := encodeLUT_scalar (ofKind_scalar hs)
                have b : emitKey kk s = some [s.item] := by
                  rw [item_eq]; simp only [emitKey, e1]; exact emitScalar_enum hs e1
                have c : emitMapValue k (partOf S (.one k r false) v) = some (v.items S (.one k r false)) := by
                  by_cases hm : k = .message
                  · subst hm; rfl
                  · rcases ofField_one v5.1 with ⟨s, rfl, hs⟩ | ⟨h, _⟩ | ⟨h, _⟩
                    · obtain ⟨m, e1, _⟩ := encodeLUT_scalar (ofKind_scalar hs)
                      simp only [partOf, group_scalar hm, emitMapValue, e1, V.items, item_eq]
                      exact emitScalar_enum hs e1
                    · exact absurd h hm
                    · exact absurd h hm
                simp [emitEntries, itemsM, a, b, c]
          simp [part, h1, emitMap, q1, q2, key, partOf, Field.group, V.items]
    · intro vs h fs hf hv
      cases vs with
      | nil =>
        cases fs with
        | nil => simp [parts]
        | cons => simp [OfFields] at hv
      | cons v vs =>
        simp only [List.cons.sizeOf_spec] at h
        cases fs with
        | nil => simp [OfFields] at hv
        | cons f fs =>
          simp only [OfFields] at hv
          have h1 := iv v (by omega) f (hf f (by simp)) hv.1
          have h3 := iF vs (by omega) fs (fun g hg => hf g (by simp [hg])) hv.2
          simp [parts, h1, h3]
    · intro vs h k r hk hv
      cases vs with
      | nil => simp [elemParts]
      | cons v vs =>
        simp only [List.cons.sizeOf_spec] at h
        simp only [OfElems] at hv
        have h1 := iv v (by omega) (.one k r false) hk hv.1
        have h3 := iE vs (by omega) k r hk hv.2
        simp [elemParts, h1, h3]

/-- The generated `Encode` writes the specified layout. -/
theorem encode_layout {S : Schema} (hS : S.GoSupported) (m : Nat) (x : V) (hx : x.OfField S (.one .message m false)) :
    Encode S m x = some (S.layout m x) := by
  have := (part_layout hS (sizeOf x)).1 x (Nat.le_refl _) _ (by simp [Field.GoSupported]) hx
  simp [Encode, this, partOf, Field.group, Schema.layout]

end GoGen
