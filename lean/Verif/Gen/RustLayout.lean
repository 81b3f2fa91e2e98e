import Verif.Gen.GoLayout
import Verif.Gen.RustMain

/-! # Generated Rust code writes the specified layout -/

namespace RustGen

open Gen Spec
open GoGen (IsScalar itemOf isValue isSlice isMsg idx ofFields_length ofFields_get ofElems_iff ofField_one ofKind_scalar item_eq
  isValue_iff isSlice_iff isMsg_iff group_scalar zipWith_get)

/-- Concatenation over the fields of one group. -/
theorem concat_group {S : Schema} {g : Group} {p : Field → Bool} (hp : ∀ f, p f = decide (f.group = g)) {em : Nat → Option (List Item)} :
    ∀ (fs : List Field) (vs : List V) (i : Nat), fs.length = vs.length →
    (∀ (j : Nat) f v, fs[j]? = some f → vs[j]? = some v → f.group = g → em (i + j) = some (v.items S f)) →
    concatM em (idx p i fs) = some (itemsOf S g fs vs) := by
  intro fs
  induction fs with
  | nil => intro vs i h _; cases vs <;> simp [idx, concatM, itemsOf] at *
  | cons f fs ih =>
    intro vs i h hem
    cases vs with
    | nil => simp at h
    | cons v vs =>
      have h1 := ih vs (i + 1) (by simpa using h) (fun j f v a b c => by
        have := hem (j + 1) f v (by simpa using a) (by simpa using b) c
        rw [← this]; congr 1; omega)
      rw [idx, itemsOf, hp]
      by_cases hg : f.group = g
      · have h0 := hem 0 f v (by simp) (by simp) hg
        rw [Nat.add_zero] at h0
        simp [hg, concatM, h0, h1]
      · simp [hg, h1]

/-- The contribution of a field, by the specification. -/
def partOf (S : Schema) (f : Field) (v : V) : Part :=
  match f, v with
  | .one k r _, .scalar s => .scalar ((findElem k r false).getD .bool) s
  | .many .., v => .slice (v.items S f)
  | _, v => .encode (v.items S f)

theorem announced_kind {k : PKind} (h : k ≠ .group) : ∃ kk, getKind k = some kk ∧ kk.toU8 = k.announced := by
  cases k <;> first | exact absurd rfl h | exact ⟨_, rfl, by decide⟩

theorem announced_lut {k : PKind} (h : IsScalar k) : ∃ kk, kindLUT k = some kk ∧ kk.toU8 = k.announced := by
  cases k <;> simp [IsScalar] at h <;> exact ⟨_, rfl, by decide⟩

theorem findElem_ok {k : PKind} (h : IsScalar k) (r : Nat) : findElem k r false = some ((findElem k r false).getD .bool) := by
  cases k <;> simp [IsScalar] at h <;> rfl

theorem rustOk_scalar {S : Schema} {k : PKind} {r : Nat} {v : V} (hm : k ≠ .message) (hv : v.OfField S (.one k r false)) :
    ∃ s, v = .scalar s ∧ s.OfKind k := by
  rcases ofField_one hv with ⟨s, rfl, hs⟩ | ⟨h, _⟩ | ⟨h, _⟩
  · exact ⟨s, rfl, hs⟩
  · exact absurd h hm
  · exact absurd h hm

theorem part_layout {S : Schema} (hS : S.RustSupported) : ∀ n,
    (∀ v : V, sizeOf v ≤ n → ∀ f : Field, f.RustSupported → v.OfField S f → v.RustOk S f → part S f v = some (partOf S f v)) ∧
    (∀ vs : List V, sizeOf vs ≤ n → ∀ fs : List Field, (∀ f ∈ fs, f.RustSupported) → OfFields S fs vs → RustOkF S fs vs →
      parts S fs vs = some (List.zipWith (partOf S) fs vs)) ∧
    (∀ vs : List V, sizeOf vs ≤ n → ∀ (k : PKind) (r : Nat), k ≠ .group → OfElems S (.one k r false) vs →
      RustOkE S (.one k r false) vs →
      elemParts S (.one k r false) vs = some (vs.map (partOf S (.one k r false)))) := by
  intro n
  induction n with
  | zero =>
    refine ⟨?_, ?_, ?_⟩
    · intro v h; cases v <;> simp at h
    · intro vs h; cases vs <;> simp at h
    · intro vs h; cases vs <;> simp at h
  | succ n ih =>
    obtain ⟨iv, iF, iE⟩ := ih
    refine ⟨?_, ?_, ?_⟩
    · intro v h f hf hv hr
      cases f with
      | one k m c =>
        rcases ofField_one hv with ⟨s, rfl, hs⟩ | ⟨rfl, rfl⟩ | ⟨rfl, vs, rfl, hvs⟩
        · rw [part, findElem_ok (ofKind_scalar hs)]; rfl
        · simp [V.RustOk] at hr
        · simp only [V.msg.sizeOf_spec] at h
          have hsup := fields_supported hS m
          have hlen := ofFields_length S _ _ hvs
          simp only [V.RustOk] at hr
          have hps := iF vs (by omega) _ hsup hvs hr
          have ha : concatM (emitValue (List.zipWith (partOf S) (S.fields m) vs)) (calls 0 (S.fields m)) =
              some (itemsOf S .scalars (S.fields m) vs) := by
            rw [concat_calls _ (S.fields m) _ 0 (by simp)]
            refine concat_group isValue_iff _ _ 0 hlen ?_
            intro j f v h1 h2 h3
            obtain ⟨w, h4, h5⟩ := ofFields_get S _ _ j f hvs h1
            have : w = v := by rw [h2] at h4; simpa using h4.symm
            subst this
            rw [Nat.zero_add]
            cases f with
            | many => cases h3
            | map => cases h3
            | one k r c =>
              have hk : k ≠ .message := by rintro rfl; cases h3
              rcases ofField_one h5 with ⟨s, rfl, hs⟩ | ⟨rfl, rfl⟩ | ⟨rfl, _⟩
              · obtain ⟨mm, e1, _⟩ := lut_scalar (r := r) (ofKind_scalar hs)
                have hz := zipWith_get (partOf S) h1 h2
                simp only [partOf] at hz
                simp only [emitAt, h1, emitValue, callOf, hz, Field.Kind, e1, Option.getD_some, V.items, item_eq]
                exact emit_form hs e1 (findElem_ok (ofKind_scalar hs) r) rfl
              · exact absurd rfl hk
              · exact absurd rfl hk
          have hb : concatM (emitSlice (List.zipWith (partOf S) (S.fields m) vs)) (idx isSlice 0 (S.fields m)) =
              some (itemsOf S .repeateds (S.fields m) vs) := by
            refine concat_group isSlice_iff _ _ 0 hlen ?_
            intro j f v h1 h2 h3
            have hz := zipWith_get (partOf S) h1 h2
            rw [Nat.zero_add]
            cases f with
            | many => simp only [partOf] at hz; simp only [emitSlice, hz]
            | map => cases h3
            | one k => cases k <;> cases h3
          have hc : concatM (emitMessage (List.zipWith (partOf S) (S.fields m) vs)) (idx isMsg 0 (S.fields m)) =
              some (itemsOf S .nesteds (S.fields m) vs) := by
            refine concat_group isMsg_iff _ _ 0 hlen ?_
            intro j f v h1 h2 h3
            have hz := zipWith_get (partOf S) h1 h2
            rw [Nat.zero_add]
            obtain ⟨w, h4, h5⟩ := ofFields_get S _ _ j f hvs h1
            have : w = v := by rw [h2] at h4; simpa using h4.symm
            subst this
            cases f with
            | many => cases h3
            | map => simp only [partOf] at hz; simp only [emitMessage, hz]
            | one k r c =>
              have hk : k = .message := by cases k <;> first | rfl | cases h3
              subst hk
              rcases ofField_one h5 with ⟨s, rfl, hs⟩ | ⟨_, rfl⟩ | ⟨_, us, rfl, _⟩
              · exact absurd rfl (ofKind_scalar hs).1
              · simp only [partOf] at hz; simp only [emitMessage, hz]
              · simp only [partOf] at hz; simp only [emitMessage, hz]
          simp [part, hps, getEncodingFields, encLoop_eq _ 0 hsup, arrange, ha, hb, hc, partOf, V.items]
      | many k r =>
        cases v <;> simp only [V.OfField] at hv
        rename_i vs
        simp only [V.slice.sizeOf_spec] at h
        simp only [V.RustOk] at hr
        simp only [Field.RustSupported] at hf
        have hkg : k ≠ .group := by rintro rfl; simp at hf
        have h1 := iE vs (by omega) k r hkg hv.2 hr
        have key : ∀ em : Part → Option (List Item), (∀ v ∈ vs, em (partOf S (.one k r false) v) = some (v.items S (.one k r false))) →
            concatM em (vs.map (partOf S (.one k r false))) = some (itemsE S (.one k r false) vs) := by
          intro em
          clear h1 hv h hr
          induction vs with
          | nil => intro _; simp [concatM, itemsE]
          | cons v vs ihv =>
            intro he
            simp [concatM, itemsE, he v (by simp), ihv (fun w hw => he w (by simp [hw]))]
        rw [part, h1]
        show emitElems k r vs.length _ = _
        by_cases hm : k = .message
        · subst hm
          have := key emitElemMessage (fun v hvm => by
            have hvf := (ofElems_iff ..).mp hv.2 v hvm
            rcases ofField_one hvf with ⟨s, rfl, hs⟩ | ⟨_, rfl⟩ | ⟨_, us, rfl, _⟩
            · exact absurd rfl (ofKind_scalar hs).1
            · rfl
            · rfl)
          simp [emitElems, encodeLUT, this, partOf, V.items, PKind.announced]; decide
        · have hk : k = .string ∨ k = .bytes := by
            rcases hf with h | h | h
            · exact .inl h
            · exact .inr h
            · exact absurd h hm
          have hsc : IsScalar k := ⟨hm, hkg⟩
          have hne : k ≠ .enum := by rintro rfl; simp at hk
          obtain ⟨mm, e1, e2, _, e4⟩ := lut_scalar (k := k) (r := r) hsc
          obtain ⟨kk, e3, e3'⟩ := announced_lut hsc
          have := key (emitElemScalar mm) (fun v hvm => by
            obtain ⟨s, rfl, hs⟩ := rustOk_scalar hm ((ofElems_iff ..).mp hv.2 v hvm)
            simp only [partOf, emitElemScalar, V.items, item_eq]
            exact emit_form hs e1 (findElem_ok hsc r) (by rw [if_neg hne, if_pos hk]))
          have hacc : accepts mm .ref mm.type = true := by
            rcases hk with rfl | rfl <;> simp [encodeLUT] at e1 <;> subst e1 <;> rfl
          simp [emitElems, e1, e3, e4 hne, hacc, this, partOf, V.items, e3']
      | map kk k r =>
        simp only [Field.RustSupported] at hf
        obtain ⟨rfl, f4, f5, f6⟩ := hf
        obtain ⟨keyKind, q1, q1'⟩ := announced_kind (k := .string) (by simp)
        obtain ⟨valKind, q2, q2'⟩ := announced_kind f4
        cases v <;> simp only [V.OfField] at hv
        · simp [V.RustOk] at hr
        · rename_i ks vs
          simp only [V.map.sizeOf_spec] at h
          simp only [V.RustOk] at hr
          obtain ⟨v1, v2, v3, v4, v5⟩ := hv
          have h1 := iE vs (by omega) k r f4 v5 hr.2
          have key : emitEntries .string k ks (vs.map (partOf S (.one k r false))) = some (itemsM S (.one k r false) ks vs) := by
            clear h1 h v2 v3 hr
            induction vs generalizing ks with
            | nil =>
              cases ks with
              | nil => simp [emitEntries, itemsM]
              | cons => simp at v1
            | cons v vs ihv =>
              cases ks with
              | nil => simp at v1
              | cons s ks =>
                simp only [OfElems] at v5
                have a := ihv ks (by simpa using v1) (fun t ht => v4 t (by simp [ht])) v5.2
                have hs := v4 s (by simp)
                have b : emitKey .string s = some [s.item] := by
                  rw [item_eq]; exact emit_form (r := 0) hs rfl rfl rfl
                have c : emitMapValue k (partOf S (.one k r false) v) = some (v.items S (.one k r false)) := by
                  by_cases hm : k = .message
                  · subst hm
                    rcases ofField_one v5.1 with ⟨s, rfl, hs⟩ | ⟨_, rfl⟩ | ⟨_, us, rfl, _⟩
                    · exact absurd rfl (ofKind_scalar hs).1
                    · rfl
                    · rfl
                  · obtain ⟨s, rfl, hs⟩ := rustOk_scalar hm v5.1
                    have hsc := ofKind_scalar hs
                    obtain ⟨m, e1, _⟩ := lut_scalar (r := r) hsc
                    simp only [partOf, emitMapValue, e1, V.items, item_eq]
                    split
                    · rename_i he; subst he
                      obtain ⟨w, rfl⟩ := GoGen.enum_cases hs
                      rfl
                    · rename_i he
                      exact emit_form hs e1 (findElem_ok hsc r) (by rw [if_neg he, if_neg (by simp [f5, f6])])
                simp [emitEntries, itemsM, a, b, c]
          simp [part, h1, emitMap, q1, q2, q1', q2', key, partOf, V.items, mapBodyOk_ok r ⟨f4, f5, f6⟩]
    · intro vs h fs hf hv hr
      cases vs with
      | nil =>
        cases fs with
        | nil => simp [parts]
        | cons => simp [OfFields] at hv
      | cons v vs =>
        simp only [List.cons.sizeOf_spec] at h
        cases fs with
        | nil => simp [OfFields] at hv
        | cons f fs =>
          simp only [OfFields] at hv
          simp only [RustOkF] at hr
          have h1 := iv v (by omega) f (hf f (by simp)) hv.1 hr.1
          have h3 := iF vs (by omega) fs (fun g hg => hf g (by simp [hg])) hv.2 hr.2
          simp [parts, h1, h3]
    · intro vs h k r hk hv hr
      cases vs with
      | nil => simp [elemParts]
      | cons v vs =>
        simp only [List.cons.sizeOf_spec] at h
        simp only [OfElems] at hv
        simp only [RustOkE] at hr
        have h1 := iv v (by omega) (.one k r false) hk hv.1 hr.1
        have h3 := iE vs (by omega) k r hk hv.2 hr.2
        simp [elemParts, h1, h3]

/-- The generated `encode` writes the specified layout. -/
theorem encode_layout {S : Schema} (hS : S.RustSupported) (m : Nat) (x : V) (hx : x.OfField S (.one .message m false))
    (hr : x.RustOk S (.one .message m false)) : Encode S m x = some (S.layout m x) := by
  have h := (part_layout hS (sizeOf x)).1 x (Nat.le_refl _) _ (by simp [Field.RustSupported]) hx hr
  rcases ofField_one hx with ⟨s, rfl, hs⟩ | ⟨_, rfl⟩ | ⟨_, us, rfl, _⟩
  · exact absurd rfl (ofKind_scalar hs).1
  · simp [V.RustOk] at hr
  · simp [Encode, h, partOf, Schema.layout]

end RustGen
