import Verif.Gen.GoDone

/-! # Generated Go code: `Encode` is defined for every value of every supported schema -/

namespace GoGen

open Gen Spec

/-- The contribution of a field has the form the generator expects at its place. -/
def Shape (f : Field) (v : V) (p : Part) : Prop :=
  (isValue f = true → ∃ s, v = .scalar s ∧ p = .scalar s ∧ s.OfKind f.Kind) ∧ (isSlice f = true → ∃ cs, p = .slice cs) ∧
  (isMsg f = true → ∃ cs, p = .encode cs)

theorem concatM_total {α : Type} {em : α → Option (List Item)} : ∀ (is : List α), (∀ i ∈ is, ∃ x, em i = some x) →
    ∃ x, concatM em is = some x := by
  intro is
  induction is with
  | nil => intro _; exact ⟨[], rfl⟩
  | cons i is ih =>
    intro h
    obtain ⟨x, hx⟩ := h i (by simp)
    obtain ⟨y, hy⟩ := ih (fun j hj => h j (by simp [hj]))
    exact ⟨x ++ y, by simp [concatM, hx, hy]⟩

theorem emitEntries_total (kk k : PKind) : ∀ (ks : List Scalar) (ps : List Part), ks.length = ps.length →
    (∀ s ∈ ks, ∃ x, emitKey kk s = some x) → (∀ p ∈ ps, ∃ x, emitMapValue k p = some x) →
    ∃ x, emitEntries kk k ks ps = some x := by
  intro ks
  induction ks with
  | nil => intro ps h _ _; cases ps with
    | nil => exact ⟨[], rfl⟩
    | cons => simp at h
  | cons s ks ih =>
    intro ps h h1 h2
    cases ps with
    | nil => simp at h
    | cons p ps =>
      obtain ⟨x, hx⟩ := h1 s (by simp)
      obtain ⟨y, hy⟩ := h2 p (by simp)
      obtain ⟨z, hz⟩ := ih ps (by simpa using h) (fun t ht => h1 t (by simp [ht])) (fun t ht => h2 t (by simp [ht]))
      exact ⟨x ++ y ++ z, by simp [emitEntries, hx, hy, hz]⟩

/-- Elements of a slice or values of a map, as the statements over them see them. -/
def ElemShape (k : PKind) (p : Part) : Prop :=
  (k = .message → ∃ cs, p = .encode cs) ∧ (k ≠ .message → ∃ s, p = .scalar s ∧ s.OfKind k)

theorem shape_elem {k : PKind} {r : Nat} {v : V} {p : Part} (h : Shape (.one k r false) v p) : ElemShape k p := by
  refine ⟨fun hk => h.2.2 (by simp [isMsg, hk]), fun hk => ?_⟩
  obtain ⟨s, _, h1, h2⟩ := h.1 (by simp [isValue, hk])
  exact ⟨s, h1, h2⟩

theorem part_total {S : Schema} (hS : S.GoSupported) : ∀ n,
    (∀ v : V, sizeOf v ≤ n → ∀ f : Field, f.GoSupported → v.OfField S f → ∃ p, part S f v = some p ∧ Shape f v p) ∧
    (∀ vs : List V, sizeOf vs ≤ n → ∀ fs : List Field, (∀ f ∈ fs, f.GoSupported) → OfFields S fs vs →
      ∃ ps, parts S fs vs = some ps ∧ ∀ (i : Nat) (f : Field), fs[i]? = some f → ∃ v p, vs[i]? = some v ∧ ps[i]? = some p ∧ Shape f v p) ∧
    (∀ vs : List V, sizeOf vs ≤ n → ∀ (k : PKind) (r : Nat), k ≠ .group → OfElems S (.one k r false) vs →
      ∃ ps, elemParts S (.one k r false) vs = some ps ∧ ps.length = vs.length ∧ ∀ p ∈ ps, ElemShape k p) := by
  intro n
  induction n with
  | zero =>
    refine ⟨?_, ?_, ?_⟩
    · intro v h; cases v <;> simp at h
    · intro vs h; cases vs <;> simp at h
    · intro vs h; cases vs <;> simp at h
  | succ n ih =>
    obtain ⟨iv, iF, iE⟩ := ih
    refine ⟨?_, ?_, ?_⟩
    · intro v h f hf hv
      cases f with
      | one k m c =>
        rcases ofField_one hv with ⟨s, rfl, hs⟩ | ⟨rfl, rfl⟩ | ⟨rfl, vs, rfl, hvs⟩
        · refine ⟨.scalar s, by simp [part], fun _ => ⟨s, rfl, rfl, hs⟩, by simp [isSlice], ?_⟩
          have := ofKind_scalar hs
          simp [isMsg, this.1]
        · exact ⟨.encode [.nil], by simp [part], by simp [isValue], by simp [isSlice], fun _ => ⟨_, rfl⟩⟩
        · simp only [V.msg.sizeOf_spec] at h
          have hsup := fields_supported hS m
          obtain ⟨ps, h1, h2⟩ := iF vs (by omega) _ hsup hvs
          obtain ⟨a, ha⟩ := concatM_total (em := emitValue ps) (calls 0 (S.fields m)) (by
            rw [show (∀ i ∈ calls 0 (S.fields m), ∃ x, emitValue ps i = some x) ↔ True from ?_]
            · trivial
            · simp only [iff_true]
              have : ∀ (fs : List Field) (j : Nat), (∀ (i : Nat) f, fs[i]? = some f → ∃ v p, ps[i + j]? = some p ∧ Shape f v p) →
                  ∀ c ∈ calls j fs, ∃ x, emitValue ps c = some x := by
                intro fs
                induction fs with
                | nil => intro j _ c hc; simp [calls] at hc
                | cons f fs ihf =>
                  intro j hj c hc
                  have tail := ihf (j + 1) (fun i g hg => by
                    obtain ⟨v, p, h1, h2⟩ := hj (i + 1) g (by simpa using hg)
                    exact ⟨v, p, by rw [← h1]; congr 1; omega, h2⟩)
                  rw [calls] at hc
                  split at hc
                  · rename_i hval
                    rcases List.mem_cons.mp hc with rfl | hc
                    · obtain ⟨v, p, h1, h2⟩ := hj 0 f (by simp)
                      obtain ⟨s, _, rfl, hs⟩ := h2.1 hval
                      obtain ⟨m, e1, _⟩ := encodeLUT_scalar (ofKind_scalar hs)
                      refine ⟨[itemOf s], ?_⟩
                      rw [Nat.zero_add] at h1
                      simp only [emitValue, callOf, h1, e1, Option.getD_some]
                      exact emitScalar_enum hs e1
                    · exact tail c hc
                  · exact tail c hc
              apply this
              intro i f hi
              obtain ⟨v, p, _, h3, h4⟩ := h2 i f hi
              exact ⟨v, p, by simpa using h3, h4⟩)
          obtain ⟨b, hb⟩ := concatM_total (em := emitSlice ps) (idx isSlice 0 (S.fields m)) (by
            intro i hi
            obtain ⟨f, k1, k2⟩ := idx_of hi
            obtain ⟨v, p, _, h3, h4⟩ := h2 i f k1
            obtain ⟨cs, rfl⟩ := h4.2.1 k2
            exact ⟨cs, by simp [emitSlice, h3]⟩)
          obtain ⟨c', hc'⟩ := concatM_total (em := emitMessage ps) (idx isMsg 0 (S.fields m)) (by
            intro i hi
            obtain ⟨f, k1, k2⟩ := idx_of hi
            obtain ⟨v, p, _, h3, h4⟩ := h2 i f k1
            obtain ⟨cs, rfl⟩ := h4.2.2 k2
            exact ⟨cs, by simp [emitMessage, h3]⟩)
          refine ⟨.encode (a ++ b ++ c'), ?_, by simp [isValue], by simp [isSlice], fun _ => ⟨_, rfl⟩⟩
          simp [part, h1, GetEncodingFields, encLoop_eq _ 0 hsup, arrange, ha, hb, hc']
      | many k r =>
        cases v <;> simp only [V.OfField] at hv
        rename_i vs
        simp only [V.slice.sizeOf_spec] at h
        obtain ⟨ps, h1, h2, h3⟩ := iE vs (by omega) k r hf.1 hv.2
        refine (fun ⟨cs, hcs⟩ => ⟨.slice cs, by simp [part, h1, hcs], by simp [isValue], fun _ => ⟨cs, rfl⟩, by simp [isMsg]⟩ :
          (∃ cs, emitElems k vs.length ps = some (.slice cs)) → _) ?_
        by_cases hm : k = .message
        · subst hm
          obtain ⟨x, hx⟩ := concatM_total (em := emitElemMessage) ps (by
            intro p hp; obtain ⟨cs, rfl⟩ := (h3 p hp).1 rfl; exact ⟨cs, rfl⟩)
          exact ⟨_, by simp [emitElems, encodeLUT, hx]; rfl⟩
        · obtain ⟨mm, e1, e2, kk, e3, e4⟩ := encodeLUT_scalar (k := k) ⟨hm, hf.1⟩
          obtain ⟨x, hx⟩ := concatM_total (em := emitElemScalar mm) ps (by
            intro p hp
            obtain ⟨s, rfl, hs⟩ := (h3 p hp).2 hm
            exact ⟨_, emitScalar_plain hs e1 hf.2.1⟩)
          exact ⟨_, by simp [emitElems, e1, e3, hx]; rfl⟩
      | map kk k r =>
        obtain ⟨f1, f2, f3, f4, f5⟩ := hf
        obtain ⟨keyKind, q1⟩ := getKind_ok f1
        obtain ⟨valKind, q2⟩ := getKind_ok f4
        refine (fun ⟨cs, hcs⟩ => ⟨.encode cs, hcs, by simp [isValue], by simp [isSlice], fun _ => ⟨cs, rfl⟩⟩ :
          (∃ cs, part S (.map kk k r) v = some (.encode cs)) → _) ?_
        cases v <;> simp only [V.OfField] at hv
        · exact ⟨_, by simp [part, emitMap, q1, q2, emitEntries]; rfl⟩
        · rename_i ks vs
          simp only [V.map.sizeOf_spec] at h
          obtain ⟨ps, h1, h2, h3⟩ := iE vs (by omega) k r f4 hv.2.2.2.2
          obtain ⟨x, hx⟩ := emitEntries_total kk k ks ps (by omega) (by
            intro s hs
            have hs := hv.2.2.2.1 s hs
            obtain ⟨m, e1, _⟩ := encodeLUT_scalar (ofKind_scalar hs)
            exact ⟨_, by simp only [emitKey, e1]; exact emitScalar_enum hs e1⟩) (by
            intro p hp
            by_cases hm : k = .message
            · subst hm
              obtain ⟨cs, rfl⟩ := (h3 p hp).1 rfl
              exact ⟨cs, rfl⟩
            · obtain ⟨s, rfl, hs⟩ := (h3 p hp).2 hm
              obtain ⟨m, e1, _⟩ := encodeLUT_scalar (ofKind_scalar hs)
              exact ⟨_, by simp only [emitMapValue, e1]; exact emitScalar_enum hs e1⟩)
          exact ⟨_, by simp [part, h1, emitMap, q1, q2, hx]; rfl⟩
    · intro vs h fs hf hv
      cases vs with
      | nil =>
        cases fs with
        | nil => exact ⟨[], by simp [parts], by simp⟩
        | cons => simp [OfFields] at hv
      | cons v vs =>
        simp only [List.cons.sizeOf_spec] at h
        cases fs with
        | nil => simp [OfFields] at hv
        | cons f fs =>
          simp only [OfFields] at hv
          obtain ⟨p, h1, h2⟩ := iv v (by omega) f (hf f (by simp)) hv.1
          obtain ⟨ps, h3, h4⟩ := iF vs (by omega) fs (fun g hg => hf g (by simp [hg])) hv.2
          refine ⟨p :: ps, by simp [parts, h1, h3], ?_⟩
          intro i g hg
          cases i with
          | zero => simp at hg; subst hg; exact ⟨v, p, by simp, by simp, h2⟩
          | succ i =>
            obtain ⟨w, q, a, b, c⟩ := h4 i g (by simpa using hg)
            exact ⟨w, q, by simpa using a, by simpa using b, c⟩
    · intro vs h k r hk hv
      cases vs with
      | nil => exact ⟨[], by simp [elemParts], rfl, by simp⟩
      | cons v vs =>
        simp only [List.cons.sizeOf_spec] at h
        simp only [OfElems] at hv
        obtain ⟨p, h1, h2⟩ := iv v (by omega) (.one k r false) hk hv.1
        obtain ⟨ps, h3, h4, h5⟩ := iE vs (by omega) k r hk hv.2
        refine ⟨p :: ps, by simp [elemParts, h1, h3], by simp [h4], ?_⟩
        intro q hq
        rcases List.mem_cons.mp hq with rfl | hq
        · exact shape_elem h2
        · exact h5 q hq

/-- `Encode` exists for every value of a message type. -/
theorem encode_total {S : Schema} (hS : S.GoSupported) (m : Nat) (x : V) (hx : x.OfField S (.one .message m false)) :
    ∃ calls, Encode S m x = some calls := by
  obtain ⟨p, h1, h2⟩ := (part_total hS (sizeOf x)).1 x (Nat.le_refl _) _ (by simp [Field.GoSupported]) hx
  obtain ⟨cs, rfl⟩ := h2.2.2 (by simp [isMsg])
  exact ⟨cs, by simp [Encode, h1]⟩

theorem idx_none {p : Field → Bool} : ∀ (fs : List Field) (i : Nat), (∀ f ∈ fs, p f = false) → idx p i fs = [] := by
  intro fs
  induction fs with
  | nil => intros; rfl
  | cons f fs ih => intro i h; simp [idx, h f (by simp), ih _ (fun g hg => h g (by simp [hg]))]

theorem calls_none : ∀ (fs : List Field) (i : Nat), (∀ f ∈ fs, isValue f = false) → calls i fs = [] := by
  intro fs
  induction fs with
  | nil => intros; rfl
  | cons f fs ih => intro i h; simp [calls, h f (by simp), ih _ (fun g hg => h g (by simp [hg]))]

/-- With singular message fields only, the encoding starts with that of the first field. -/
theorem encode_messages {S : Schema} (hS : S.GoSupported) {m : Nat} (hm : ∀ f ∈ S.fields m, ∃ r c, f = .one .message r c)
    {v : V} {vs : List V} {cs : List Item} (hv : (V.msg (v :: vs)).OfField S (.one .message m false))
    (hp : ∀ r c, part S (.one .message r c) v = some (.encode cs)) :
    ∃ rest, Encode S m (.msg (v :: vs)) = some (cs ++ rest) := by
  obtain ⟨calls', hc⟩ := encode_total hS m _ hv
  have hsup := fields_supported hS m
  simp only [V.OfField] at hv
  cases hfs : S.fields m with
  | nil => rw [hfs] at hv; simp [OfFields] at hv
  | cons f fs =>
    have h1 : ∀ g ∈ f :: fs, isValue g = false ∧ isSlice g = false ∧ isMsg g = true := by
      intro g hg
      obtain ⟨r, c, rfl⟩ := hm g (by rw [hfs]; exact hg)
      simp [isValue, isSlice, isMsg]
    obtain ⟨r, c, rfl⟩ := hm f (by rw [hfs]; simp)
    rw [hfs] at hsup
    have hc0 := hc
    simp only [Encode, part, if_true, hfs, parts, hp r c] at hc
    cases hps : parts S fs vs with
    | none => simp [hps] at hc
    | some ps =>
      simp only [hps, Option.bind_eq_bind, Option.bind_some, GetEncodingFields, encLoop_eq _ 0 hsup, arrange,
        calls_none _ 0 (fun g hg => (h1 g hg).1), idx_none _ 0 (fun g hg => (h1 g hg).2.1)] at hc
      have hi : idx isMsg 0 (Field.one .message r c :: fs) = 0 :: idx isMsg 1 fs := by simp [idx, isMsg]
      simp only [hi, concatM, emitMessage, List.getElem?_cons_zero, Option.bind_eq_bind, Option.bind_some] at hc
      cases hr : concatM (emitMessage (Part.encode cs :: ps)) (idx isMsg 1 fs) with
      | none =>
        simp [hr] at hc
      | some rest =>
        refine ⟨rest, ?_⟩
        simp [hr] at hc
        rw [hc0, hc]

end GoGen
