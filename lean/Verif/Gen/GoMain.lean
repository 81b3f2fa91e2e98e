import Verif.Gen.GoRound

/-! # Generated Go code: `decode` inverts `Encode` -/

namespace GoGen

open Gen Spec
open GoV2 (Req Outcome Err Matches)

theorem parts_some (S : Schema) : ∀ (fs : List Field) (vs : List V), fs.length = vs.length →
    (∀ (i : Nat) (f : Field) (v : V), fs[i]? = some f → vs[i]? = some v → ∃ p, part S f v = some p) →
    ∃ ps, parts S fs vs = some ps ∧ ∀ (i : Nat) (f : Field) (v : V), fs[i]? = some f → vs[i]? = some v → part S f v = ps[i]? := by
  intro fs
  induction fs with
  | nil =>
    intro vs h _
    cases vs with
    | nil => exact ⟨[], by simp [parts], by simp⟩
    | cons => simp at h
  | cons f fs ih =>
    intro vs h hp
    cases vs with
    | nil => simp at h
    | cons v vs =>
      obtain ⟨p, h1⟩ := hp 0 f v (by simp) (by simp)
      obtain ⟨ps, h2, h3⟩ := ih vs (by simpa using h) (fun i g w a b => hp (i + 1) g w (by simpa using a) (by simpa using b))
      refine ⟨p :: ps, by simp [parts, h1, h2], ?_⟩
      intro i g w a b
      cases i with
      | zero => simp at a b; subst a; subst b; simpa using h1
      | succ i => simpa using h3 i g w (by simpa using a) (by simpa using b)

theorem concatM_head {em : Nat → Option (List Item)} {i : Nat} {is : List Nat} {x : Item} {xs items : List Item}
    (h : concatM em (i :: is) = some items) (hi : em i = some (x :: xs)) : ∃ rest, items = x :: rest := by
  rw [concatM, hi] at h
  cases hc : concatM em is with
  | none => rw [hc] at h; simp at h
  | some ys => rw [hc] at h; simp at h; exact ⟨xs ++ ys, h.symm⟩

theorem good_zero (st : Bool) (ver : Version) (w : Style) (S : Schema) (N : Nat) : Good st ver w S N 0 := by
  intro m vs _ _ _ h; omega

theorem idx_of {p : Field → Bool} {fs : List Field} {i : Nat} (h : i ∈ idx p 0 fs) : ∃ f, fs[i]? = some f ∧ p f = true := by
  have := (mem_idx p fs 0 i).mp h
  simpa using this

theorem of_idx {p : Field → Bool} {fs : List Field} {i : Nat} {f : Field} (h : fs[i]? = some f) (hp : p f = true) :
    i ∈ idx p 0 fs := (mem_idx p fs 0 i).mpr ⟨Nat.zero_le _, f, by simpa using h, hp⟩

theorem one_of_three (f : Field) : (isValue f = true ∧ isSlice f = false ∧ isMsg f = false) ∨
    (isValue f = false ∧ isSlice f = true ∧ isMsg f = false) ∨
    (isValue f = false ∧ isSlice f = false ∧ isMsg f = true) := by
  cases f with
  | one k r c => by_cases h : k = .message <;> simp [isValue, isSlice, isMsg, h]
  | many => simp [isValue, isSlice, isMsg]
  | map => simp [isValue, isSlice, isMsg]

/-- What one field contributes and how it is read back, for all three kinds of fields. -/
structure FieldFacts (st : Bool) (ver : Version) (w : Style) (S : Schema) (N n : Nat) (f : Field) (v : V) : Prop where
  part : ∃ p, part S f v = some p
  value : isValue f = true → ∀ i ps, GoGen.part S f v = ps[i]? → ∃ it, it ≠ .nil ∧ Okay st it ∧
    emitValue ps (callOf f i) = some [it] ∧
    ∀ rd, Law ver rd → ∀ old t, decValue rd ver.bytesScratch f old (wireAll [it] ++ t) = .ok t (V.over w S f old v)
  slice : isSlice f = true → ∃ cs, GoGen.part S f v = some (.slice cs) ∧ (∀ i ∈ cs, Okay st i) ∧
    (∃ i is, cs = i :: is ∧ i ≠ .nil) ∧
    ∀ rd, Law ver rd → ∀ old t, Tail st t → old.OfField S f →
      decSlice rd (callees ver rd S (n + N)) f old (wireAll cs ++ t) = .ok t (V.over w S f old v)
  message : isMsg f = true → ∃ cs, GoGen.part S f v = some (.encode cs) ∧ (∀ i ∈ cs, Okay st i) ∧
    (st = true → v ≠ .nil → ∃ i is, cs = i :: is ∧ i ≠ .nil) ∧
    ∀ rd, Law ver rd → ∀ old t, Tail st t → old.OfField S f →
      decMessage ver rd (callees ver rd S (n + N)) f old (wireAll cs ++ t) = .ok t (V.over w S f old v)

theorem fieldFacts {st : Bool} {S : Schema} {ver : Version} {w : Style} {N : Nat} (hS : Setup ver w S N) {n : Nat} (hn : Good st ver w S N n) {f : Field} {v : V} (hf : f.GoSupported)
    (hv : v.OfField S f) (ha : Cond st S f v) (hfit : v.Fits) (hd : v.depth ≤ n) : FieldFacts st ver w S N n f v := by
  cases f with
  | many k r =>
    have h := sliceField hS hn hf hv ha hfit hd
    obtain ⟨cs, h1, h2, h3, h4⟩ := h
    exact ⟨⟨_, h1⟩, by simp [isValue], fun _ => ⟨cs, h1, h2, h3, h4⟩, by simp [isMsg]⟩
  | map kk k r =>
    obtain ⟨cs, h1, h2, h3, h4⟩ := mapField hS hn hf hv ha hfit hd
    exact ⟨⟨_, h1⟩, by simp [isValue], by simp [isSlice], fun _ => ⟨cs, h1, h2, fun _ _ => h3, fun rd hl old t ht _ => h4 rd hl old t ht⟩⟩
  | one k r c =>
    by_cases hm : k = .message
    · subst hm
      obtain ⟨cs, h1, h2, h3, h4⟩ := messageField hS hn hv ha hfit hd
      exact ⟨⟨_, h1⟩, by simp [isValue], by simp [isSlice], fun _ => ⟨cs, h1, h2, h3, h4⟩⟩
    · obtain ⟨s, rfl, hs⟩ : ∃ s, v = .scalar s ∧ s.OfKind k := by
        rcases ofField_one hv with h | ⟨h, _⟩ | ⟨h, _⟩
        · exact h
        · exact absurd h hm
        · exact absurd h hm
      have hsf : s.Fits := by simpa [V.Fits] using hfit
      obtain ⟨m, e1, e2, _⟩ := encodeLUT_scalar (ofKind_scalar hs)
      have hp : part S (.one k r c) (.scalar s) = some (.scalar s) := by simp [part]
      refine ⟨⟨_, hp⟩, fun _ i ps hps => ⟨itemOf s, itemOf_ne_nil s, okay_itemOf hsf, ?_, ?_⟩, by simp [isSlice], by simp [isMsg, hm]⟩
      · rw [hp] at hps
        show emitValue ps ⟨(encodeLUT k).getD .Bool, i, k = .enum⟩ = _
        simp only [emitValue, ← hps, e1, Option.getD_some]
        exact emitScalar_enum hs e1
      · intro rd hl old t
        rw [show wireAll [itemOf s] = wire (itemOf s) by simp [wireAll], decValue_wire hl hs r c old t hsf, V.over] <;> simp

theorem good_succ {st : Bool} {S : Schema} {ver : Version} {w : Style} {N : Nat} (hS : Setup ver w S N) {n : Nat} (hn : Good st ver w S N n) : Good st ver w S N (n + 1) := by
  intro m vs hvs ha hfit hd
  have hlen := ofFields_length S _ _ hvs
  have hsup := fields_supported hS.supported m
  have hlead : st = true → (∃ f ∈ S.fields m, f.Leaf = true) ∨ ∃ v, vs.head? = some v ∧ v ≠ .nil := by
    rintro rfl
    simp only [Cond, if_true, V.Anchored] at ha
    exact ha.1
  have hfits := (fitsAll_iff vs).mp hfit
  have facts : ∀ (i : Nat) (f : Field) (v : V), (S.fields m)[i]? = some f → vs[i]? = some v → FieldFacts st ver w S N n f v := by
    intro i f v h1 h2
    obtain ⟨w, h3, h4⟩ := ofFields_get S _ _ i f hvs h1
    have : w = v := by rw [h2] at h3; simpa using h3.symm
    subst this
    exact fieldFacts hS hn (hsup f (List.mem_of_getElem? h1)) h4 (cond_get ha h1 h2)
      (hfits _ (List.mem_of_getElem? h2))
      (Nat.le_trans (depth_le_depths (List.mem_of_getElem? h2)) (by omega))
  have val : ∀ (i : Nat) (f : Field), (S.fields m)[i]? = some f → ∃ v, vs[i]? = some v := by
    intro i f h
    obtain ⟨v, h1, _⟩ := ofFields_get S _ _ i f hvs h
    exact ⟨v, h1⟩
  obtain ⟨ps, hps, hget⟩ := parts_some S (S.fields m) vs hlen (fun i f v a b => (facts i f v a b).part)
  -- the three passes
  have run : ∀ rd, Law ver rd → ∀ olds, OfFields S (S.fields m) olds →
      ∃ a b c, concatM (emitAt ps (S.fields m)) (idx isValue 0 (S.fields m)) = some a ∧
        concatM (emitSlice ps) (idx isSlice 0 (S.fields m)) = some b ∧
        concatM (emitMessage ps) (idx isMsg 0 (S.fields m)) = some c ∧
        (∀ j ∈ a, Okay st j) ∧ (∀ j ∈ b, Okay st j) ∧ (∀ j ∈ c, Okay st j) ∧
        (∀ t, Tail st t → forFields (decValue rd ver.bytesScratch) (S.fields m) (idx isValue 0 (S.fields m)) olds (wireAll a ++ t) =
          .ok t (setAll (oversF w S (S.fields m) olds vs) (idx isValue 0 (S.fields m)) olds)) ∧
        (∀ t, Tail st t → forFields (decSlice rd (callees ver rd S (n + N))) (S.fields m) (idx isSlice 0 (S.fields m))
            (setAll (oversF w S (S.fields m) olds vs) (idx isValue 0 (S.fields m)) olds) (wireAll b ++ t) =
          .ok t (setAll (oversF w S (S.fields m) olds vs) (idx isSlice 0 (S.fields m))
            (setAll (oversF w S (S.fields m) olds vs) (idx isValue 0 (S.fields m)) olds))) ∧
        (∀ t, Tail st t → forFields (decMessage ver rd (callees ver rd S (n + N))) (S.fields m) (idx isMsg 0 (S.fields m))
            (setAll (oversF w S (S.fields m) olds vs) (idx isSlice 0 (S.fields m))
              (setAll (oversF w S (S.fields m) olds vs) (idx isValue 0 (S.fields m)) olds)) (wireAll c ++ t) =
          .ok t (oversF w S (S.fields m) olds vs)) := by
    intro rd hl olds holds
    have hol := ofFields_length S _ _ holds
    have hTl := oversF_length w S _ olds vs hol hlen
    generalize hT : oversF w S (S.fields m) olds vs = T
    have hTget : ∀ (i : Nat) (f : Field) (old v : V), (S.fields m)[i]? = some f → olds[i]? = some old → vs[i]? = some v →
        T[i]? = some (V.over w S f old v) := by
      intro i f old v h1 h2 h3; rw [← hT]; exact oversF_get w S _ _ _ i f old v h1 h2 h3
    have hTl' : olds.length = T.length := by rw [← hT, hTl, hol]
    obtain ⟨a, a1, a2, a3⟩ := forFields_spec (st := st) (stmt := decValue rd ver.bytesScratch) (fields := S.fields m)
      (em := emitAt ps (S.fields m)) (T := T) (idx isValue 0 (S.fields m)) olds (idx_nodup ..) (by
        intro i hi
        obtain ⟨f, h1, h2⟩ := idx_of hi
        obtain ⟨v, h3⟩ := val i f h1
        obtain ⟨old, h4, h5⟩ := ofFields_get S _ _ i f holds h1
        obtain ⟨it, k1, k2, k3, k4⟩ := (facts i f v h1 h3).value h2 i ps (hget i f v h1 h3)
        refine ⟨f, old, _, [it], h1, h4, hTget i f old v h1 h4 h3, by simp only [emitAt, h1]; exact k3, ?_, fun t _ => k4 rd hl old t⟩
        intro j hj; simp at hj; subst hj; exact k2)
    obtain ⟨b, b1, b2, b3⟩ := forFields_spec (st := st) (stmt := decSlice rd (callees ver rd S (n + N))) (fields := S.fields m)
      (em := emitSlice ps) (T := T) (idx isSlice 0 (S.fields m)) (setAll T (idx isValue 0 (S.fields m)) olds)
      (idx_nodup ..) (by
        intro i hi
        obtain ⟨f, h1, h2⟩ := idx_of hi
        obtain ⟨v, h3⟩ := val i f h1
        obtain ⟨old, h4, h5⟩ := ofFields_get S _ _ i f holds h1
        obtain ⟨cs, k1, k2, k3, k4⟩ := (facts i f v h1 h3).slice h2
        have hno : i ∉ idx isValue 0 (S.fields m) := by
          intro hc
          obtain ⟨g, e1, e2⟩ := idx_of hc
          rw [h1] at e1; simp at e1; subst e1
          rcases one_of_three f with h | h | h <;> simp_all
        refine ⟨f, old, _, cs, h1, ?_, hTget i f old v h1 h4 h3, ?_, k2, fun t ht => k4 rd hl old t ht h5⟩
        · rw [setAll_get _ _ _ _ hTl', if_neg hno]; exact h4
        · simp only [emitSlice, ← hget i f v h1 h3, k1])
    have hl2 : (setAll T (idx isValue 0 (S.fields m)) olds).length = T.length := by rw [setAll_length]; exact hTl'
    obtain ⟨c, c1, c2, c3⟩ := forFields_spec (st := st) (stmt := decMessage ver rd (callees ver rd S (n + N))) (fields := S.fields m)
      (em := emitMessage ps) (T := T) (idx isMsg 0 (S.fields m))
      (setAll T (idx isSlice 0 (S.fields m)) (setAll T (idx isValue 0 (S.fields m)) olds))
      (idx_nodup ..) (by
        intro i hi
        obtain ⟨f, h1, h2⟩ := idx_of hi
        obtain ⟨v, h3⟩ := val i f h1
        obtain ⟨old, h4, h5⟩ := ofFields_get S _ _ i f holds h1
        obtain ⟨cs, k1, k2, k3, k4⟩ := (facts i f v h1 h3).message h2
        have hno : i ∉ idx isValue 0 (S.fields m) := by
          intro hc
          obtain ⟨g, e1, e2⟩ := idx_of hc
          rw [h1] at e1; simp at e1; subst e1
          rcases one_of_three f with h | h | h <;> simp_all
        have hno' : i ∉ idx isSlice 0 (S.fields m) := by
          intro hc
          obtain ⟨g, e1, e2⟩ := idx_of hc
          rw [h1] at e1; simp at e1; subst e1
          rcases one_of_three f with h | h | h <;> simp_all
        refine ⟨f, old, _, cs, h1, ?_, hTget i f old v h1 h4 h3, ?_, k2, fun t ht => k4 rd hl old t ht h5⟩
        · rw [setAll_get _ _ _ _ hl2, if_neg hno', setAll_get _ _ _ _ hTl', if_neg hno]; exact h4
        · simp only [emitMessage, ← hget i f v h1 h3, k1])
    refine ⟨a, b, c, a1, b1, c1, a2, b2, c2, a3, b3, ?_⟩
    intro t ht
    rw [c3 t ht]
    congr 1
    apply List.ext_getElem?
    intro j
    have hl3 : (setAll T (idx isSlice 0 (S.fields m)) (setAll T (idx isValue 0 (S.fields m)) olds)).length = T.length := by
      rw [setAll_length]; exact hl2
    rw [setAll_get _ _ _ _ hl3, setAll_get _ _ _ _ hl2, setAll_get _ _ _ _ hTl']
    by_cases hj : j < (S.fields m).length
    · have h1 : (S.fields m)[j]? = some (S.fields m)[j] := List.getElem?_eq_getElem hj
      rcases one_of_three (S.fields m)[j] with ⟨h, _, _⟩ | ⟨_, h, _⟩ | ⟨_, _, h⟩
      · have := of_idx h1 h; simp [this]
      · have := of_idx h1 h; simp [this]
      · have := of_idx h1 h; simp [this]
    · have e1 : T[j]? = none := List.getElem?_eq_none (by rw [← hTl', ← hol]; omega)
      have e2 : olds[j]? = none := List.getElem?_eq_none (by rw [← hol]; omega)
      simp [e1, e2]
  obtain ⟨rd0, hl0⟩ := hS.law
  obtain ⟨a, b, c, a1, b1, c1, a2, b2, c2, _⟩ := run rd0 hl0 (w.fresh m) (hS.typed m)
  have hfirst : st = true → ∃ i is, a ++ b ++ c = i :: is ∧ i ≠ .nil := by
    intro hst
    have hlead := hlead hst
    -- the first item
    cases ha' : idx isValue 0 (S.fields m) with
    | cons i is =>
      obtain ⟨f, h1, h2⟩ := idx_of (p := isValue) (fs := S.fields m) (i := i) (by rw [ha']; simp)
      obtain ⟨v, h3⟩ := val i f h1
      obtain ⟨it, k1, k2, k3, k4⟩ := (facts i f v h1 h3).value h2 i ps (hget i f v h1 h3)
      rw [ha'] at a1
      obtain ⟨rest, rfl⟩ := concatM_head a1 (x := it) (xs := []) (by simp only [emitAt, h1]; exact k3)
      exact ⟨it, _, by simp only [List.cons_append]; rfl, k1⟩
    | nil =>
      rw [ha'] at a1
      have : a = [] := by simpa [concatM] using a1.symm
      subst this
      cases hb' : idx isSlice 0 (S.fields m) with
      | cons i is =>
        obtain ⟨f, h1, h2⟩ := idx_of (p := isSlice) (fs := S.fields m) (i := i) (by rw [hb']; simp)
        obtain ⟨v, h3⟩ := val i f h1
        obtain ⟨cs, k1, k2, ⟨x, xs, rfl, hx⟩, k4⟩ := (facts i f v h1 h3).slice h2
        rw [hb'] at b1
        obtain ⟨rest, rfl⟩ := concatM_head b1 (x := x) (xs := xs) (by simp only [emitSlice, ← hget i f v h1 h3, k1])
        exact ⟨x, _, by simp only [List.nil_append, List.cons_append]; rfl, hx⟩
      | nil =>
        rw [hb'] at b1
        have : b = [] := by simpa [concatM] using b1.symm
        subst this
        rcases hlead with ⟨f, hf, hleaf⟩ | ⟨v, hv, hne⟩
        · exfalso
          obtain ⟨j, hj⟩ := List.mem_iff_getElem?.mp hf
          cases f with
          | one k r c =>
            have : j ∈ idx isValue 0 (S.fields m) := of_idx hj (by simpa [isValue, Field.Leaf] using hleaf)
            rw [ha'] at this; simp at this
          | many k r =>
            have : j ∈ idx isSlice 0 (S.fields m) := of_idx hj (by simp [isSlice])
            rw [hb'] at this; simp at this
          | map => simp [Field.Leaf] at hleaf
        · have hv0 : vs[0]? = some v := by rw [List.head?_eq_getElem?] at hv; exact hv
          have hpos : 0 < vs.length := by
            cases vs with
            | nil => simp at hv0
            | cons => simp
          have hf0 : (S.fields m)[0]? = some (S.fields m)[0] := List.getElem?_eq_getElem (by omega)
          have hmsg : isMsg (S.fields m)[0] = true := by
            rcases one_of_three (S.fields m)[0] with ⟨h, _, _⟩ | ⟨_, h, _⟩ | ⟨_, _, h⟩
            · have := of_idx hf0 h; rw [ha'] at this; simp at this
            · have := of_idx hf0 h; rw [hb'] at this; simp at this
            · exact h
          obtain ⟨cs, k1, k2, k3, k4⟩ := (facts 0 _ v hf0 hv0).message hmsg
          obtain ⟨x, xs, rfl, hx⟩ := k3 hst hne
          obtain ⟨is, his⟩ : ∃ is, idx isMsg 0 (S.fields m) = 0 :: is := by
            cases hfs : S.fields m with
            | nil => rw [hfs] at hlen; simp at hlen; omega
            | cons f fs =>
              refine ⟨idx isMsg 1 fs, ?_⟩
              have : isMsg f = true := by simpa [hfs] using hmsg
              rw [idx, if_pos this]
          rw [his] at c1
          obtain ⟨rest, rfl⟩ := concatM_head c1 (x := x) (xs := xs) (by simp only [emitMessage, ← hget 0 _ v hf0 hv0, k1])
          exact ⟨x, rest, by simp, hx⟩
  refine ⟨a ++ b ++ c, ?_, ?_, hfirst, ?_⟩
  · simp only [Encode, part, if_true, hps, GetEncodingFields, encLoop_eq _ 0 hsup]
    simp [arrange, concat_calls ps (S.fields m) (S.fields m) 0 (by simp), a1, b1, c1]
  · intro i hi
    simp only [List.mem_append] at hi
    rcases hi with (hi | hi) | hi
    · exact a2 i hi
    · exact b2 i hi
    · exact c2 i hi
  · intro rd hl olds t ht holds
    obtain ⟨a', b', c', a1', b1', c1', p1, p2, p3, r1, r2, r3⟩ := run rd hl olds holds
    have ea : a' = a := by rw [a1] at a1'; simpa using a1'.symm
    have eb : b' = b := by rw [b1] at b1'; simpa using b1'.symm
    have ec : c' = c := by rw [c1] at c1'; simpa using c1'.symm
    subst ea; subst eb; subst ec
    have hall : ∀ i ∈ a' ++ b' ++ c', Okay st i := by
      intro i hi
      simp only [List.mem_append] at hi
      rcases hi with (hi | hi) | hi
      · exact a2 i hi
      · exact b2 i hi
      · exact c2 i hi
    have hnil : isNil rd (wireAll (a' ++ b' ++ c') ++ t) = .ok (wireAll (a' ++ b' ++ c') ++ t) false := by
      exact isNil_no hl (no_nil hall hfirst ht)
    rw [show n + 1 + N = (n + N) + 1 by omega, decode, bind_ok hnil]
    simp only [Bool.false_eq_true, if_false, GetDecodingFields, decLoop_eq _ 0 hsup, errUsed_ok hS.supported m, if_true]
    show decBody ver rd (callees ver rd S (n + N)) _ _ _ _ = _
    rw [decBody, wireAll_append, wireAll_append, List.append_assoc, List.append_assoc, bind_ok (r1 _ (tail_items b2 (tail_items c2 ht))),
      bind_ok (r2 _ (tail_items c2 ht)), r3 t ht]

end GoGen
