import Verif.Gen.RustRound

/-! # Generated Rust code: the main lemma -/

namespace RustGen

open Gen Spec
open Rust (Cursor Std Dec DecodingError Item.KindsOk Item.Utf8Ok)
open GoGen (idx isValue isSlice isMsg itemOf setAll setAll_get setAll_length wireAll_append wireAll_cons IsScalar
  ofFields_length ofFields_get ofElems_iff ofField_one idx_of of_idx one_of_three)

theorem rustOkF_get (S : Schema) : ∀ (fs : List Field) (vs : List V) (i : Nat) (f : Field) (v : V),
    RustOkF S fs vs → fs[i]? = some f → vs[i]? = some v → v.RustOk S f := by
  intro fs
  induction fs with
  | nil => intro vs i f v _ h; simp at h
  | cons g fs ih =>
    intro vs i f v h hi hv
    cases vs with
    | nil => simp at hv
    | cons w vs =>
      simp only [RustOkF] at h
      cases i with
      | zero => simp at hi hv; subst hi; subst hv; exact h.1
      | succ i => exact ih vs i f v h.2 (by simpa using hi) (by simpa using hv)

theorem rustOkE_iff (S : Schema) (f : Field) (vs : List V) : RustOkE S f vs ↔ ∀ v ∈ vs, v.RustOk S f := by
  induction vs with
  | nil => simp [RustOkE]
  | cons v vs ih => simp [RustOkE, ih]

theorem fields_supported {S : Schema} (h : S.RustSupported) (m : Nat) : ∀ f ∈ S.fields m, f.RustSupported := by
  intro f hf
  unfold Schema.fields at hf
  cases hm : S.messages[m]? with
  | none => rw [hm] at hf; simp at hf
  | some fs => rw [hm] at hf; exact h fs (List.mem_of_getElem? hm) f (by simpa using hf)

/-- What is to be proved, for messages of depth up to `n`. -/
def Good (std : Std) (S : Schema) (n : Nat) : Prop := ∀ (m : Nat) (vs : List V), OfFields S (S.fields m) vs →
  RustOkF S (S.fields m) vs → depths vs + 1 ≤ n →
  ∃ cs, Encode S m (.msg vs) = some cs ∧ (∀ i ∈ cs, Sound i) ∧ Yields (decode std S n m) cs (some vs)

theorem part_encode {S : Schema} {m : Nat} {c : Bool} {v : V} {cs : List Item} (h : Encode S m v = some cs) :
    part S (.one .message m c) v = some (.encode cs) := by
  have h1 : part S (.one .message m c) v = part S (.one .message m false) v := by
    cases v <;> simp [part]
  rw [h1]
  unfold Encode at h
  split at h
  · rename_i calls heq; rw [heq]; simp at h; rw [h]
  · simp at h

/-- One message, wherever it occurs. -/
theorem message {std : Std} {S : Schema} {n : Nat} (hn : Good std S n) {m : Nat} {c : Bool} {v : V} (e : DecodingError)
    (hv : v.OfField S (.one .message m c)) (hr : v.RustOk S (.one .message m c)) (hd : v.depth ≤ n) :
    ∃ cs, part S (.one .message m c) v = some (.encode cs) ∧ (∀ i ∈ cs, Sound i) ∧
      Yields (nested (decode std S n) m e) cs v := by
  rcases ofField_one hv with ⟨s, rfl, hs⟩ | ⟨_, rfl⟩ | ⟨_, vs, rfl, hvs⟩
  · cases s <;> simp [Scalar.OfKind] at hs
  · simp [V.RustOk] at hr
  · obtain ⟨cs, h1, h2, h3⟩ := hn m vs hvs (by simpa [V.RustOk] using hr) (by simpa [V.depth] using hd)
    exact ⟨cs, part_encode h1, h2, Yields.map h3 (fun _ => rfl)⟩

/-- A scalar of a singular field. -/
theorem scalar_of {S : Schema} {k : PKind} {r : Nat} {c : Bool} {v : V} (hm : k ≠ .message) (hv : v.OfField S (.one k r c))
    (hr : v.RustOk S (.one k r c)) : ∃ s, v = .scalar s ∧ s.OfKind k ∧ s.RustOk S r := by
  rcases ofField_one hv with ⟨s, rfl, hs⟩ | ⟨h, _⟩ | ⟨h, _⟩
  · exact ⟨s, rfl, hs, by simpa [V.RustOk] using hr⟩
  · exact absurd h hm
  · exact absurd h hm

theorem elemsMessage {std : Std} {S : Schema} {n : Nat} (hn : Good std S n) {r : Nat} : ∀ (vs : List V),
    (∀ v ∈ vs, v.OfField S (.one .message r false)) → (∀ v ∈ vs, v.RustOk S (.one .message r false)) →
    (∀ v ∈ vs, v.depth ≤ n) →
    ∃ ps es, elemParts S (.one .message r false) vs = some ps ∧ concatM emitElemMessage ps = some es ∧ (∀ i ∈ es, Sound i) ∧
      Yields (decElems std (decode std S n) .message r vs.length) es vs := by
  intro vs
  induction vs with
  | nil => intros; exact ⟨[], [], by simp [elemParts], rfl, by simp, Yields.pure []⟩
  | cons v vs ih =>
    intro h1 h2 h3
    obtain ⟨cs, a1, a2, a3⟩ := message hn .InvalidArray (h1 v (by simp)) (h2 v (by simp)) (h3 v (by simp))
    obtain ⟨ps, es, b1, b2, b3, b4⟩ := ih (fun w hw => h1 w (by simp [hw])) (fun w hw => h2 w (by simp [hw]))
      (fun w hw => h3 w (by simp [hw]))
    refine ⟨.encode cs :: ps, cs ++ es, by simp [elemParts, a1, b1], by simp [concatM, emitElemMessage, b2], ?_, ?_⟩
    · intro i hi
      rcases List.mem_append.mp hi with hi | hi
      · exact a2 i hi
      · exact b3 i hi
    · rw [List.length_cons, decElems]
      refine Yields.bind (a := v) ?_ (Yields.map b4 (fun _ => rfl)) b3
      rw [decElem, if_pos rfl]; exact a3

theorem elemsScalar {std : Std} {S : Schema} {n : Nat} {k : PKind} {r : Nat} (hk : k = .string ∨ k = .bytes) {m : Method}
    (hm : encodeLUT k = some m) : ∀ (vs : List V),
    (∀ v ∈ vs, v.OfField S (.one k r false)) → (∀ v ∈ vs, v.RustOk S (.one k r false)) →
    ∃ ps es, elemParts S (.one k r false) vs = some ps ∧ concatM (emitElemScalar m) ps = some es ∧ (∀ i ∈ es, Sound i) ∧
      Yields (decElems std (decode std S n) k r vs.length) es vs := by
  have hk1 : k ≠ .message := by rintro rfl; simp at hk
  have hk2 : k ≠ .enum := by rintro rfl; simp at hk
  intro vs
  induction vs with
  | nil => intros; exact ⟨[], [], by simp [elemParts], rfl, by simp, Yields.pure []⟩
  | cons v vs ih =>
    intro h1 h2
    obtain ⟨s, rfl, hs, hr⟩ := scalar_of hk1 (h1 v (by simp)) (h2 v (by simp))
    obtain ⟨m', e1, e2, _, e4⟩ := lut_scalar (r := r) (GoGen.ofKind_scalar hs)
    rw [hm] at e1; cases e1
    obtain ⟨ps, es, b1, b2, b3, b4⟩ := ih (fun w hw => h1 w (by simp [hw])) (fun w hw => h2 w (by simp [hw]))
    have em : emitElemScalar m (.scalar m.type s) = some [itemOf s] := by
      rw [emitElemScalar]
      exact emit_form hs hm (e4 hk2) (by rw [if_neg hk2, if_pos hk])
    refine ⟨.scalar m.type s :: ps, [itemOf s] ++ es, by simp [elemParts, part, e4 hk2, b1], by simp [concatM, em, b2], ?_, ?_⟩
    · intro i hi
      rcases List.mem_append.mp hi with hi | hi
      · simp at hi; subst hi; exact sound_itemOf hr
      · exact b3 i hi
    · rw [List.length_cons, decElems]
      refine Yields.bind (a := .scalar s) ?_ (Yields.map b4 (fun _ => rfl)) b3
      rw [decElem, if_neg hk1, e2, e4 hk2]
      exact Yields.map (assign_yields std hs hk2 e2 (e4 hk2) hr) (fun _ => rfl)

theorem yields_array (std : Std) (kk : Rust.Kind) {n : Nat} (hn : n < 2 ^ 32) :
    Yields (call (Rust.decode_array std kk)) [.slice (BitVec.ofNat 32 n) kk.toU8] n := by
  apply yields_call
  intro c t hr
  exact (Rust.decode_array_ok_iff ..).mpr ⟨_, t, Props.wire_accepts trivial, hn, hr, rfl⟩

theorem yields_map (std : Std) (kk k : Rust.Kind) {n : Nat} (hn : n < 2 ^ 32) (e : DecodingError) :
    Yields (callOr (Rust.decode_map std kk k) e) [.map (BitVec.ofNat 32 n) kk.toU8 k.toU8] n := by
  intro c t _ hr _
  rw [show wireAll [Item.map (BitVec.ofNat 32 n) kk.toU8 k.toU8] = wire (Item.map (BitVec.ofNat 32 n) kk.toU8 k.toU8) by simp [wireAll]] at hr ⊢
  rw [callOr, (Rust.decode_map_ok_iff ..).mpr ⟨_, t, Props.wire_accepts trivial, hn, hr, rfl⟩]

theorem toU8_le (k : Rust.Kind) : k.toU8.toNat ≤ 16 := by cases k <;> decide

theorem sound_slice (n : BitVec 32) (k : Rust.Kind) : Sound (.slice n k.toU8) :=
  ⟨by simp, by simp, trivial, trivial, toU8_le k⟩

theorem sound_map (n : BitVec 32) (k v : Rust.Kind) : Sound (.map n k.toU8 v.toU8) :=
  ⟨by simp, by simp, trivial, trivial, toU8_le k, toU8_le v⟩

/-- A repeated field. -/
theorem sliceField {std : Std} {S : Schema} {n : Nat} (hn : Good std S n) {k : PKind} {r : Nat} {v : V}
    (hk : (Field.many k r).RustSupported) (hv : v.OfField S (.many k r)) (hr : v.RustOk S (.many k r)) (hd : v.depth ≤ n) :
    ∃ cs, part S (.many k r) v = some (.slice cs) ∧ (∀ i ∈ cs, Sound i) ∧
      Yields (decSlice std (decode std S n) (.many k r)) cs v := by
  cases v <;> simp only [V.OfField] at hv
  rename_i vs
  have hvs := (ofElems_iff ..).mp hv.2
  have hrs := (rustOkE_iff ..).mp (by simpa [V.RustOk] using hr)
  have hds : ∀ v ∈ vs, v.depth ≤ n := fun v h => Nat.le_trans (depth_le_depths h) (by simpa [V.depth] using hd)
  have key : ∃ kk ps es, getKind k = some kk ∧ elemParts S (.one k r false) vs = some ps ∧
      emitElems k r vs.length ps = some (.slice (.slice (BitVec.ofNat 32 vs.length) kk.toU8 :: es)) ∧ (∀ i ∈ es, Sound i) ∧
      Yields (decElems std (decode std S n) k r vs.length) es vs := by
    by_cases hm : k = .message
    · subst hm
      obtain ⟨ps, es, h1, h2, h3, h4⟩ := elemsMessage hn vs hvs hrs hds
      exact ⟨.Any, ps, es, rfl, h1, by simp [emitElems, encodeLUT, h2], h3, h4⟩
    · have hsb : k = .string ∨ k = .bytes := by
        rcases hk with h | h | h
        · exact .inl h
        · exact .inr h
        · exact absurd h hm
      have hsc : IsScalar k := by rcases hsb with rfl | rfl <;> simp [IsScalar]
      obtain ⟨m, e1, e2, ⟨kk, e3, e4⟩, e5⟩ := lut_scalar (r := r) hsc
      have hne : k ≠ .enum := by rcases hsb with rfl | rfl <;> simp
      obtain ⟨ps, es, h1, h2, h3, h4⟩ := elemsScalar (std := std) (S := S) (n := n) (r := r) hsb e1 vs hvs hrs
      refine ⟨kk, ps, es, e4, h1, ?_, h3, h4⟩
      have hacc : accepts m .ref m.type = true := by
        rcases hsb with rfl | rfl <;> simp [encodeLUT] at e1 <;> subst e1 <;> rfl
      simp [emitElems, e1, e3, e5 hne, hacc, h2]
  obtain ⟨kk, ps, es, h1, h2, h3, h4, h5⟩ := key
  refine ⟨_, by simp [part, h2, h3]; rfl, ?_, ?_⟩
  · intro i hi
    rcases List.mem_cons.mp hi with rfl | hi
    · exact sound_slice _ _
    · exact h4 i hi
  · obtain ⟨ty, hty⟩ : ∃ ty, findValue (.many k r) = some ty := by
      rcases hk with rfl | rfl | rfl <;> exact ⟨_, rfl⟩
    have : decSlice std (decode std S n) (.many k r) = (do
        let size ← call (Rust.decode_array std kk)
        let vs ← decElems std (decode std S n) k r size
        pure (.slice vs)) := by
      unfold decSlice
      rw [show (Field.many k r).Kind = k from rfl, h1, hty]
    rw [this, ← List.singleton_append]
    exact Yields.bind (yields_array std kk hv.1) (Yields.map h5 (fun _ => rfl)) h4

/-! ## Maps -/

theorem insert_fresh : ∀ (ks : List Scalar) (vs : List V) (k : Scalar) (v : V), ks.length = vs.length → k ∉ ks →
    insert k v ks vs = (ks ++ [k], vs ++ [v]) := by
  intro ks
  induction ks with
  | nil => intro vs k v h _; cases vs with
    | nil => rfl
    | cons => simp at h
  | cons k' ks ih =>
    intro vs k v h hn
    cases vs with
    | nil => simp at h
    | cons v' vs =>
      have h1 : k ≠ k' := fun e => hn (by simp [e])
      have h2 := ih vs k v (by simpa using h) (fun e => hn (by simp [e]))
      rw [insert, if_neg h1, h2]; rfl

/-- One value of a map. -/
theorem mapValue {std : Std} {S : Schema} {n : Nat} (hn : Good std S n) {k : PKind} {r : Nat} {v : V}
    (hk : k ≠ .group ∧ k ≠ .string ∧ k ≠ .bytes) (hv : v.OfField S (.one k r false)) (hr : v.RustOk S (.one k r false))
    (hd : v.depth ≤ n) :
    ∃ p cs, part S (.one k r false) v = some p ∧ emitMapValue k p = some cs ∧ (∀ i ∈ cs, Sound i) ∧
      Yields (decMapValue std S (decode std S n) k r) cs v := by
  by_cases hm : k = .message
  · subst hm
    obtain ⟨cs, h1, h2, h3⟩ := message hn .InvalidMap hv hr hd
    exact ⟨_, cs, h1, rfl, h2, h3⟩
  · obtain ⟨s, rfl, hs, hrs⟩ := scalar_of hm hv hr
    obtain ⟨m, e1, e2, _, e4⟩ := lut_scalar (r := r) (GoGen.ofKind_scalar hs)
    by_cases he : k = .enum
    · subst he
      obtain ⟨w, rfl⟩ := GoGen.enum_cases hs
      refine ⟨.scalar (.enum r) (.enum w), [itemOf (.enum w)], rfl, rfl, ?_, enum_yields std hrs⟩
      intro i hi; simp at hi; subst hi; exact sound_itemOf hrs
    · refine ⟨.scalar m.type s, [itemOf s], by simp [part, e4 he], ?_, ?_, ?_⟩
      · simp only [emitMapValue, e1]
        rw [if_neg he]
        exact emit_form hs e1 (e4 he) (by rw [if_neg he, if_neg (by simp [hk.2.1, hk.2.2])])
      · intro i hi; simp at hi; subst hi; exact sound_itemOf hrs
      · rw [decMapValue, e2, e4 he]
        simp only []
        rw [if_neg he]
        exact Yields.map (assign_yields std hs he e2 (e4 he) hrs) (fun _ => rfl)

theorem entries {std : Std} {S : Schema} {n : Nat} (hn : Good std S n) {k : PKind} {r : Nat}
    (hk : k ≠ .group ∧ k ≠ .string ∧ k ≠ .bytes) :
    ∀ (ks : List Scalar) (vs : List V), ks.length = vs.length → ks.Nodup → (∀ s ∈ ks, s.OfKind .string) →
    (∀ s ∈ ks, s.RustOk S 0) → (∀ v ∈ vs, v.OfField S (.one k r false)) →
    (∀ v ∈ vs, v.RustOk S (.one k r false)) → (∀ v ∈ vs, v.depth ≤ n) →
    ∃ ps es, elemParts S (.one k r false) vs = some ps ∧ ps.length = vs.length ∧ emitEntries .string k ks ps = some es ∧
      (∀ i ∈ es, Sound i) ∧
      ∀ (ks0 : List Scalar) (vs0 : List V), ks0.length = vs0.length → (∀ s ∈ ks, s ∉ ks0) →
        Yields (decEntries std S (decode std S n) .string k r vs.length ks0 vs0) es (ks0 ++ ks, vs0 ++ vs) := by
  intro ks
  induction ks with
  | nil =>
    intro vs h
    cases vs with
    | nil =>
      intros
      refine ⟨[], [], by simp [elemParts], rfl, rfl, by simp, ?_⟩
      intro ks0 vs0 _ _
      simpa [decEntries] using Yields.pure (ks0, vs0)
    | cons => simp at h
  | cons s ks ih =>
    intro vs h hnd hty hsr h1 h2 h3
    cases vs with
    | nil => simp at h
    | cons v vs =>
      rw [List.nodup_cons] at hnd
      obtain ⟨p, cs, g1, g2, g3, g4⟩ := mapValue hn hk (h1 v (by simp)) (h2 v (by simp)) (h3 v (by simp))
      obtain ⟨ps, es, k1, k2, k3, k4, k5⟩ := ih vs (by simpa using h) hnd.2 (fun w hw => hty w (by simp [hw]))
        (fun w hw => hsr w (by simp [hw])) (fun w hw => h1 w (by simp [hw])) (fun w hw => h2 w (by simp [hw]))
        (fun w hw => h3 w (by simp [hw]))
      have hs := hty s (by simp)
      have hsr' := hsr s (by simp)
      have hkey : emitKey .string s = some [itemOf s] :=
        emit_form (r := 0) hs rfl rfl rfl
      have hgood : ∀ i ∈ cs ++ es, Sound i := by
        intro i hi
        rcases List.mem_append.mp hi with hi | hi
        · exact g3 i hi
        · exact k4 i hi
      refine ⟨p :: ps, [itemOf s] ++ cs ++ es, by simp [elemParts, g1, k1], by simp [k2], by simp [emitEntries, hkey, g2, k3], ?_, ?_⟩
      · intro i hi
        rw [List.append_assoc] at hi
        rcases List.mem_append.mp hi with hi | hi
        · simp at hi; subst hi; exact sound_itemOf hsr'
        · exact hgood i hi
      · intro ks0 vs0 h0 hfr
        rw [List.length_cons, decEntries, List.append_assoc]
        refine Yields.bind (a := s) ?_ (Yields.bind (a := v) g4 ?_ k4) hgood
        · show Yields (assign std .string .string) _ _
          exact assign_yields (r' := 0) std hs (by simp) rfl rfl hsr'
        · rw [insert_fresh ks0 vs0 s v h0 (hfr s (by simp))]
          have := k5 (ks0 ++ [s]) (vs0 ++ [v]) (by simp [h0]) (by
            intro s' hs' hmem
            rcases List.mem_append.mp hmem with hmem | hmem
            · exact hfr s' (by simp [hs']) hmem
            · simp at hmem; subst hmem; exact hnd.1 hs')
          simpa using this

theorem decode_none_clean (std : Std) {c : Cursor} (hp : c.pos ≤ c.vec.length) (h : Clean c.rest) :
    Rust.decode_none std c = (.ok false, c) := by
  rw [Rust.decode_none_spec]
  rcases h with h | ⟨a, b, u, h, h1, _⟩
  · rw [h]
    simp only []
    congr 1
    have : c.vec.length ≤ c.pos := by simpa [Cursor.rest] using h
    simp only [Cursor.atEnd]
    split
    · cases c; simp at *; omega
    · rfl
  · rw [h]; simp only []; rw [if_neg h1]

theorem mapBodyOk_ok {k : PKind} (r : Nat) (hk : k ≠ .group ∧ k ≠ .string ∧ k ≠ .bytes) : mapBodyOk .string k r = true := by
  cases k <;> simp at hk <;> rfl

/-- A map field. -/
theorem mapField {std : Std} {S : Schema} {n : Nat} (hn : Good std S n) {kk k : PKind} {r : Nat} {v : V}
    (hk : (Field.map kk k r).RustSupported) (hv : v.OfField S (.map kk k r)) (hr : v.RustOk S (.map kk k r)) (hd : v.depth ≤ n) :
    ∃ cs, part S (.map kk k r) v = some (.encode cs) ∧ (∀ i ∈ cs, Sound i) ∧
      Yields (decMessage std S (decode std S n) (.map kk k r)) cs v := by
  obtain ⟨rfl, hk⟩ := hk
  obtain ⟨valKind, q2⟩ := getKind_ok hk.1
  cases v <;> simp only [V.OfField] at hv <;> simp only [V.RustOk] at hr
  rename_i ks vs
  obtain ⟨v1, v2, v3, v4, v5⟩ := hv
  obtain ⟨ps, es, h1, h2, h3, h4, h5⟩ := entries hn hk ks vs v1 v3 v4 hr.1 ((ofElems_iff ..).mp v5)
    ((rustOkE_iff ..).mp hr.2) (fun v h => Nat.le_trans (depth_le_depths h) (by simpa [V.depth] using hd))
  have q1 : getKind .string = some .String := rfl
  refine ⟨.map (BitVec.ofNat 32 vs.length) Rust.Kind.String.toU8 valKind.toU8 :: es, ?_, ?_, ?_⟩
  · simp [part, emitMap, q1, q2, h1, h2, h3, mapBodyOk_ok r hk]
  · intro i hi
    rcases List.mem_cons.mp hi with rfl | hi
    · exact sound_map _ _ _
    · exact h4 i hi
  · have hsnd : ∀ i ∈ Item.map (BitVec.ofNat 32 vs.length) Rust.Kind.String.toU8 valKind.toU8 :: es, Sound i := by
      intro i hi
      rcases List.mem_cons.mp hi with rfl | hi
      · exact sound_map _ _ _
      · exact h4 i hi
    show Yields (decMap std S (decode std S n) .string k r >>= fun x => okOr x .InvalidMap) _ _
    refine Yields.map (a := some (.map ks vs)) ?_ (fun _ => rfl)
    intro c t hp hrest ht
    have hcl : Clean c.rest := by rw [hrest]; exact clean_items hsnd ht
    rw [decMap, q1, q2]
    simp only []
    rw [bind_ok (call_ok (decode_none_clean std hp hcl))]
    simp only [Bool.false_eq_true, if_false]
    have := Yields.bind (f := fun size => decEntries std S (decode std S n) .string k r size [] [] >>=
        fun e => pure (some (V.map e.1 e.2))) (yields_map std .String valKind v2 .InvalidU32)
      (Yields.map (f := fun e : List Scalar × List V => pure (some (V.map e.1 e.2))) (b := some (V.map ks vs)) (h5 [] [] rfl (by simp)) (fun _ => by simp; rfl)) h4
    exact this c t hp hrest ht

/-- What one field contributes and how it is read back, for all three kinds of fields. -/
structure FieldFacts (std : Std) (S : Schema) (n : Nat) (f : Field) (v : V) : Prop where
  part : ∃ p, part S f v = some p
  value : isValue f = true → ∀ i ps, RustGen.part S f v = ps[i]? → ∃ it, Sound it ∧
    emitValue ps (callOf f i) = some [it] ∧ Yields (decValue std S f) [it] v
  slice : isSlice f = true → ∃ cs, RustGen.part S f v = some (.slice cs) ∧ (∀ i ∈ cs, Sound i) ∧
    Yields (decSlice std (decode std S n) f) cs v
  message : isMsg f = true → ∃ cs, RustGen.part S f v = some (.encode cs) ∧ (∀ i ∈ cs, Sound i) ∧
    Yields (decMessage std S (decode std S n) f) cs v

theorem fieldFacts {std : Std} {S : Schema} {n : Nat} (hn : Good std S n) {f : Field} {v : V} (hf : f.RustSupported)
    (hv : v.OfField S f) (hr : v.RustOk S f) (hd : v.depth ≤ n) : FieldFacts std S n f v := by
  cases f with
  | many k r =>
    obtain ⟨cs, h1, h2, h3⟩ := sliceField hn hf hv hr hd
    exact ⟨⟨_, h1⟩, by simp [isValue], fun _ => ⟨cs, h1, h2, h3⟩, by simp [isMsg]⟩
  | map kk k r =>
    obtain ⟨cs, h1, h2, h3⟩ := mapField hn hf hv hr hd
    exact ⟨⟨_, h1⟩, by simp [isValue], by simp [isSlice], fun _ => ⟨cs, h1, h2, h3⟩⟩
  | one k r c =>
    by_cases hm : k = .message
    · subst hm
      obtain ⟨cs, h1, h2, h3⟩ := message hn .InvalidStruct hv hr hd
      exact ⟨⟨_, h1⟩, by simp [isValue], by simp [isSlice], fun _ => ⟨cs, h1, h2, h3⟩⟩
    · obtain ⟨s, rfl, hs, hrs⟩ := scalar_of hm hv hr
      obtain ⟨m, e1, e2, _, _⟩ := lut_scalar (r := r) (GoGen.ofKind_scalar hs)
      obtain ⟨ty, hty⟩ : ∃ ty, findElem k r false = some ty := by
        have := GoGen.ofKind_scalar hs
        cases k <;> simp [IsScalar] at this <;> exact ⟨_, rfl⟩
      have hp : part S (.one k r c) (.scalar s) = some (.scalar ty s) := by simp [part, hty]
      refine ⟨⟨_, hp⟩, fun _ i ps hps => ⟨itemOf s, sound_itemOf hrs, ?_, decValue_yields std hs hrs⟩, by simp [isSlice], by simp [isMsg, hm]⟩
      rw [hp] at hps
      simp only [emitValue, callOf, ← hps, Field.Kind, e1, Option.getD_some]
      exact emit_form hs e1 hty rfl

theorem parts_some (S : Schema) : ∀ (fs : List Field) (vs : List V), fs.length = vs.length →
    (∀ (i : Nat) (f : Field) (v : V), fs[i]? = some f → vs[i]? = some v → ∃ p, part S f v = some p) →
    ∃ ps, parts S fs vs = some ps ∧ ∀ (i : Nat) (f : Field) (v : V), fs[i]? = some f → vs[i]? = some v → part S f v = ps[i]? := by
  intro fs
  induction fs with
  | nil =>
    intro vs h _
    cases vs with
    | nil => exact ⟨[], by simp [parts], by simp⟩
    | cons => simp at h
  | cons f fs ih =>
    intro vs h hp
    cases vs with
    | nil => simp at h
    | cons v vs =>
      obtain ⟨p, h1⟩ := hp 0 f v (by simp) (by simp)
      obtain ⟨ps, h2, h3⟩ := ih vs (by simpa using h) (fun i g w a b => hp (i + 1) g w (by simpa using a) (by simpa using b))
      refine ⟨p :: ps, by simp [parts, h1, h2], ?_⟩
      intro i g w a b
      cases i with
      | zero => simp at a b; subst a; subst b; simpa using h1
      | succ i => simpa using h3 i g w (by simpa using a) (by simpa using b)

theorem probe_clean (std : Std) {c : Cursor} (hp : c.pos ≤ c.vec.length) (h : Clean c.rest) : probeError std c = (.ok (), c) := by
  rcases h with h | ⟨a, b, u, h, _, h2⟩
  · have hd : Rust.decode_error std c = (.err .InvalidError, c) := by
      unfold Rust.decode_error
      rw [Rust.bind_err (Rust.read_u8_or_nil std _ h)]
      congr 1
      have : c.vec.length ≤ c.pos := by simpa [Cursor.rest] using h
      simp only [Cursor.atEnd]
      split
      · cases c; simp at *; omega
      · rfl
    rw [probeError, hd]
  · have := Rust.readItem_mismatch std .error c a (b :: u) h h2 (by simp) (by simp) (by simp)
    simp only [Rust.readItem] at this
    cases hx : Rust.decode_error std c with
    | mk o c' =>
      rw [Rust.bind_apply, hx] at this
      cases o with
      | ok m => change ((Rust.Out.ok (Item.error m), c') : Rust.Out DecodingError Item × Cursor) = _ at this; simp at this
      | panic => simp at this
      | err e => simp at this; rw [probeError, hx]; simp [this.2]

theorem good (std : Std) {S : Schema} (hS : S.RustSupported) : ∀ n, Good std S n := by
  intro n
  induction n with
  | zero => intro m vs _ _ h; omega
  | succ n hn =>
    intro m vs hvs hr hd
    have hlen := ofFields_length S _ _ hvs
    have hsup := fields_supported hS m
    have facts : ∀ (i : Nat) (f : Field) (v : V), (S.fields m)[i]? = some f → vs[i]? = some v → FieldFacts std S n f v := by
      intro i f v h1 h2
      obtain ⟨w, h3, h4⟩ := ofFields_get S _ _ i f hvs h1
      have : w = v := by rw [h2] at h3; simpa using h3.symm
      subst this
      exact fieldFacts hn (hsup f (List.mem_of_getElem? h1)) h4 (rustOkF_get S _ _ i f _ hr h1 h2)
        (Nat.le_trans (depth_le_depths (List.mem_of_getElem? h2)) (by omega))
    have val : ∀ (i : Nat) (f : Field), (S.fields m)[i]? = some f → ∃ v, vs[i]? = some v := by
      intro i f h
      obtain ⟨v, h1, _⟩ := ofFields_get S _ _ i f hvs h
      exact ⟨v, h1⟩
    obtain ⟨ps, hps, hget⟩ := parts_some S (S.fields m) vs hlen (fun i f v a b => (facts i f v a b).part)
    obtain ⟨a, a1, a2, a3⟩ := forFields_spec (init := decValue std S) (fields := S.fields m)
      (em := emitAt ps (S.fields m)) (T := vs) (idx isValue 0 (S.fields m)) (by
        intro i hi
        obtain ⟨f, h1, h2⟩ := idx_of hi
        obtain ⟨v, h3⟩ := val i f h1
        obtain ⟨it, k1, k2, k3⟩ := (facts i f v h1 h3).value h2 i ps (hget i f v h1 h3)
        refine ⟨f, v, [it], h1, h3, by simp only [emitAt, h1]; exact k2, ?_, k3⟩
        intro j hj; simp at hj; subst hj; exact k1)
    obtain ⟨b, b1, b2, b3⟩ := forFields_spec (init := decSlice std (decode std S n)) (fields := S.fields m)
      (em := emitSlice ps) (T := vs) (idx isSlice 0 (S.fields m)) (by
        intro i hi
        obtain ⟨f, h1, h2⟩ := idx_of hi
        obtain ⟨v, h3⟩ := val i f h1
        obtain ⟨cs, k1, k2, k3⟩ := (facts i f v h1 h3).slice h2
        exact ⟨f, v, cs, h1, h3, by simp only [emitSlice, ← hget i f v h1 h3, k1], k2, k3⟩)
    obtain ⟨c, c1, c2, c3⟩ := forFields_spec (init := decMessage std S (decode std S n)) (fields := S.fields m)
      (em := emitMessage ps) (T := vs) (idx isMsg 0 (S.fields m)) (by
        intro i hi
        obtain ⟨f, h1, h2⟩ := idx_of hi
        obtain ⟨v, h3⟩ := val i f h1
        obtain ⟨cs, k1, k2, k3⟩ := (facts i f v h1 h3).message h2
        exact ⟨f, v, cs, h1, h3, by simp only [emitMessage, ← hget i f v h1 h3, k1], k2, k3⟩)
    have hsnd : ∀ i ∈ a ++ (b ++ c), Sound i := by
      intro i hi
      simp only [List.mem_append] at hi
      rcases hi with hi | hi | hi
      · exact a2 i hi
      · exact b2 i hi
      · exact c2 i hi
    have hbc : ∀ i ∈ b ++ c, Sound i := fun i hi => hsnd i (by simp at hi ⊢; exact .inr hi)
    refine ⟨a ++ (b ++ c), ?_, hsnd, ?_⟩
    · simp only [Encode, part, if_true, hps, getEncodingFields, encLoop_eq _ 0 hsup]
      simp [arrange, concat_calls ps (S.fields m) (S.fields m) 0 (by simp), a1, b1, c1]
    · have fin : setAll vs (idx isMsg 0 (S.fields m)) (setAll vs (idx isSlice 0 (S.fields m))
          (setAll vs (idx isValue 0 (S.fields m)) (List.replicate (S.fields m).length .nil))) = vs := by
        have l1 : (List.replicate (S.fields m).length V.nil).length = vs.length := by simp [hlen]
        apply List.ext_getElem?
        intro j
        rw [setAll_get _ _ _ _ (by rw [setAll_length, setAll_length]; exact l1), setAll_get _ _ _ _ (by rw [setAll_length]; exact l1),
          setAll_get _ _ _ _ l1]
        by_cases hj : j < (S.fields m).length
        · have h1 : (S.fields m)[j]? = some (S.fields m)[j] := List.getElem?_eq_getElem hj
          rcases one_of_three (S.fields m)[j] with ⟨h, _, _⟩ | ⟨_, h, _⟩ | ⟨_, _, h⟩
          · have := of_idx h1 h; simp [this]
          · have := of_idx h1 h; simp [this]
          · have := of_idx h1 h; simp [this]
        · have e1 : vs[j]? = none := List.getElem?_eq_none (by omega)
          have e2 : (List.replicate (S.fields m).length V.nil)[j]? = none := List.getElem?_eq_none (by simp; omega)
          simp [e1, e2]
      have body : Yields (decBody std S (decode std S n) (S.fields m)
          ⟨idx isMsg 0 (S.fields m), idx isSlice 0 (S.fields m), idx isValue 0 (S.fields m)⟩) (a ++ (b ++ c)) vs := by
        rw [decBody]
        refine Yields.bind (a3 _) (Yields.bind (b3 _) ?_ c2) hbc
        have := c3 (setAll vs (idx isSlice 0 (S.fields m))
          (setAll vs (idx isValue 0 (S.fields m)) (List.replicate (S.fields m).length .nil)))
        rw [fin] at this
        exact this
      intro cu t hp hrest ht
      have hcl : Clean cu.rest := by rw [hrest]; exact clean_items hsnd ht
      rw [decode, bind_ok (call_ok (decode_none_clean std hp hcl))]
      simp only [Bool.false_eq_true, if_false]
      rw [bind_ok (probe_clean std hp hcl)]
      simp only [getDecodingFields, decLoop_eq _ 0 hsup]
      rw [bind_ok (body cu t hp hrest ht)]; rfl

end RustGen
