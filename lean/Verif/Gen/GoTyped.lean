import Verif.Gen.GoSafe

/-!
# Decoding into a struct of the right types leaves a struct of the right types

As in `GoSafe.lean`, but for structs that may hold nil elements and long strings.
-/

namespace GoGen

open Gen Spec
open GoV2 (Req Outcome Err)

/-- The code compiles, and every value that is returned has property `P`. -/
def Yields {α : Type} (x : D α) (P : α → Prop) : Prop := ∀ b, x b ≠ .bad ∧ ∀ r a, x b = .ok r a → P a

theorem yields_pure {α : Type} {P : α → Prop} {a : α} (h : P a) : Yields (pure a : D α) P := by
  intro b
  have hb : (pure a : D α) b = .ok b a := rfl
  refine ⟨by rw [hb]; simp, fun r a' he => ?_⟩
  rw [hb] at he
  cases he
  exact h

theorem yields_bind {α β : Type} {x : D α} {k : α → D β} {P : α → Prop} {Q : β → Prop} (hx : Yields x P) (hk : ∀ a, P a → Yields (k a) Q) :
    Yields (x >>= k) Q := by
  intro b
  have hb : (x >>= k) b = match x b with
    | .ok r a => k a r
    | .err e => .err e
    | .panic => .panic
    | .bad => .bad
    | .overflow => .overflow := rfl
  rw [hb]
  cases hx' : x b with
  | ok r' a => exact hk a ((hx b).2 r' a hx') r'
  | bad => exact absurd hx' (hx b).1
  | _ => exact ⟨by simp, fun r a h => by cases h⟩

theorem Yields.imp {α : Type} {x : D α} {P Q : α → Prop} (h : Yields x P) (hq : ∀ a, P a → Q a) : Yields x Q :=
  fun b => ⟨(h b).1, fun r a hb => hq a ((h b).2 r a hb)⟩

theorem Safe.yields {α : Type} {s : Bool} {x : D α} {O : Nat → Prop} {P : α → Prop} (h : Safe s x O P) : Yields x P := by
  intro b
  have := h b
  cases hb : x b with
  | ok r a =>
    rw [hb] at this
    refine ⟨by simp, fun r' a' he => ?_⟩
    cases he
    exact this.1
  | bad => rw [hb] at this; exact this.elim
  | _ => exact ⟨by simp, fun r a h => by cases h⟩

theorem yields_isNil {ver : Version} {rd : Codec} (hl : AnyLaw ver rd) : Yields (isNil rd) fun _ => True := (safe_isNil hl (O := fun _ => True)).yields

section
variable {ver : Version} {rd : Codec} (hl : AnyLaw ver rd) {S : Schema} {rec : Callees}

/-- The callees keep the types. -/
structure TypedCallees (S : Schema) (rec : Callees) : Prop where
  new : ∀ m, Yields (rec.new m) (OfFields S (S.fields m))
  decode : ∀ m x, OfFields S (S.fields m) x → Yields (rec.decode m x) (OfFields S (S.fields m))

theorem typed_decInto (h : TypedCallees S rec) (m : Nat) (c : Bool) (old : V) (ho : old.OfField S (.one .message m c)) :
    Yields (decInto rec m old) (V.OfField S (.one .message m c)) := by
  unfold decInto
  refine yields_bind (P := OfFields S (S.fields m)) ?_ fun fs hfs => yields_bind (h.decode m fs hfs) fun gs hgs => yields_pure (by simp [V.OfField, hgs])
  unfold current
  split
  · exact yields_pure (by simpa [V.OfField] using ho)
  · exact h.new m

include hl

theorem typed_elem (h : TypedCallees S rec) {k : PKind} {r : Nat} (hf : (Field.many k r).GoSupported) (old : V) (ho : k = .message → old.OfField S (.one k r false)) :
    Yields (if k = .message then decInto rec r old
      else match decodeLUT k, FindElem k r false with
        | some m, some t => if m = .Bytes then D.bad else do
            let s ← assign rd m [] t
            pure (.scalar s)
        | _, _ => D.bad) (V.OfField S (.one k r false)) := by
  by_cases hk : k = .message
  · subst hk
    rw [if_pos rfl]
    exact typed_decInto h r false old (ho rfl)
  · rw [if_neg hk]
    simp only [Field.GoSupported] at hf
    obtain ⟨m, _, hm, _⟩ := encodeLUT_scalar (k := k) ⟨hk, hf.1⟩
    obtain ⟨ty, h1, h2⟩ := safe_assign hl hf.2.1 hm r [] (.inr rfl) (fun _ => True) fun _ _ => trivial
    have hmb : m ≠ .Bytes := fun h => hf.2.2 (decodeLUT_bytes (h ▸ hm))
    rw [hm, h1]
    simp only []
    rw [if_neg hmb]
    exact yields_bind h2.yields fun s hs => yields_pure (by simpa [V.OfField] using hs.1)

theorem typed_decElems (h : TypedCallees S rec) {k : PKind} {r : Nat} (hf : (Field.many k r).GoSupported) :
    ∀ (olds : List V), (k = .message → ∀ v ∈ olds, v.OfField S (.one k r false)) →
    Yields (decElems rd rec k r olds) (fun vs => vs.length = olds.length ∧ ∀ v ∈ vs, v.OfField S (.one k r false)) := by
  intro olds
  induction olds with
  | nil => intro _; exact yields_pure ⟨rfl, by simp⟩
  | cons old olds ih =>
    intro ho
    rw [decElems]
    refine yields_bind (P := V.OfField S (.one k r false)) ?_ ?_
    · exact typed_elem hl h hf old fun hk => ho hk old (by simp)
    · intro v hv
      refine yields_bind (ih fun hk w hw => ho hk w (by simp [hw])) ?_
      rintro vs ⟨h1, h2⟩
      refine yields_pure ⟨by simp [h1], ?_⟩
      intro w hw
      rcases List.mem_cons.mp hw with rfl | hw
      · exact hv
      · exact h2 w hw

theorem typed_decSlice (h : TypedCallees S rec) {k : PKind} {r : Nat} (hf : (Field.many k r).GoSupported) (old : V) (ho : old.OfField S (.many k r)) :
    Yields (decSlice rd rec (.many k r) old) (V.OfField S (.many k r)) := by
  obtain ⟨kk, hkk⟩ := getKind_ok hf.1
  unfold decSlice
  simp only [Field.Kind, hkk]
  refine yields_bind (safe_read hl (q := .slice kk) (O := fun _ => True) (.inr (by simp)) (by simp)).yields ?_
  rintro i ⟨h1, _⟩
  cases h1 with
  | slice size =>
  simp only []
  refine yields_bind (typed_decElems hl h hf _ ?_) ?_
  · intro hkm v hv
    subst hkm
    split at hv
    · simp only [List.mem_replicate] at hv
      rw [hv.2]
      simp [FindElem, typeLUT, zero, V.OfField]
    · cases old with
      | slice vs => exact (ofElems_iff ..).mp ho.2 v hv
      | _ => simp [elems] at hv
  · rintro vs ⟨h1, h2⟩
    refine yields_pure ?_
    simp only [V.OfField]
    refine ⟨?_, (ofElems_iff ..).mpr h2⟩
    rw [h1]
    split
    · simp; exact size.isLt
    · cases old with
      | slice vs => simp only [V.OfField] at ho; exact ho.1
      | _ => simp [elems]

theorem typed_decMapValue (h : TypedCallees S rec) {k : PKind} {r : Nat} (hg : k ≠ .group) (hb : k ≠ .bytes) :
    Yields (decMapValue rd rec k r) (V.OfField S (.one k r false)) := by
  unfold decMapValue
  by_cases hk : k = .message
  · subst hk
    simp only [decodeLUT, if_true]
    exact typed_decInto h r false .nil (by simp [V.OfField])
  · obtain ⟨m, _, hm, _⟩ := encodeLUT_scalar (k := k) ⟨hk, hg⟩
    by_cases he : k = .enum
    · subst he
      exact yields_bind (safe_assignEnum hl (fun _ => True) fun _ _ => trivial).yields fun s hs => yields_pure (by simpa [V.OfField] using hs.1)
    · obtain ⟨ty, h1, h2⟩ := safe_assign hl he hm r [] (.inr rfl) (fun _ => True) fun _ _ => trivial
      have hmb : m ≠ .Bytes := fun h => hb (decodeLUT_bytes (h ▸ hm))
      simp only [hm, h1, he, hmb, if_false]
      exact yields_bind h2.yields fun s hs => yields_pure (by simpa [V.OfField] using hs.1)

omit hl in
theorem put_typed {kk k : PKind} {r : Nat} {key : Scalar} {v : V} (hk : key.OfKind kk) (hv : v.OfField S (.one k r false)) :
    ∀ (ks : List Scalar) (vs : List V) (n : Nat),
      (ks.length = vs.length ∧ vs.length ≤ n ∧ ks.Nodup ∧ (∀ s ∈ ks, s.OfKind kk) ∧ ∀ v ∈ vs, v.OfField S (.one k r false)) →
      ((put key v ks vs).1.length = (put key v ks vs).2.length ∧ (put key v ks vs).2.length ≤ n + 1 ∧ (put key v ks vs).1.Nodup ∧
        (∀ s ∈ (put key v ks vs).1, s.OfKind kk) ∧ ∀ w ∈ (put key v ks vs).2, w.OfField S (.one k r false)) ∧
      ∀ s ∈ (put key v ks vs).1, s = key ∨ s ∈ ks := by
  intro ks
  induction ks with
  | nil =>
    rintro vs n ⟨h1, -, -, -, -⟩
    cases vs with
    | cons => simp at h1
    | nil => exact ⟨⟨rfl, by simp [put], by simp [put], by simpa [put] using hk, by simpa [put] using hv⟩, by simp [put]⟩
  | cons k' ks ih =>
    rintro vs n ⟨h1, h2, h3, h4, h5⟩
    cases vs with
    | nil => simp at h1
    | cons v' vs =>
      rw [put]
      split
      · rename_i he
        subst he
        refine ⟨⟨by simpa using h1, by simp at h2 ⊢; omega, h3, h4, ?_⟩, by intro s hs; exact .inr hs⟩
        intro w hw
        rcases List.mem_cons.mp hw with rfl | hw
        · exact hv
        · exact h5 w (by simp [hw])
      · rename_i he
        rw [List.nodup_cons] at h3
        obtain ⟨⟨a, b, c, d, e⟩, f⟩ := ih vs (n - 1) ⟨by simpa using h1, by simp at h2; omega, h3.2, fun s hs => h4 s (by simp [hs]),
          fun w hw => h5 w (by simp [hw])⟩
        refine ⟨⟨by simp [a], by simp at h2 ⊢; omega, ?_, ?_, ?_⟩, ?_⟩
        · simp only [List.nodup_cons]
          refine ⟨?_, c⟩
          intro hm
          rcases f _ hm with h | h
          · exact he h.symm
          · exact h3.1 h
        · intro s hs
          rcases List.mem_cons.mp hs with rfl | hs
          · exact h4 _ (by simp)
          · exact d s hs
        · intro w hw
          rcases List.mem_cons.mp hw with rfl | hw
          · exact h5 _ (by simp)
          · exact e w hw
        · intro s hs
          rcases List.mem_cons.mp hs with rfl | hs
          · exact .inr (by simp)
          · rcases f s hs with h | h
            · exact .inl h
            · exact .inr (by simp [h])

theorem typed_decEntries (h : TypedCallees S rec) {kk k : PKind} {r : Nat} (hf : (Field.map kk k r).GoSupported) :
    ∀ (n : Nat) (ks : List Scalar) (vs : List V) (N : Nat),
      (ks.length = vs.length ∧ vs.length ≤ N ∧ ks.Nodup ∧ (∀ s ∈ ks, s.OfKind kk) ∧ ∀ v ∈ vs, v.OfField S (.one k r false)) →
    Yields (decEntries rd rec kk k r n ks vs) (fun e => e.1.length = e.2.length ∧ e.2.length ≤ N + n ∧ e.1.Nodup ∧ (∀ s ∈ e.1, s.OfKind kk) ∧
      ∀ v ∈ e.2, v.OfField S (.one k r false)) := by
  intro n
  simp only [Field.GoSupported] at hf
  induction n with
  | zero => intro ks vs N he; exact yields_pure he
  | succ n ih =>
    intro ks vs N he
    rw [decEntries]
    refine yields_bind (safe_decKey hl ⟨hf.2.1, hf.1⟩ hf.2.2.1 (fun _ => True) fun _ _ => trivial).yields ?_
    intro key hkey
    refine yields_bind (typed_decMapValue hl h hf.2.2.2.1 hf.2.2.2.2) ?_
    intro v hv
    rw [show N + (n + 1) = (N + 1) + n by omega]
    exact ih _ _ (N + 1) (put_typed hkey.1 hv ks vs N he).1

theorem typed_decMessage (h : TypedCallees S rec) {f : Field} (hf : f.GoSupported) (hm : isMsg f = true) (old : V) (ho : old.OfField S f) :
    Yields (decMessage ver rd rec f old) (V.OfField S f) := by
  cases f with
  | many => simp [isMsg] at hm
  | one k m c =>
    have hk : k = .message := by simpa [isMsg] using hm
    subst hk
    unfold decMessage
    simp only
    cases ver.skipNil
    · simp only [Bool.false_eq_true, if_false]
      exact typed_decInto h m c old ho
    · simp only [if_true]
      refine yields_bind (yields_isNil hl) ?_
      intro a _
      cases a
      · simp only [Bool.false_eq_true, if_false]
        exact typed_decInto h m c .nil (by simp [V.OfField])
      · simp only [if_true]
        exact yields_pure ho
  | map kk k r =>
    have hs := hf
    simp only [Field.GoSupported] at hs
    obtain ⟨keyKind, q1⟩ := getKind_ok hs.1
    obtain ⟨valKind, q2⟩ := getKind_ok hs.2.2.2.1
    unfold decMessage
    simp only [q1, q2]
    refine yields_bind (yields_isNil hl) ?_
    intro a _
    cases a
    · simp only [Bool.false_eq_true, if_false]
      refine yields_bind (safe_read hl (q := .map keyKind valKind) (O := fun _ => True) (.inr (by simp)) (by simp)).yields ?_
      rintro i ⟨h1, _⟩
      cases h1 with
      | map size =>
      simp only []
      refine yields_bind (typed_decEntries hl h hf size.toNat [] [] 0 ⟨rfl, by simp, by simp, by simp, by simp⟩) ?_
      intro e he
      refine yields_pure ?_
      simp only [V.OfField]
      have := size.isLt
      exact ⟨he.1, by omega, he.2.2.1, he.2.2.2.1, (ofElems_iff ..).mpr he.2.2.2.2⟩
    · simp only [if_true]
      exact yields_pure ho

omit hl in
theorem ofFields_set {fs : List Field} {vs : List V} (h : OfFields S fs vs) {i : Nat} {f : Field} (hf : fs[i]? = some f) {v : V} (hv : v.OfField S f) :
    OfFields S fs (vs.set i v) := by
  induction fs generalizing vs i with
  | nil => simp at hf
  | cons g fs ih =>
    cases vs with
    | nil => simp [OfFields] at h
    | cons w vs =>
      cases i with
      | zero => simp at hf; subst hf; exact ⟨hv, h.2⟩
      | succ i => exact ⟨h.1, ih h.2 (by simpa using hf)⟩

omit hl in
theorem typed_forFields {stmt : Field → V → D V} {fields : List Field} :
    ∀ (is : List Nat) (x : List V), (∀ i ∈ is, ∃ f, fields[i]? = some f ∧ ∀ old, old.OfField S f → Yields (stmt f old) (V.OfField S f)) →
      OfFields S fields x → Yields (forFields stmt fields is x) (OfFields S fields) := by
  intro is
  induction is with
  | nil => intro x _ hx; exact yields_pure hx
  | cons i is ih =>
    intro x h hx
    obtain ⟨f, hf, hs⟩ := h i (by simp)
    obtain ⟨old, ho, hot⟩ := ofFields_get S _ _ _ _ hx hf
    rw [forFields, hf, ho]
    simp only []
    refine yields_bind (hs old hot) ?_
    intro v hv
    exact ih _ (fun j hj => h j (by simp [hj])) (ofFields_set hx hf hv)

theorem typed_value (S : Schema) {f : Field} (hs : f.GoSupported) (hp : isValue f = true) (old : V) :
    Yields (decValue rd ver.bytesScratch f old) (V.OfField S f) := by
  cases f with
  | one k r c =>
    have hk : k ≠ .message := by simpa [isValue] using hp
    exact (safe_decValue (W := True) hl S ⟨hk, hs⟩ r c old (fun _ => True) fun _ _ => trivial).yields.imp fun _ h => h.1
  | many => simp [isValue] at hp
  | map => simp [isValue] at hp

theorem typed_slice (h : TypedCallees S rec) {f : Field} (hs : f.GoSupported) (hp : isSlice f = true) (old : V) (ho : old.OfField S f) :
    Yields (decSlice rd rec f old) (V.OfField S f) := by
  cases f with
  | one => simp [isSlice] at hp
  | many k r => exact typed_decSlice hl h hs old ho
  | map => simp [isSlice] at hp

theorem typed_decode (hS : S.GoSupported) : ∀ (fuel m : Nat) (x : List V), OfFields S (S.fields m) x → Yields (decode ver rd S fuel m x) (OfFields S (S.fields m)) := by
  intro fuel
  induction fuel with
  | zero => intro m x _ b; rw [decode]; exact ⟨by simp [D.overflow], fun r a h => by cases h⟩
  | succ fuel ih =>
    intro m x hx
    rw [decode]
    refine yields_bind (yields_isNil hl) ?_
    intro a _
    cases a
    · simp only [Bool.false_eq_true, if_false]
      rw [GetDecodingFields, decLoop_eq _ 0 (fields_supported hS m)]
      simp only [errUsed_ok hS m, if_true]
      have hrec : TypedCallees S ⟨callNew ver S fuel, decode ver rd S fuel⟩ :=
        ⟨fun m' => (safe_callNew (W := True) (O := fun _ => True) hS fuel m' (by simp)).yields.imp fun _ h => (oks_iff.mp h).1, ih⟩
      have hsup := fields_supported hS m
      unfold decBody
      refine yields_bind (typed_forFields _ x ?_ hx) fun y hy => yields_bind (typed_forFields _ y ?_ hy) fun z hz => typed_forFields _ z ?_ hz
      · intro i hi
        obtain ⟨f, hf, hp⟩ := idx_of hi
        exact ⟨f, hf, fun old _ => typed_value hl S (hsup f (List.mem_of_getElem? hf)) hp old⟩
      · intro i hi
        obtain ⟨f, hf, hp⟩ := idx_of hi
        exact ⟨f, hf, fun old ho => typed_slice hl hrec (hsup f (List.mem_of_getElem? hf)) hp old ho⟩
      · intro i hi
        obtain ⟨f, hf, hp⟩ := idx_of hi
        exact ⟨f, hf, fun old ho => typed_decMessage hl hrec (hsup f (List.mem_of_getElem? hf)) hp old ho⟩
    · simp only [if_true]
      exact yields_pure hx

end

end GoGen
