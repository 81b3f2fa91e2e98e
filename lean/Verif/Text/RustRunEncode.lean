import Verif.Text.RustRunDecodeMsg

/-!
# Running generated Rust code: `encode`
-/

namespace RustRun

open Utils RustAst RustText
open Text hiding Tok
open Gen (PKind Scalar V Field Schema OfFields OfElems depths)
open GoText (FieldD FileD)
open Rust (Cursor Std)
open GoGen (idx isValue isSlice isMsg itemOf)

section
variable {P : List Item} {std : Std} {trait : Ident → Ident → List RV → M RV} {local_ : Sig → Stmt → List RV → M RV} {L : Locals} {α β γ : Type}

/-! ## Code that writes -/

/-- The code writes the items, and has a value. -/
def Wr (m : M α) (L : Locals) (items : List Spec.Item) (a : α) : Prop :=
  ∀ c c', Rust.encodeItems items c = (.ok (), c') → m ⟨c, L⟩ = (.ok a, ⟨c', L⟩)

theorem items_cons {i : Spec.Item} {is : List Spec.Item} {c c' : Cursor} : Rust.encodeItems (i :: is) c = (.ok (), c') ↔
    ∃ c1, Rust.encodeItem i c = (.ok (), c1) ∧ Rust.encodeItems is c1 = (.ok (), c') := by
  rw [Rust.encodeItems]
  show Rust.Rs.bind (Rust.encodeItem i) (fun _ => Rust.encodeItems is) c = _ ↔ _
  rw [Rust.Rs.bind]
  rcases Rust.encodeItem i c with ⟨r, c1⟩
  cases r with
  | ok a => simp
  | err => simp
  | panic => simp

theorem items_append {is js : List Spec.Item} {c c' : Cursor} : Rust.encodeItems (is ++ js) c = (.ok (), c') ↔
    ∃ c1, Rust.encodeItems is c = (.ok (), c1) ∧ Rust.encodeItems js c1 = (.ok (), c') := by
  induction is generalizing c with
  | nil =>
    constructor
    · intro h; exact ⟨c, rfl, h⟩
    · rintro ⟨c1, h1, h2⟩; cases h1; exact h2
  | cons i is ih =>
    rw [List.cons_append, items_cons]
    constructor
    · rintro ⟨c1, h1, h2⟩
      obtain ⟨c2, h3, h4⟩ := ih.1 h2
      exact ⟨c2, items_cons.2 ⟨c1, h1, h3⟩, h4⟩
    · rintro ⟨c2, h1, h2⟩
      obtain ⟨c1, h3, h4⟩ := items_cons.1 h1
      exact ⟨c1, h3, ih.2 ⟨c2, h4, h2⟩⟩

theorem Wr.bind {m : M α} {k : α → M β} {is js : List Spec.Item} {a : α} {b : β} (h : Wr m L is a) (hk : Wr (k a) L js b) : Wr (m >>= k) L (is ++ js) b := by
  intro c c' hc
  obtain ⟨c1, h1, h2⟩ := items_append.1 hc
  rw [bind_ok (h c c1 h1)]
  exact hk c1 c' h2

theorem Wr.map {m : M α} {k : α → M β} {is : List Spec.Item} {a : α} {b : β} (h : Wr m L is a) (hk : Val (k a) L b) : Wr (m >>= k) L is b := by
  intro c c' hc
  rw [bind_ok (h c c' hc)]
  exact hk c'

theorem Val.wr {m : M α} {k : α → M β} {is : List Spec.Item} {a : α} {b : β} (h : Val m L a) (hk : Wr (k a) L is b) : Wr (m >>= k) L is b := by
  intro c c' hc
  rw [bind_ok (h c)]
  exact hk c c' hc

theorem Val.wr0 {m : M α} {a : α} (h : Val m L a) : Wr m L [] a := by
  intro c c' hc
  cases hc
  exact h c

theorem Wr.tr {e : Expr} {is : List Spec.Item} {v : RV} (h : Wr (eval P std trait local_ e) L is (.ok v)) : Wr (eval P std trait local_ (.tr e)) L is v := by
  rw [eval]
  exact h.map (Val.pure _ _)

theorem wr_item {x : Rust.Enc} {i : Spec.Item} (h : Rust.encodeItem i = x) : Wr (liftEnc x) L [i] (.ok .cursor) := by
  intro c c' hc
  obtain ⟨c1, h1, h2⟩ := items_cons.1 hc
  cases h2
  rw [h] at h1
  simp only [liftEnc, h1]

/-- A call of a method of the cursor, in a chain of such calls. -/
theorem wr_method (hP : Ready P) {e : Expr} {n : Ident} {args : Expr} {vs : List RV} {is js : List Spec.Item} (he : Wr (eval P std trait local_ e) L is .cursor)
    (hn : changing n = false) (ha : Val (evalArgs P std trait local_ args) L vs) (h : Wr (cursorMethod std n vs) L js (.ok .cursor)) :
    Wr (eval P std trait local_ (.method e n args)) L (is ++ js) (.ok .cursor) := by
  rw [eval_method hn]
  refine he.bind (ha.wr ?_)
  unfold method
  simp only [peel]
  rw [if_pos ⟨hP.enc, hP.dec⟩]
  exact h

/-! ## Values -/

/-- What is passed for a value. -/
def Passes (k : PKind) (s : Scalar) (arg : RV) : Prop :=
  if k = .string ∨ k = .bytes then ∃ v, arg = .ref v ∧ peel v = .scalar s
  else if k = .enum then ∃ w, s = .enum w ∧ arg = .scalar (.uint32 w)
  else arg = .scalar s

theorem encoder_plain (k : PKind) : changing (encoder k) = false := by cases k <;> rfl

theorem wr_scalar {k : PKind} {s : Scalar} {arg : RV} (hs : s.OfKind k) (h : Passes k s arg) : Wr (cursorMethod std (encoder k) [arg]) L [itemOf s] (.ok .cursor) := by
  have key : ∀ x, Rust.encodeItem (itemOf s) = x → cursorMethod std (encoder k) [arg] = liftEnc x → Wr (cursorMethod std (encoder k) [arg]) L [itemOf s] (.ok .cursor) := by
    intro x h1 h2
    rw [h2]
    exact wr_item h1
  by_cases hb : k = .string ∨ k = .bytes
  · rw [Passes, if_pos hb] at h
    obtain ⟨v, rfl, hv⟩ := h
    rcases hb with rfl | rfl
    · cases s <;> first | exact absurd hs id | skip
      refine key _ rfl ?_
      simp only [cursorMethod, encode1, hv]
      rfl
    · cases s <;> first | exact absurd hs id | skip
      refine key _ rfl ?_
      simp only [cursorMethod, encode1, hv]
      rfl
  · rw [Passes, if_neg hb] at h
    by_cases he : k = .enum
    · rw [if_pos he] at h
      obtain ⟨w, rfl, rfl⟩ := h
      subst he
      exact key _ rfl rfl
    · rw [if_neg he] at h
      subst h
      cases k <;> cases s <;> first | exact absurd hs id | exact absurd rfl he | exact absurd (.inl rfl) hb | exact absurd (.inr rfl) hb | exact key _ rfl rfl

theorem callEnc_item {k : PKind} {s : Scalar} {m : RustGen.Method} {i : Spec.Item} (hm : RustGen.encodeLUT k = some m) (hs : s.OfKind k) (h : RustGen.callEnc m s = some i) :
    i = itemOf s := by
  cases k <;> cases s <;> first | exact absurd hs id | (cases hm; cases h; rfl)

theorem emitScalar_item {k : PKind} {s : Scalar} {m : RustGen.Method} {fm : RustGen.Form} {t : RustGen.Ty} {is : List Spec.Item} (hm : RustGen.encodeLUT k = some m)
    (hs : s.OfKind k) (h : RustGen.emitScalar m fm t s = some is) : is = [itemOf s] := by
  rw [RustGen.emitScalar] at h
  split at h
  · cases hc : RustGen.callEnc m s with
    | none => rw [hc] at h; cases h
    | some i =>
      rw [hc] at h
      cases h
      rw [callEnc_item hm hs hc]
  · cases h

/-! ## Fields of the message -/

/-- The variables of `encode`. -/
structure Own (L : Locals) (x : RV) : Prop where
  self : L.lookup go!"self" = some (false, .ref x)
  b : L.lookup go!"b" = some (false, .cursor)

theorem Own.cons {x : RV} (h : Own L x) {n : Ident} (h1 : n ≠ go!"self") (h2 : n ≠ go!"b") (m : Bool) (v : RV) : Own ((n, m, v) :: L) x :=
  ⟨by rw [lookup_cons_ne (Ne.symm h1)]; exact h.self, by rw [lookup_cons_ne (Ne.symm h2)]; exact h.b⟩

variable {f : FileD}

theorem rvs_get (S : Schema) (name : Nat → Ident) : ∀ (fs : List Field) (vs : List V) (i : Nat) (fd : Field) (v : V), fs[i]? = some fd → vs[i]? = some v →
    (rvs S name fs vs)[i]? = some (rv S name fd v) := by
  intro fs
  induction fs with
  | nil => intro vs i fd v h; simp at h
  | cons f fs ih =>
    intro vs i fd v h1 h2
    cases vs with
    | nil => simp at h2
    | cons w vs =>
      rw [rvs]
      cases i with
      | zero => simp at h1 h2; subst h1 h2; rfl
      | succ i => simpa using ih vs i fd v (by simpa using h1) (by simpa using h2)

theorem idxOf_nodup {l : List Ident} (h : l.Nodup) {i : Nat} {n : Ident} (hi : l[i]? = some n) : l.idxOf n = i := by
  obtain ⟨hlt, rfl⟩ := List.getElem?_eq_some_iff.1 hi
  exact h.idxOf_getElem i hlt

/-- The struct of a message. -/
def structOf (f : FileD) (t : Bytes × List FieldD) (vs : List V) : RV := .struct (camel t.1) (rvs f.schema (structName f) (t.2.map (FieldD.toField f)) vs)

/-- `self.f` -/
theorem eval_sf (hP : Ctx P f) {t : Bytes × List FieldD} (ht : t ∈ f.types) {vs : List V} (hL : Own L (structOf f t vs)) {i : Nat} {g : FieldD} {v : V} (hg : t.2[i]? = some g)
    (hv : vs[i]? = some v) : Val (eval P std trait local_ (sf (snake g.name))) L (rv f.schema (structName f) (g.toField f) v) := by
  rw [sf, eval]
  refine (eval_var hL.self rfl).bind (Val.need ?_ _)
  have hi : (t.2.map fun g => snake g.name)[i]? = some (snake g.name) := by simp [hg]
  rw [structOf, fieldOf]
  simp only [peel]
  simp only [hP.struct t ht, bind, Option.bind]
  rw [if_pos (List.mem_of_getElem? hi), idxOf_nodup (hP.nodup t ht) hi]
  exact rvs_get _ _ _ _ _ _ _ (by simp [hg]) hv

/-- The argument for a singular field. -/
theorem eval_encArg {n : Ident} {k : PKind} {s : Scalar} (hs : s.OfKind k) (h : Val (eval P std trait local_ (sf n)) L (.scalar s)) :
    ∃ arg, Val (eval P std trait local_ (encArg n k)) L arg ∧ Passes k s arg := by
  have href : Val (eval P std trait local_ (.ref (sf n))) L (.ref (.scalar s)) := by
    rw [eval]
    exact h.bind (Val.pure _ _)
  by_cases hb : k = .string ∨ k = .bytes
  · refine ⟨.ref (.scalar s), ?_, by rw [Passes, if_pos hb]; exact ⟨_, rfl, rfl⟩⟩
    rcases hb with rfl | rfl <;> exact href
  · by_cases he : k = .enum
    · subst he
      cases s <;> first | exact absurd hs id | skip
      refine ⟨.scalar (.uint32 _), ?_, by rw [Passes, if_neg hb, if_pos rfl]; exact ⟨_, rfl, rfl⟩⟩
      rw [encArg, eval]
      exact h.bind (Val.pure _ _)
    · refine ⟨.scalar s, ?_, by rw [Passes, if_neg hb, if_neg he]⟩
      have : encArg n k = sf n := by
        cases k <;> first | rfl | exact absurd rfl he | exact absurd (.inl rfl) hb | exact absurd (.inr rfl) hb
      rw [this]
      exact h

/-! ## The chain of values -/

theorem parts_get {S : Schema} : ∀ {fs : List Field} {vs : List V} {ps : List RustGen.Part}, RustGen.parts S fs vs = some ps → ∀ (i : Nat) (fd : Field) (v : V),
    fs[i]? = some fd → vs[i]? = some v → ∃ p, ps[i]? = some p ∧ RustGen.part S fd v = some p := by
  intro fs
  induction fs with
  | nil => intro vs ps _ i fd v h; simp at h
  | cons f fs ih =>
    intro vs ps h i fd v h1 h2
    cases vs with
    | nil => simp at h2
    | cons w vs =>
      rw [RustGen.parts] at h
      cases hp : RustGen.part S f w with
      | none => rw [hp] at h; cases h
      | some p =>
        cases hq : RustGen.parts S fs vs with
        | none => rw [hp, hq] at h; cases h
        | some qs =>
          rw [hp, hq] at h
          cases h
          cases i with
          | zero => simp at h1 h2; subst h1 h2; exact ⟨p, rfl, hp⟩
          | succ i => simpa using ih hq i fd v (by simpa using h1) (by simpa using h2)

theorem calls_eq : ∀ (pre fs : List Field), RustGen.calls pre.length fs = (idx isValue pre.length fs).filterMap fun j => (pre ++ fs)[j]?.map fun fd => RustGen.callOf fd j := by
  intro pre fs
  induction fs generalizing pre with
  | nil => rfl
  | cons g fs ih =>
    have := ih (pre ++ [g])
    simp only [List.append_assoc, List.singleton_append, List.length_append, List.length_singleton] at this
    rw [RustGen.calls, idx]
    by_cases hg : isValue g = true
    · rw [if_pos hg, if_pos hg, this]
      simp
    · rw [if_neg hg, if_neg hg, this]

theorem concatM_cons {α : Type} {fn : α → Option (List Spec.Item)} {a : α} {as : List α} {is : List Spec.Item} (h : RustGen.concatM fn (a :: as) = some is) :
    ∃ x xs, fn a = some x ∧ RustGen.concatM fn as = some xs ∧ is = x ++ xs := by
  rw [RustGen.concatM] at h
  cases hx : fn a with
  | none => rw [hx] at h; cases h
  | some x =>
    cases hs : RustGen.concatM fn as with
    | none => rw [hx, hs] at h; cases h
    | some xs => rw [hx, hs] at h; cases h; exact ⟨x, xs, rfl, rfl, rfl⟩

theorem ofFields_get {S : Schema} : ∀ {fs : List Field} {vs : List V}, OfFields S fs vs → vs.length = fs.length ∧ ∀ (i : Nat) (fd : Field) (v : V), fs[i]? = some fd → vs[i]? = some v →
    v.OfField S fd := by
  intro fs
  induction fs with
  | nil => intro vs h; cases vs with
    | nil => exact ⟨rfl, by simp⟩
    | cons => exact absurd h (by simp [OfFields])
  | cons f fs ih =>
    intro vs h
    cases vs with
    | nil => exact absurd h (by simp [OfFields])
    | cons v vs =>
      rw [OfFields] at h
      obtain ⟨h1, h2⟩ := ih h.2
      refine ⟨by simp [h1], ?_⟩
      intro i fd w hf hw
      cases i with
      | zero => simp at hf hw; subst hf hw; exact h.1
      | succ i => exact h2 i fd w (by simpa using hf) (by simpa using hw)

/-- The message that is written. -/
structure Writing (P : List Item) (f : FileD) (t : Bytes × List FieldD) (vs : List V) (ps : List RustGen.Part) : Prop where
  ctx : Ctx P f
  mem : t ∈ f.types
  typed : OfFields f.schema (t.2.map (FieldD.toField f)) vs
  parts : RustGen.parts f.schema (t.2.map (FieldD.toField f)) vs = some ps

variable {t : Bytes × List FieldD} {vs : List V} {ps : List RustGen.Part}

/-- A field, its value and its part. -/
theorem Writing.get (h : Writing P f t vs ps) {i : Nat} (hi : i < t.2.length) : ∃ g v p, t.2[i]? = some g ∧ g ∈ t.2 ∧ vs[i]? = some v ∧ v ∈ vs ∧ v.OfField f.schema (g.toField f) ∧
    ps[i]? = some p ∧ RustGen.part f.schema (g.toField f) v = some p ∧ (g.toField f).RustSupported := by
  obtain ⟨h1, h2⟩ := ofFields_get h.typed
  simp at h1
  have hg := List.getElem?_eq_getElem hi
  have hv := List.getElem?_eq_getElem (show i < vs.length by omega)
  have hf : (t.2.map (FieldD.toField f))[i]? = some (t.2[i].toField f) := by simp [hg]
  obtain ⟨p, h3, h4⟩ := parts_get h.parts i _ _ hf hv
  exact ⟨_, _, p, hg, List.getElem_mem hi, hv, List.getElem_mem _, h2 i _ _ hf hv, h3, h4, h.ctx.supported t h.mem _ (List.getElem_mem hi)⟩

theorem wr_chain (h : Writing P f t vs ps) (hL : Own L (structOf f t vs)) : ∀ (is : List Nat), (∀ i ∈ is, i < t.2.length ∧ ∀ g, t.2[i]? = some g → g.isValue = true) →
    ∀ (e : Expr) (js xs : List Spec.Item), Wr (eval P std trait local_ e) L js .cursor →
    RustGen.concatM (RustGen.emitValue ps) (is.filterMap fun j => (t.2.map (FieldD.toField f))[j]?.map fun fd => RustGen.callOf fd j) = some xs →
    Wr (eval P std trait local_ ((pick t.2 is).foldl (fun e g => encValue (snake g.name) g.kind e) e)) L (js ++ xs) .cursor := by
  intro is
  induction is with
  | nil =>
    intro _ e js xs he hc
    cases hc
    simpa [pick] using he
  | cons i is ih =>
    intro hi e js xs he hc
    obtain ⟨hlt, hval⟩ := hi i (by simp)
    obtain ⟨g, v, p, hg, hgm, hv, _, hty, hp, hpart, hsup⟩ := h.get hlt
    have hpk : pick t.2 (i :: is) = g :: pick t.2 is := by simp [pick, hg]
    have hfd : (t.2.map (FieldD.toField f))[i]? = some (g.toField f) := by simp [hg]
    rw [List.filterMap_cons, hfd] at hc
    obtain ⟨x, ys, h1, h2, rfl⟩ := concatM_cons hc
    have hgv := hval g hg
    rw [FieldD.isValue] at hgv
    cases hs : g.shape with
    | many => rw [hs] at hgv; cases hgv
    | map => rw [hs] at hgv; cases hgv
    | one c =>
      rw [hs] at hgv
      simp at hgv
      have hfl : g.toField f = .one g.kind (f.ref g.kind g.type) c := by rw [FieldD.toField, hs]
      rw [hfl] at hty hpart h1 hsup
      simp only [Field.RustSupported] at hsup
      cases v with
      | scalar s =>
        simp only [V.OfField] at hty
        have hrv : Val (eval P std trait local_ (sf (snake g.name))) L (.scalar s) := by
          have := eval_sf (P := P) (std := std) (trait := trait) (local_ := local_) h.ctx h.mem hL hg hv
          rw [hfl] at this
          simpa only [rv] using this
        obtain ⟨arg, ha, hpass⟩ := eval_encArg hty hrv
        rw [RustGen.part] at hpart
        cases hfe : RustGen.findElem g.kind (f.ref g.kind g.type) false with
        | none => rw [hfe] at hpart; cases hpart
        | some ty =>
          rw [hfe] at hpart
          cases hpart
          rw [RustGen.emitValue] at h1
          simp only [RustGen.callOf, hp, Field.Kind] at h1
          have hm : ∃ m, RustGen.encodeLUT g.kind = some m := by
            revert hsup hgv
            cases g.kind <;> intro h1 h2 <;> first | exact absurd rfl h1 | exact absurd rfl h2 | exact ⟨_, rfl⟩
          obtain ⟨m, hm⟩ := hm
          rw [hm] at h1
          have hx := emitScalar_item hm hty h1
          subst hx
          rw [hpk, List.foldl_cons, ← List.append_assoc]
          refine ih (fun j hj => hi j (by simp [hj])) _ _ _ ?_ h2
          exact (wr_method h.ctx.ready he (encoder_plain _) (args_one ha) (wr_scalar hty hpass)).tr
      | nil => exact absurd hty (by simpa [V.OfField] using hgv)
      | msg ws => exact absurd hty.1 hgv
      | slice => exact absurd hty (by simp [V.OfField])
      | map => exact absurd hty (by simp [V.OfField])
      | nilMap => exact absurd hty (by simp [V.OfField])

end

end RustRun
