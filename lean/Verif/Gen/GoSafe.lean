import Verif.Gen.GoDone
import Verif.Gen.RustValues

/-! # Generated Go code on arbitrary input -/

namespace GoGen

open Gen Spec
open GoV2 (Req Outcome Err Matches)

/-- What is known of decoder calls on arbitrary input: they return what was asked for, with lengths below 2^32, and leave
the rest of the input; all but `Bytes` read something; only `Nil` answers "not nil", and it never fails; calls panic only
on inputs whose last byte has the continuation bit. -/
structure AnyLaw (ver : Version) (rd : Codec) : Prop where
  value : ∀ {q : Req} {b r : Bytes} {i : Item}, (ver.bytesScratch = true ∨ ∀ s, q = .bytes s → s = []) →
    rd q b = .ok (r, .value i) → Matches q i ∧ i.Fits ∧ r <:+ b ∧ ((∀ s, q ≠ .bytes s) → r.length < b.length)
  notNil : ∀ {q : Req} {b r : Bytes}, rd q b = .ok (r, .notNil) → q = .nil ∧ r = b
  nilErr : ∀ {b r : Bytes} {e : Err}, rd .nil b ≠ .ok (r, .error e)
  panic : ∀ {q : Req} {b : Bytes}, rd q b = .panic → ∃ c, b.getLast? = some c ∧ 128 ≤ c.toNat

theorem accepts_fits {p : Bytes} {i : Item} (h : Accepts p i) : i.Fits := by
  cases h <;> first | trivial | (rename_i h; simp only [Item.Fits]; rw [h]; exact Nat.mod_lt _ (by decide))

theorem cut_last {hd cs : Bytes} {n : Nat} (h : Cut n cs) : ∃ c, (hd ++ cs).getLast? = some c ∧ 128 ≤ c.toNat := by
  obtain ⟨h1, _, h3⟩ := h
  refine ⟨cs.getLast h1, ?_, h3 _ (List.getLast_mem h1)⟩
  rw [List.getLast?_append, List.getLast?_eq_some_getLast h1]; rfl

theorem any_v2 : AnyLaw v2 GoV2.readItem where
  value := by
    intro q b r i _ h
    rcases (GoV2.readItem_value_iff q b r i).mp h with ⟨hm, p, ha, rfl⟩ | ⟨ret, cs, rfl, rfl, _, _, rfl⟩
    · have := ha.pos
      exact ⟨hm, accepts_fits ha, ⟨p, rfl⟩, fun _ => by simp; omega⟩
    · exact ⟨.bytes _ _, by simp [Item.Fits], ⟨[], rfl⟩, fun h => absurd rfl (h ret)⟩
  notNil := by
    intro q b r h
    obtain ⟨h1, h2⟩ := GoV2.readItem_fail h (by simp)
    cases q <;> simp [GoV2.Req.invalid] at h1
    exact ⟨rfl, h2⟩
  nilErr := by
    intro b r e h
    have := (GoV2.readItem_fail h (by simp)).1
    simp [GoV2.Req.invalid] at this
  panic := by
    intro q b h
    obtain ⟨hd, n, cs, _, rfl, h3⟩ := (GoV2.readItem_panic_iff q b).mp h
    exact cut_last h3

/-- The v1 call behind a call of generated v1 code. -/
theorem v1_call (q : Req) : ∃ q1, GoV1.SameCall q1 q ∧ v1Codec q = GoV1.readItem q1 ∧
    ((∀ s, q = .bytes s → s = []) → ∀ i, GoV1.returned q1 i = i) := by
  cases q with
  | bytes s =>
    refine ⟨_, .bytes _ s, rfl, ?_⟩
    intro hs i
    obtain rfl := hs _ rfl
    cases i with
    | bytes v => cases v <;> simp [GoV1.returned, GoV1.bytesResult]
    | _ => rfl
  | nil => exact ⟨_, .nil, rfl, fun _ _ => rfl⟩
  | map => exact ⟨_, .map _ _ _ _, rfl, fun _ _ => rfl⟩
  | slice => exact ⟨_, .slice _ _, rfl, fun _ _ => rfl⟩
  | string => exact ⟨_, .string, rfl, fun _ _ => rfl⟩
  | error => exact ⟨_, .error, rfl, fun _ _ => rfl⟩
  | bool => exact ⟨_, .bool, rfl, fun _ _ => rfl⟩
  | uint8 => exact ⟨_, .uint8, rfl, fun _ _ => rfl⟩
  | uint16 => exact ⟨_, .uint16, rfl, fun _ _ => rfl⟩
  | uint32 => exact ⟨_, .uint32, rfl, fun _ _ => rfl⟩
  | uint64 => exact ⟨_, .uint64, rfl, fun _ _ => rfl⟩
  | int32 => exact ⟨_, .int32, rfl, fun _ _ => rfl⟩
  | int64 => exact ⟨_, .int64, rfl, fun _ _ => rfl⟩
  | float32 => exact ⟨_, .float32, rfl, fun _ _ => rfl⟩
  | float64 => exact ⟨_, .float64, rfl, fun _ _ => rfl⟩

theorem any_v1 : AnyLaw v1 v1Codec where
  value := by
    intro q b r i hs h
    have hs : ∀ s, q = .bytes s → s = [] := by
      rcases hs with h | h
      · exact absurd h (by decide)
      · exact h
    obtain ⟨q1, hq, he, hr⟩ := v1_call q
    rw [he] at h
    rcases (GoV1.readItem_value_iff hq b r i).mp h with ⟨j, p, hm, ha, rfl, rfl⟩ | ⟨rfl, c, _, rfl, rfl⟩
    · have := ha.pos
      rw [hr hs]
      exact ⟨hm, accepts_fits ha, ⟨p, rfl⟩, fun _ => by simp; omega⟩
    · cases hq
      exact ⟨.bool _, trivial, ⟨[_, _], rfl⟩, fun _ => by simp; omega⟩
  notNil := by
    intro q b r h
    obtain ⟨q1, hq, he, hr⟩ := v1_call q
    rw [he] at h
    by_cases hbare : GoV1.BareHeader q b
    · rw [(GoV1.readItem_bare hq b hbare).1] at h
      clear he hr hq
      cases q <;> first | exact absurd hbare id | (simp only [GoV2.Req.invalid] at h; nomatch h)
    · cases hq
      case bytes =>
        simp only [GoV1.readItem] at h
        obtain ⟨⟨r', v, e⟩, h1, h2⟩ := GoV2.bind_eq_ok.mp h
        cases e <;> simp [Outcome.ofErr] at h2
      case bool =>
        simp only [GoV1.readItem] at h
        obtain ⟨⟨r', v, e⟩, h1, h2⟩ := GoV2.bind_eq_ok.mp h
        cases e <;> simp [Outcome.ofErr] at h2
      all_goals
        rw [GoV1.readItem_eq (by constructor) (by simp) (by simp) b hbare] at h
        exact any_v2.notNil h
  nilErr := by
    intro b r e h
    change GoV1.readItem .nil b = _ at h
    rw [GoV1.readItem_eq .nil (by simp) (by simp) b id] at h
    exact any_v2.nilErr h
  panic := by
    intro q b h
    obtain ⟨q1, hq, he, hr⟩ := v1_call q
    rw [he] at h
    obtain ⟨hd, n, cs, _, rfl, h3⟩ := (GoV1.readItem_panic_iff hq b).mp h
    exact cut_last h3

/-! ## A Hoare logic for decoding code -/

/-- On every input `x` compiles and, if it returns, leaves a suffix of the input (a proper one with `strict`) and a
value with property `P`; it panics only if the last byte of the input has the continuation bit; if it is too deep, `O` holds
of the length of the input. -/
def Safe {α : Type} (strict : Bool) (x : D α) (O : Nat → Prop) (P : α → Prop) : Prop := ∀ b, match x b with
  | .ok r a => P a ∧ r <:+ b ∧ (strict = true → r.length < b.length)
  | .err _ => True
  | .panic => ∃ c, b.getLast? = some c ∧ 128 ≤ c.toNat
  | .bad => False
  | .overflow => O b.length

/-- Longer inputs allow more. -/
def Up (O : Nat → Prop) : Prop := ∀ n, O n → O (n + 1)

theorem Up.le {O : Nat → Prop} (h : Up O) {a b : Nat} (hab : a ≤ b) (ha : O a) : O b := by
  induction b with
  | zero => rwa [Nat.le_zero.mp hab] at ha
  | succ b ih =>
    rcases Nat.lt_or_ge b a with h1 | h1
    · rwa [show a = b + 1 by omega] at ha
    · exact h b (ih h1)

theorem last_suffix {r b : Bytes} (h : r <:+ b) {c : Byte} (hc : r.getLast? = some c) : b.getLast? = some c := by
  obtain ⟨p, rfl⟩ := h
  rw [List.getLast?_append, hc]; rfl

theorem safe_pure {α : Type} {O : Nat → Prop} {P : α → Prop} {a : α} (h : P a) : Safe false (pure a : D α) O P :=
  fun b => ⟨h, ⟨[], rfl⟩, by simp⟩

theorem safe_bind {α β : Type} {s1 s2 : Bool} {x : D α} {f : α → D β} {O O' : Nat → Prop} {P : α → Prop} {Q : β → Prop}
    (hO : Up O) (hs : ∀ n, O' n → if s1 then O (n + 1) else O n)
    (hx : Safe s1 x O P) (hf : ∀ a, P a → Safe s2 (f a) O' Q) : Safe (s1 || s2) (x >>= f) O Q := by
  intro b
  rw [bind_def]
  have h1 := hx b
  cases hxb : x b with
  | ok r a =>
    rw [hxb] at h1
    obtain ⟨hp, hsuf, hst⟩ := h1
    have hlen := hsuf.length_le
    have h2 := hf a hp r
    simp only
    cases hfb : f a r with
    | ok r' c =>
      rw [hfb] at h2
      have hl2 := h2.2.1.length_le
      refine ⟨h2.1, h2.2.1.trans hsuf, ?_⟩
      intro h
      cases s1
      · have := h2.2.2 (by simpa using h); omega
      · have := hst rfl; omega
    | err e => trivial
    | panic =>
      rw [hfb] at h2
      obtain ⟨c, hc, h3⟩ := h2
      exact ⟨c, last_suffix hsuf hc, h3⟩
    | bad => rw [hfb] at h2; exact h2
    | overflow =>
      rw [hfb] at h2
      have := hs _ h2
      cases s1
      · exact hO.le hlen (by simpa using this)
      · exact hO.le (Nat.succ_le_of_lt (hst rfl)) (by simpa using this)
  | err e => trivial
  | panic => rw [hxb] at h1; exact h1
  | bad => rw [hxb] at h1; exact h1
  | overflow => rw [hxb] at h1; exact h1

/-- `bind` without progress. -/
theorem safe_seq {α β : Type} {x : D α} {f : α → D β} {O : Nat → Prop} {P : α → Prop} {Q : β → Prop}
    (hO : Up O) (hx : Safe false x O P) (hf : ∀ a, P a → Safe false (f a) O Q) : Safe false (x >>= f) O Q := by
  have := safe_bind (s1 := false) (s2 := false) hO (O' := O) (by simp) hx hf
  simpa using this

theorem Safe.weaken {α : Type} {s : Bool} {x : D α} {O : Nat → Prop} {P : α → Prop} (h : Safe s x O P) : Safe false x O P := by
  intro b
  have := h b
  cases hx : x b with
  | ok r a => rw [hx] at this; exact ⟨this.1, this.2.1, by simp⟩
  | err => trivial
  | panic => rw [hx] at this; exact this
  | bad => rw [hx] at this; exact this
  | overflow => rw [hx] at this; exact this

theorem Safe.imp {α : Type} {s : Bool} {x : D α} {O : Nat → Prop} {P Q : α → Prop} (h : Safe s x O P) (hq : ∀ a, P a → Q a) :
    Safe s x O Q := by
  intro b
  have := h b
  cases hx : x b with
  | ok r a => rw [hx] at this; exact ⟨hq _ this.1, this.2⟩
  | err => trivial
  | panic => rw [hx] at this; exact this
  | bad => rw [hx] at this; exact this
  | overflow => rw [hx] at this; exact this

theorem Safe.deep {α : Type} {s : Bool} {x : D α} {O O' : Nat → Prop} {P : α → Prop} (h : Safe s x O P) (hq : ∀ n, O n → O' n) :
    Safe s x O' P := by
  intro b
  have := h b
  cases hx : x b with
  | ok r a => rw [hx] at this; exact this
  | err => trivial
  | panic => rw [hx] at this; exact this
  | bad => rw [hx] at this; exact this
  | overflow => rw [hx] at this; exact hq _ this

theorem safe_read {ver : Version} {rd : Codec} (hl : AnyLaw ver rd) {q : Req} {O : Nat → Prop}
    (hs : ver.bytesScratch = true ∨ ∀ s, q = .bytes s → s = []) (hq : q ≠ .nil) :
    Safe (match q with | .bytes _ => false | _ => true) (read rd q) O (fun i => Matches q i ∧ i.Fits) := by
  intro b
  unfold read
  cases h : rd q b with
  | panic => exact hl.panic h
  | ok p =>
    obtain ⟨r, o⟩ := p
    cases o with
    | value i =>
      obtain ⟨h1, h2, h3, h4⟩ := hl.value hs h
      refine ⟨⟨h1, h2⟩, h3, ?_⟩
      intro hst
      apply h4
      intro s hqs
      subst hqs
      simp at hst
    | error e => trivial
    | notNil => exact absurd (hl.notNil h).1 hq

theorem safe_isNil {ver : Version} {rd : Codec} (hl : AnyLaw ver rd) {O : Nat → Prop} : Safe false (isNil rd) O (fun _ => True) := by
  intro b
  unfold isNil
  cases h : rd .nil b with
  | panic => exact hl.panic h
  | ok p =>
    obtain ⟨r, o⟩ := p
    cases o with
    | value i =>
      obtain ⟨h1, h2, h3, h4⟩ := hl.value (.inr (by simp)) h
      exact ⟨trivial, h3, by simp⟩
    | error e => exact absurd h hl.nilErr
    | notNil =>
      obtain ⟨_, rfl⟩ := hl.notNil h
      exact ⟨trivial, ⟨[], rfl⟩, by simp⟩

/-! ## Values -/

/-- A value decoding can leave in a field.  With `W`, one that fits and has no nil elements. -/
def Ok (W : Prop) (S : Schema) (f : Field) (v : V) : Prop := v.OfField S f ∧ (W → v.Fits ∧ v.NoNilElems)

variable {W : Prop}

theorem noNilElemsAll_iff (vs : List V) : NoNilElemsAll vs ↔ ∀ v ∈ vs, v.NoNilElems := by
  induction vs with
  | nil => simp [NoNilElemsAll]
  | cons v vs ih => simp [NoNilElemsAll, ih]

/-- Field values decoding can leave in a struct. -/
def Oks (W : Prop) (S : Schema) (fs : List Field) (vs : List V) : Prop :=
  vs.length = fs.length ∧ ∀ (i : Nat) f v, fs[i]? = some f → vs[i]? = some v → Ok W S f v

theorem oks_cons {S : Schema} {f : Field} {fs : List Field} {v : V} {vs : List V} :
    Oks W S (f :: fs) (v :: vs) ↔ Ok W S f v ∧ Oks W S fs vs := by
  constructor
  · rintro ⟨h1, h2⟩
    exact ⟨h2 0 f v rfl rfl, by simpa using h1, fun i g w hg hw => h2 (i + 1) g w (by simpa using hg) (by simpa using hw)⟩
  · rintro ⟨h1, h2, h3⟩
    refine ⟨by simp [h2], ?_⟩
    intro i g w hg hw
    cases i with
    | zero => simp at hg hw; subst hg; subst hw; exact h1
    | succ i => exact h3 i g w (by simpa using hg) (by simpa using hw)

theorem oks_iff {S : Schema} : ∀ {fs : List Field} {vs : List V},
    Oks W S fs vs ↔ OfFields S fs vs ∧ (W → FitsAll vs ∧ NoNilElemsAll vs) := by
  intro fs
  induction fs with
  | nil =>
    intro vs
    cases vs with
    | nil => simp [Oks, OfFields, FitsAll, NoNilElemsAll]
    | cons v vs => simp [Oks, OfFields]
  | cons f fs ih =>
    intro vs
    cases vs with
    | nil => simp [Oks, OfFields]
    | cons v vs =>
      rw [oks_cons, ih]
      simp only [Ok, OfFields, FitsAll, NoNilElemsAll]
      constructor
      · rintro ⟨⟨a, b⟩, d, e⟩; exact ⟨⟨a, d⟩, fun w => ⟨⟨(b w).1, (e w).1⟩, (b w).2, (e w).2⟩⟩
      · rintro ⟨⟨a, d⟩, b⟩; exact ⟨⟨a, fun w => ⟨(b w).1.1, (b w).2.1⟩⟩, d, fun w => ⟨(b w).1.2, (b w).2.2⟩⟩

theorem ok_msg {S : Schema} {m : Nat} {c : Bool} {vs : List V} : Ok W S (.one .message m c) (.msg vs) ↔ Oks W S (S.fields m) vs := by
  rw [oks_iff]; simp [Ok, V.OfField, V.Fits, V.NoNilElems]

theorem fresh_ok (S : Schema) {f : Field} (h : f.GoSupported) : Ok W S f f.fresh := by
  refine ⟨fresh_ofField S h, fun _ => ⟨?_, ?_⟩⟩
  · cases f with
    | one k r c => cases k <;> simp [Field.fresh, V.Fits, Scalar.Fits]
    | many k r => simp [Field.fresh, V.Fits, FitsAll]
    | map kk k r => simp [Field.fresh, V.Fits]
  · cases f with
    | one k r c => cases k <;> simp [Field.fresh, V.NoNilElems]
    | many k r => simp [Field.fresh, V.NoNilElems, NoNilElemsAll]
    | map kk k r => simp [Field.fresh, V.NoNilElems]

theorem fresh_oks {S : Schema} (h : S.GoSupported) (m : Nat) : Oks W S (S.fields m) (S.fresh m) := by
  refine ⟨by simp [Schema.fresh], ?_⟩
  intro i f v hf hv
  simp only [Schema.fresh, List.getElem?_map, hf, Option.map_some, Option.some.injEq] at hv
  subst hv
  exact fresh_ok S (fields_supported h m f (List.mem_of_getElem? hf))

/-! ## `New` -/

theorem newFields_ok {ver : Version} {S : Schema} {new : Nat → Option (List V)} (hn : ∀ m vs, new m = some vs → Oks W S (S.fields m) vs) :
    ∀ (fs : List Field) (vs : List V), (∀ f ∈ fs, f.GoSupported) → newFields ver new fs = some vs → Oks W S fs vs := by
  intro fs
  induction fs with
  | nil => intro vs _ h; simp [newFields] at h; subst h; simp [Oks]
  | cons f fs ih =>
    intro vs hf h
    simp only [newFields, bind, Option.bind_eq_some_iff] at h
    obtain ⟨v, h1, ws, h2, h3⟩ := h
    simp at h3; subst h3
    rw [oks_cons]
    refine ⟨?_, ih ws (fun g hg => hf g (by simp [hg])) h2⟩
    have hs := hf f (by simp)
    unfold newField at h1
    split at h1
    · rename_i hc
      split at h1
      · rename_i k r c
        have hk : k = .message := hc.2.1
        subst hk
        simp only [Option.map_eq_some_iff] at h1
        obtain ⟨us, hu, rfl⟩ := h1
        exact ok_msg.mpr (hn _ _ hu)
      · simp at h1
    · obtain ⟨t, ht, hz⟩ := zero_fresh hs
      rw [ht] at h1
      simp at h1; subst h1
      rw [hz]; exact fresh_ok S hs

theorem new_ok {ver : Version} {S : Schema} (h : S.GoSupported) : ∀ (n m : Nat) (vs : List V), New ver S n m = some vs → Oks W S (S.fields m) vs := by
  intro n
  induction n with
  | zero => intro m vs h; simp [New] at h
  | succ n ih => intro m vs hv; exact newFields_ok ih _ vs (fields_supported h m) hv

theorem newFields_some {ver : Version} {new : Nat → Option (List V)} : ∀ (fs : List Field), (∀ f ∈ fs, f.GoSupported) →
    (∀ r c, .one .message r c ∈ fs → (new r).isSome) → (newFields ver new fs).isSome := by
  intro fs
  induction fs with
  | nil => intros; rfl
  | cons f fs ih =>
    intro hf hn
    have h2 := ih (fun g hg => hf g (by simp [hg])) (fun r c h => hn r c (by simp [h]))
    obtain ⟨vs, hvs⟩ := Option.isSome_iff_exists.mp h2
    have : (newField ver new f).isSome := by
      unfold newField
      split
      · rename_i hc
        cases f with
        | one k r c =>
          have hk : k = .message := hc.2.1
          subst hk
          have := hn r c (by simp)
          simpa using this
        | many k r => simp [Field.Cardinality] at hc
        | map kk k r => simp [Field.Cardinality] at hc
      · obtain ⟨t, ht, _⟩ := zero_fresh (hf f (by simp))
        simp [ht]
    obtain ⟨v, hv⟩ := Option.isSome_iff_exists.mp this
    simp [newFields, hv, hvs]

/-- `New` is never deeper than the rank of the type. -/
theorem new_deep {ver : Version} {S : Schema} (h : S.GoSupported) {rank : Nat → Nat}
    (hr : ∀ m, ∀ f ∈ S.fields m, ∀ r c, f = .one .message r c → rank r < rank m) : ∀ (n m : Nat), rank m < n → (New ver S n m).isSome := by
  intro n
  induction n with
  | zero => intro m h; omega
  | succ n ih =>
    intro m hm
    refine newFields_some _ (fields_supported h m) ?_
    intro r c hc
    have := hr m _ hc r c rfl
    exact ih r (by omega)

/-! ## Scalars -/

theorem safe_assign {ver : Version} {rd : Codec} (hl : AnyLaw ver rd) {k : PKind} (hk : k ≠ .enum) {m : Method}
    (hm : decodeLUT k = some m) (ref : Nat) (scratch : Bytes) (hsc : ver.bytesScratch = true ∨ scratch = []) (O : Nat → Prop) (hO : Up O) :
    ∃ ty, FindElem k ref false = some ty ∧ Safe false (assign rd m scratch ty) O (fun s => s.OfKind k ∧ s.Fits) := by
  have key : ∀ (q : Req), q ≠ .nil → (ver.bytesScratch = true ∨ ∀ s, q = .bytes s → s = []) →
      (∀ i, Matches q i → i.Fits → ∃ s, ofItem i = some s ∧ s.OfKind k ∧ s.Fits) →
      Safe false (do
        let i ← read rd q
        match ofItem i with
        | some s => pure s
        | none => D.bad : D Scalar) O (fun s => s.OfKind k ∧ s.Fits) := by
    intro q hn hs hi
    refine safe_seq hO (safe_read hl hs hn).weaken ?_
    rintro i ⟨h1, h2⟩
    obtain ⟨s, h3, h4, h5⟩ := hi i h1 h2
    rw [h3]
    exact safe_pure ⟨h4, h5⟩
  cases k <;> simp only [decodeLUT, Option.some.injEq, reduceCtorEq] at hm <;> subst hm <;>
    first
    | exact absurd rfl hk
    | (refine ⟨_, rfl, ?_⟩
       simp only [assign, Method.type, Method.req, Bool.false_eq_true, if_false]
       refine key _ (by simp) (by rcases hsc with h | rfl <;> first | exact .inl h | (right; simp)) ?_
       intro i hi hf
       cases hi
       exact ⟨_, rfl, by simp [Scalar.OfKind], by first | exact hf | trivial⟩)

theorem safe_assignEnum {ver : Version} {rd : Codec} (hl : AnyLaw ver rd) (O : Nat → Prop) (hO : Up O) :
    Safe false (assignEnum rd .Uint32) O (fun s => s.OfKind .enum ∧ s.Fits) := by
  unfold assignEnum
  rw [if_pos (show Method.Uint32.type = GoType.uint32 from rfl), Method.req]
  refine safe_seq hO (safe_read hl (.inr (by simp)) (by simp)).weaken ?_
  rintro i ⟨h1, _⟩
  cases h1
  exact safe_pure ⟨by simp [Scalar.OfKind], by simp [Scalar.Fits]⟩

theorem ok_scalar {S : Schema} {k : PKind} {r : Nat} {c : Bool} {s : Scalar} (h : s.OfKind k ∧ s.Fits) : Ok W S (.one k r c) (.scalar s) := by
  simp [Ok, V.OfField, V.Fits, V.NoNilElems, h.1, h.2]

theorem safe_decValue {ver : Version} {rd : Codec} (hl : AnyLaw ver rd) (S : Schema) {k : PKind} (hk : IsScalar k) (r : Nat) (c : Bool)
    (old : V) (O : Nat → Prop) (hO : Up O) :
    Safe false (decValue rd ver.bytesScratch (.one k r c) old) O (Ok W S (.one k r c)) := by
  obtain ⟨m, _, hm, _⟩ := encodeLUT_scalar hk
  have fin : ∀ s : Scalar, s.OfKind k ∧ s.Fits → Safe false (pure (.scalar s) : D V) O (Ok W S (.one k r c)) :=
    fun s hs => safe_pure (ok_scalar hs)
  by_cases he : k = .enum
  · subst he
    exact safe_seq hO (safe_assignEnum hl O hO) fin
  · rw [decValue_one, hm]
    by_cases hb : k = .bytes
    · obtain ⟨ty, h1, h2⟩ := safe_assign hl he hm r (if ver.bytesScratch then scratchOf old else []) (by
        cases ver.bytesScratch <;> simp) O hO
      rw [h1]; simp only []
      rw [if_pos hb]
      exact safe_seq hO h2 fin
    · obtain ⟨ty, h1, h2⟩ := safe_assign hl he hm r [] (.inr rfl) O hO
      have hmb : m ≠ .Bytes := fun h => hb (decodeLUT_bytes (h ▸ hm))
      rw [h1]; simp only []
      rw [if_neg hb, if_neg he, if_neg hmb]
      exact safe_seq hO h2 fin

theorem safe_decKey {ver : Version} {rd : Codec} (hl : AnyLaw ver rd) {k : PKind} (hk : IsScalar k) (hb : k ≠ .bytes) (O : Nat → Prop) (hO : Up O) :
    Safe false (decKey rd k) O (fun s => s.OfKind k ∧ s.Fits) := by
  obtain ⟨m, _, hm, _⟩ := encodeLUT_scalar hk
  by_cases he : k = .enum
  · subst he
    exact safe_assignEnum hl O hO
  · obtain ⟨ty, h1, h2⟩ := safe_assign hl he hm 0 [] (.inr rfl) O hO
    have hmb : m ≠ .Bytes := fun h => hb (decodeLUT_bytes (h ▸ hm))
    simp only [decKey, hm, h1, he, hmb, if_false]
    exact h2

/-! ## Messages -/

/-- The callees are safe; `O m` holds where `NewM` or `decode` on a message of type `m` is too deep. -/
structure SafeCallees (W : Prop) (S : Schema) (rec : Callees) (O : Nat → Nat → Prop) : Prop where
  new : ∀ m, Safe false (rec.new m) (O m) (Oks W S (S.fields m))
  decode : ∀ m x, Oks W S (S.fields m) x → Safe false (rec.decode m x) (O m) (Oks W S (S.fields m))
  up : ∀ m, Up (O m)

theorem safe_decInto {S : Schema} {rec : Callees} {O : Nat → Nat → Prop} (h : SafeCallees W S rec O) (m : Nat) (c : Bool) (old : V)
    (ho : Ok W S (.one .message m c) old) : Safe false (decInto rec m old) (O m) (fun v => Ok W S (.one .message m c) v ∧ v ≠ .nil) := by
  unfold decInto
  have hc : Safe false (current rec m old) (O m) (Oks W S (S.fields m)) := by
    unfold current
    split
    · exact safe_pure (ok_msg.mp ho)
    · exact h.new m
  refine safe_seq (h.up m) hc ?_
  intro fs hfs
  refine safe_seq (h.up m) (h.decode m fs hfs) ?_
  intro gs hgs
  exact safe_pure ⟨ok_msg.mpr hgs, by simp⟩

/-- Elements decoding can leave in a repeated field. -/
def ElemsOk (W : Prop) (S : Schema) (f : Field) (vs : List V) : Prop := ∀ v ∈ vs, Ok W S f v ∧ v ≠ .nil

theorem ok_slice {S : Schema} {k : PKind} {r : Nat} {vs : List V} (hl : vs.length < 2 ^ 32) (h : ElemsOk W S (.one k r false) vs) :
    Ok W S (.many k r) (.slice vs) := by
  refine ⟨?_, fun w => ⟨?_, ?_⟩⟩
  · simp only [V.OfField]; exact ⟨hl, (ofElems_iff ..).mpr fun v hv => (h v hv).1.1⟩
  · simp only [V.Fits]; exact (fitsAll_iff _).mpr fun v hv => ((h v hv).1.2 w).1
  · simp only [V.NoNilElems]; exact ⟨fun v hv => (h v hv).2, (noNilElemsAll_iff _).mpr fun v hv => ((h v hv).1.2 w).2⟩

theorem safe_decElems {ver : Version} {rd : Codec} (hl : AnyLaw ver rd) {S : Schema} {rec : Callees} {O : Nat → Nat → Prop}
    (h : SafeCallees W S rec O) {k : PKind} {r : Nat} (hf : (Field.many k r).GoSupported) (O' : Nat → Prop) (hO' : Up O')
    (hd : k = .message → ∀ n, O r n → O' n) : ∀ (olds : List V), (k = .message → ∀ v ∈ olds, Ok W S (.one k r false) v) →
    Safe false (decElems rd rec k r olds) O' (fun vs => vs.length = olds.length ∧ ElemsOk W S (.one k r false) vs) := by
  intro olds
  induction olds with
  | nil => intro _; exact safe_pure ⟨rfl, by simp [ElemsOk]⟩
  | cons old olds ih =>
    intro ho
    rw [decElems]
    refine safe_seq (P := fun v => Ok W S (.one k r false) v ∧ v ≠ .nil) hO' ?_ ?_
    · by_cases hk : k = .message
      · subst hk
        rw [if_pos rfl]
        exact (safe_decInto h r false old (ho rfl old (by simp))).deep (hd rfl)
      · rw [if_neg hk]
        simp only [Field.GoSupported] at hf
        obtain ⟨m, _, hm, _⟩ := encodeLUT_scalar (k := k) ⟨hk, hf.1⟩
        obtain ⟨ty, h1, h2⟩ := safe_assign hl hf.2.1 hm r [] (.inr rfl) O' hO'
        have hmb : m ≠ .Bytes := fun h => hf.2.2 (decodeLUT_bytes (h ▸ hm))
        rw [hm, h1]
        simp only []
        rw [if_neg hmb]
        exact safe_seq hO' h2 (fun s hs => safe_pure ⟨ok_scalar hs, by simp⟩)
    · intro v hv
      refine safe_seq hO' (ih fun hk w hw => ho hk w (by simp [hw])) ?_
      rintro vs ⟨h1, h2⟩
      refine safe_pure ⟨by simp [h1], ?_⟩
      intro w hw
      rcases List.mem_cons.mp hw with rfl | hw
      · exact hv
      · exact h2 w hw

theorem ok_elems {S : Schema} {k : PKind} {r : Nat} {old : V} (h : Ok W S (.many k r) old) : ∀ v ∈ elems old, Ok W S (.one k r false) v := by
  obtain ⟨h1, h2⟩ := h
  cases old with
  | slice vs =>
    simp only [V.OfField, V.Fits, V.NoNilElems] at h1 h2
    intro v hv
    exact ⟨(ofElems_iff ..).mp h1.2 v hv, fun w => ⟨(fitsAll_iff _).mp (h2 w).1 v hv, (noNilElemsAll_iff _).mp (h2 w).2.2 v hv⟩⟩
  | _ => simp [elems]

theorem ok_nil {S : Schema} {r : Nat} {c : Bool} : Ok W S (.one .message r c) .nil := by simp [Ok, V.OfField, V.Fits, V.NoNilElems]

theorem safe_decSlice {ver : Version} {rd : Codec} (hl : AnyLaw ver rd) {S : Schema} {rec : Callees} {O : Nat → Nat → Prop}
    (h : SafeCallees W S rec O) {k : PKind} {r : Nat} (hf : (Field.many k r).GoSupported) (old : V) (ho : Ok W S (.many k r) old)
    (O' : Nat → Prop) (hO' : Up O') (hd : k = .message → ∀ n, O r n → O' (n + 1)) :
    Safe false (decSlice rd rec (.many k r) old) O' (Ok W S (.many k r)) := by
  have hk := hf.1
  obtain ⟨kk, hkk⟩ := getKind_ok hk
  unfold decSlice
  simp only [Field.Kind, hkk]
  have hup : Up (fun n => O' (n + 1)) := fun n hn => hO' _ hn
  refine Safe.weaken (s := true || false) (safe_bind (s1 := true) (s2 := false) (O' := fun n => O' (n + 1)) hO' (by simp)
    (safe_read hl (q := .slice kk) (.inr (by simp)) (by simp)) ?_)
  rintro i ⟨h1, _⟩
  cases h1 with
  | slice size =>
  simp only []
  refine safe_seq hup (safe_decElems hl h hf _ hup hd _ ?_) ?_
  · intro hkm v hv
    subst hkm
    split at hv
    · simp only [List.mem_replicate] at hv
      rw [hv.2]
      exact ok_nil
    · exact ok_elems ho v hv
  · rintro vs ⟨h1, h2⟩
    refine safe_pure (ok_slice ?_ h2)
    rw [h1]
    split
    · simp; exact size.isLt
    · obtain ⟨h1, _⟩ := ho
      cases old with
      | slice vs => simp only [V.OfField] at h1; exact h1.1
      | _ => simp [elems]

theorem safe_decMapValue {ver : Version} {rd : Codec} (hl : AnyLaw ver rd) {S : Schema} {rec : Callees} {O : Nat → Nat → Prop}
    (h : SafeCallees W S rec O) {k : PKind} {r : Nat} (hg : k ≠ .group) (hb : k ≠ .bytes) (O' : Nat → Prop) (hO' : Up O')
    (hd : k = .message → ∀ n, O r n → O' n) :
    Safe false (decMapValue rd rec k r) O' (fun v => Ok W S (.one k r false) v ∧ v ≠ .nil) := by
  unfold decMapValue
  by_cases hk : k = .message
  · subst hk
    simp only [decodeLUT, if_true]
    exact (safe_decInto h r false .nil ok_nil).deep (hd rfl)
  · obtain ⟨m, _, hm, _⟩ := encodeLUT_scalar (k := k) ⟨hk, hg⟩
    by_cases he : k = .enum
    · subst he
      exact safe_seq hO' (safe_assignEnum hl O' hO') (fun s hs => safe_pure ⟨ok_scalar hs, by simp⟩)
    · obtain ⟨ty, h1, h2⟩ := safe_assign hl he hm r [] (.inr rfl) O' hO'
      have hmb : m ≠ .Bytes := fun h => hb (decodeLUT_bytes (h ▸ hm))
      simp only [hm, h1, he, hmb, if_false]
      exact safe_seq hO' h2 (fun s hs => safe_pure ⟨ok_scalar hs, by simp⟩)

/-- Entries decoding can leave in a map of at most `n` entries. -/
def EntriesOk (W : Prop) (S : Schema) (kk k : PKind) (r n : Nat) (ks : List Scalar) (vs : List V) : Prop :=
  ks.length = vs.length ∧ vs.length ≤ n ∧ ks.Nodup ∧ (∀ s ∈ ks, s.OfKind kk ∧ s.Fits) ∧ ElemsOk W S (.one k r false) vs

theorem put_ok {S : Schema} {kk k : PKind} {r : Nat} {key : Scalar} {v : V} (hk : key.OfKind kk ∧ key.Fits) (hv : Ok W S (.one k r false) v ∧ v ≠ .nil) :
    ∀ (ks : List Scalar) (vs : List V) (n : Nat), EntriesOk W S kk k r n ks vs →
      EntriesOk W S kk k r (n + 1) (put key v ks vs).1 (put key v ks vs).2 ∧ ∀ s ∈ (put key v ks vs).1, s = key ∨ s ∈ ks := by
  intro ks
  induction ks with
  | nil =>
    rintro vs n ⟨h1, -, -, -, -⟩
    cases vs with
    | cons => simp at h1
    | nil =>
      refine ⟨⟨rfl, by simp [put], by simp [put], ?_, ?_⟩, by simp [put]⟩
      · simpa [put] using hk
      · simpa [put, ElemsOk] using hv
  | cons k' ks ih =>
    rintro vs n ⟨h1, h2, h3, h4, h5⟩
    cases vs with
    | nil => simp at h1
    | cons v' vs =>
      rw [put]
      split
      · rename_i he
        subst he
        refine ⟨⟨by simpa using h1, by simp at h2 ⊢; omega, h3, h4, ?_⟩, by intro s hs; exact .inr hs⟩
        intro w hw
        rcases List.mem_cons.mp hw with rfl | hw
        · exact hv
        · exact h5 w (by simp [hw])
      · rename_i he
        rw [List.nodup_cons] at h3
        obtain ⟨⟨a, b, c, d, e⟩, f⟩ := ih vs (n - 1) ⟨by simpa using h1, by simp at h2; omega, h3.2, fun s hs => h4 s (by simp [hs]),
          fun w hw => h5 w (by simp [hw])⟩
        refine ⟨⟨by simp [a], by simp at h2 ⊢; omega, ?_, ?_, ?_⟩, ?_⟩
        · simp only [List.nodup_cons]
          refine ⟨?_, c⟩
          intro hm
          rcases f _ hm with h | h
          · exact he h.symm
          · exact h3.1 h
        · intro s hs
          rcases List.mem_cons.mp hs with rfl | hs
          · exact h4 _ (by simp)
          · exact d s hs
        · intro w hw
          rcases List.mem_cons.mp hw with rfl | hw
          · exact h5 _ (by simp)
          · exact e w hw
        · intro s hs
          rcases List.mem_cons.mp hs with rfl | hs
          · exact .inr (by simp)
          · rcases f s hs with h | h
            · exact .inl h
            · exact .inr (by simp [h])

theorem safe_decEntries {ver : Version} {rd : Codec} (hl : AnyLaw ver rd) {S : Schema} {rec : Callees} {O : Nat → Nat → Prop}
    (h : SafeCallees W S rec O) {kk k : PKind} {r : Nat} (hf : (Field.map kk k r).GoSupported) (O' : Nat → Prop) (hO' : Up O')
    (hd : k = .message → ∀ n, O r n → O' n) : ∀ (n : Nat) (ks : List Scalar) (vs : List V) (N : Nat), EntriesOk W S kk k r N ks vs →
    Safe false (decEntries rd rec kk k r n ks vs) O' (fun e => EntriesOk W S kk k r (N + n) e.1 e.2) := by
  intro n
  simp only [Field.GoSupported] at hf
  induction n with
  | zero => intro ks vs N he; exact safe_pure he
  | succ n ih =>
    intro ks vs N he
    rw [decEntries]
    refine safe_seq hO' (safe_decKey hl ⟨hf.2.1, hf.1⟩ hf.2.2.1 O' hO') ?_
    intro key hkey
    refine safe_seq hO' (safe_decMapValue hl h hf.2.2.2.1 hf.2.2.2.2 O' hO' hd) ?_
    intro v hv
    rw [show N + (n + 1) = (N + 1) + n by omega]
    exact ih _ _ (N + 1) (put_ok hkey hv ks vs N he).1

theorem ok_map {S : Schema} {kk k : PKind} {r n : Nat} {ks : List Scalar} {vs : List V} (hn : n < 2 ^ 32) (h : EntriesOk W S kk k r n ks vs) :
    Ok W S (.map kk k r) (.map ks vs) := by
  obtain ⟨h1, h2, h3, h4, h5⟩ := h
  refine ⟨?_, fun w => ⟨?_, ?_⟩⟩
  · simp only [V.OfField]
    exact ⟨h1, by omega, h3, fun s hs => (h4 s hs).1, (ofElems_iff ..).mpr fun v hv => (h5 v hv).1.1⟩
  · simp only [V.Fits]; exact ⟨fun s hs => (h4 s hs).2, (fitsAll_iff _).mpr fun v hv => ((h5 v hv).1.2 w).1⟩
  · simp only [V.NoNilElems]; exact ⟨fun v hv => (h5 v hv).2, (noNilElemsAll_iff _).mpr fun v hv => ((h5 v hv).1.2 w).2⟩

theorem safe_decMessage {ver : Version} {rd : Codec} (hl : AnyLaw ver rd) {S : Schema} {rec : Callees} {O : Nat → Nat → Prop}
    (h : SafeCallees W S rec O) {f : Field} (hf : f.GoSupported) (hm : isMsg f = true) (old : V) (ho : Ok W S f old)
    (O' : Nat → Prop) (hO' : Up O') (hd1 : ∀ r c, f = .one .message r c → ∀ n, O r n → O' n)
    (hd2 : ∀ kk r, f = .map kk .message r → ∀ n, O r n → O' (n + 1)) :
    Safe false (decMessage ver rd rec f old) O' (Ok W S f) := by
  cases f with
  | many => simp [isMsg] at hm
  | one k m c =>
    have hk : k = .message := by simpa [isMsg] using hm
    subst hk
    unfold decMessage
    simp only
    have hi := hd1 m c rfl
    cases ver.skipNil
    · simp only [Bool.false_eq_true, if_false]
      exact ((safe_decInto h m c old ho).deep hi).imp fun v hv => hv.1
    · simp only [if_true]
      refine safe_seq hO' (safe_isNil hl) ?_
      intro a _
      cases a
      · simp only [Bool.false_eq_true, if_false]
        exact ((safe_decInto h m c .nil ok_nil).deep hi).imp fun v hv => hv.1
      · simp only [if_true]
        exact safe_pure ho
  | map kk k r =>
    have hs := hf
    simp only [Field.GoSupported] at hs
    obtain ⟨keyKind, q1⟩ := getKind_ok hs.1
    obtain ⟨valKind, q2⟩ := getKind_ok hs.2.2.2.1
    unfold decMessage
    simp only [q1, q2]
    refine safe_seq hO' (safe_isNil hl) ?_
    intro a _
    cases a
    · simp only [Bool.false_eq_true, if_false]
      have hup : Up (fun n => O' (n + 1)) := fun n hn => hO' _ hn
      refine Safe.weaken (s := true || false) (safe_bind (s1 := true) (s2 := false) (O' := fun n => O' (n + 1)) hO' (by simp)
        (safe_read hl (q := .map keyKind valKind) (.inr (by simp)) (by simp)) ?_)
      rintro i ⟨h1, _⟩
      cases h1 with
      | map size =>
      simp only []
      refine safe_seq hup (safe_decEntries hl h hf _ hup (fun hk n hn => hd2 kk r (by rw [hk]) n hn) size.toNat [] [] 0
        ⟨rfl, by simp, by simp, by simp, by simp [ElemsOk]⟩) ?_
      intro e he
      exact safe_pure (ok_map (n := 0 + size.toNat) (by have := size.isLt; omega) he)
    · simp only [if_true]
      exact safe_pure ho

theorem safe_forFields {stmt : Field → V → D V} {S : Schema} {fields : List Field} (O : Nat → Prop) (hO : Up O) :
    ∀ (is : List Nat) (x : List V), (∀ i ∈ is, ∃ f, fields[i]? = some f ∧ ∀ old, Ok W S f old → Safe false (stmt f old) O (Ok W S f)) →
      Oks W S fields x → Safe false (forFields stmt fields is x) O (Oks W S fields) := by
  intro is
  induction is with
  | nil => intro x _ hx; exact safe_pure hx
  | cons i is ih =>
    intro x h hx
    obtain ⟨f, hf, hs⟩ := h i (by simp)
    have hi : i < x.length := by
      rw [hx.1]
      rcases Nat.lt_or_ge i fields.length with h | h
      · exact h
      · rw [List.getElem?_eq_none h] at hf; simp at hf
    obtain ⟨old, ho⟩ : ∃ old, x[i]? = some old := ⟨x[i], List.getElem?_eq_getElem hi⟩
    rw [forFields, hf, ho]
    simp only []
    refine safe_seq hO (hs old (hx.2 i f old hf ho)) ?_
    intro v hv
    refine ih _ (fun j hj => h j (by simp [hj])) ⟨by simp [hx.1], ?_⟩
    intro j g w hg hw
    by_cases hji : i = j
    · subst hji
      rw [hf] at hg; simp at hg; subst hg
      rw [List.getElem?_set_self hi] at hw; simp at hw; subst hw
      exact hv
    · rw [List.getElem?_set_ne hji] at hw
      exact hx.2 j g w hg hw

theorem safe_decBody {ver : Version} {rd : Codec} (hl : AnyLaw ver rd) {S : Schema} (hS : S.GoSupported) {rec : Callees} {O : Nat → Nat → Prop}
    (h : SafeCallees W S rec O) (m : Nat) (x : List V) (hx : Oks W S (S.fields m) x) (O' : Nat → Prop) (hO' : Up O')
    (hd1 : ∀ r c, .one .message r c ∈ S.fields m → ∀ n, O r n → O' n) (hd2 : ∀ r, ∀ n, O r n → O' (n + 1)) :
    Safe false (decBody ver rd rec (S.fields m) ⟨idx isMsg 0 (S.fields m), idx isSlice 0 (S.fields m), idx isValue 0 (S.fields m)⟩ x)
      O' (Oks W S (S.fields m)) := by
  have hsup := fields_supported hS m
  unfold decBody
  refine safe_seq hO' (safe_forFields O' hO' _ x ?_ hx) ?_
  · intro i hi
    obtain ⟨f, hf, hp⟩ := idx_of hi
    refine ⟨f, hf, ?_⟩
    intro old _
    have hs := hsup f (List.mem_of_getElem? hf)
    cases f with
    | one k r c =>
      have hk : k ≠ .message := by simpa [isValue] using hp
      exact safe_decValue hl S ⟨hk, hs⟩ r c old O' hO'
    | many => simp [isValue] at hp
    | map => simp [isValue] at hp
  intro y hy
  refine safe_seq hO' (safe_forFields O' hO' _ y ?_ hy) ?_
  · intro i hi
    obtain ⟨f, hf, hp⟩ := idx_of hi
    refine ⟨f, hf, ?_⟩
    intro old ho
    have hs := hsup f (List.mem_of_getElem? hf)
    cases f with
    | one => simp [isSlice] at hp
    | many k r => exact safe_decSlice hl h hs old ho O' hO' (fun _ => hd2 r)
    | map => simp [isSlice] at hp
  intro z hz
  refine safe_forFields O' hO' _ z ?_ hz
  intro i hi
  obtain ⟨f, hf, hp⟩ := idx_of hi
  refine ⟨f, hf, ?_⟩
  intro old ho
  have hmem := List.mem_of_getElem? hf
  exact safe_decMessage hl h (hsup f hmem) hp old ho O' hO' (fun r c e => hd1 r c (e ▸ hmem)) (fun _ r _ => hd2 r)

/-- Where `decode` with `fuel` on a message of type `m` is too deep.  With a rank that goes down along singular message fields
and stays below `R`, only on inputs of at least `(fuel - rank m) / (R + 1)` bytes. -/
def Deep (rank : Nat → Nat) (R fuel m n : Nat) : Prop := fuel ≤ n * (R + 1) + rank m

theorem deep_up (rank : Nat → Nat) (R fuel m : Nat) : Up (Deep rank R fuel m) := by
  intro n h
  unfold Deep at *
  rw [Nat.add_mul]; omega

theorem safe_callNew {ver : Version} {S : Schema} (hS : S.GoSupported) (fuel m : Nat) {O : Nat → Prop} (h : New ver S fuel m = none → ∀ n, O n) :
    Safe false (callNew ver S fuel m) O (Oks W S (S.fields m)) := by
  intro b
  unfold callNew
  cases hn : New ver S fuel m with
  | some fs => exact ⟨new_ok hS _ _ _ hn, ⟨[], rfl⟩, by simp⟩
  | none => exact h hn _

theorem safe_decode {ver : Version} {rd : Codec} (hl : AnyLaw ver rd) {S : Schema} (hS : S.GoSupported) {rank : Nat → Nat} {R : Nat}
    (hr : ∀ m, ∀ f ∈ S.fields m, ∀ r c, f = .one .message r c → rank r < rank m) (hR : ∀ m, rank m ≤ R) : ∀ (fuel m : Nat) (x : List V),
    Oks W S (S.fields m) x → Safe false (decode ver rd S fuel m x) (Deep rank R fuel m) (Oks W S (S.fields m)) := by
  intro fuel
  induction fuel with
  | zero => intro m x _ b; rw [decode]; show Deep rank R 0 m _; unfold Deep; omega
  | succ fuel ih =>
    intro m x hx
    rw [decode]
    refine safe_seq (deep_up rank R (fuel + 1) m) (safe_isNil hl) ?_
    intro a _
    cases a
    · simp only [Bool.false_eq_true, if_false]
      rw [GetDecodingFields, decLoop_eq _ 0 (fields_supported hS m)]
      simp only [errUsed_ok hS m, if_true]
      refine safe_decBody hl hS (O := Deep rank R fuel) ⟨?_, ih, fun m => deep_up rank R fuel m⟩ m x hx _ (deep_up rank R (fuel + 1) m) ?_ ?_
      · intro m'
        refine safe_callNew hS fuel m' ?_
        · intro hn n
          unfold Deep
          rcases Nat.lt_or_ge (rank m') fuel with h | h
          · have := new_deep (ver := ver) hS hr fuel m' h
            rw [hn] at this; simp at this
          · omega
      · intro r c hmem n hn
        have := hr m _ hmem r c rfl
        unfold Deep at *; omega
      · intro r n hn
        have := hR r
        unfold Deep at *
        rw [Nat.add_mul]; omega
    · simp only [if_true]
      exact safe_pure hx

/-- Without a rank: nothing is known about depth. -/
theorem safe_decode_any {ver : Version} {rd : Codec} (hl : AnyLaw ver rd) {S : Schema} (hS : S.GoSupported) : ∀ (fuel m : Nat) (x : List V),
    Oks W S (S.fields m) x → Safe false (decode ver rd S fuel m x) (fun _ => True) (Oks W S (S.fields m)) := by
  intro fuel
  induction fuel with
  | zero => intro m x _ b; rw [decode]; trivial
  | succ fuel ih =>
    intro m x hx
    have hup : Up fun _ => True := fun _ _ => trivial
    rw [decode]
    refine safe_seq hup (safe_isNil hl) ?_
    intro a _
    cases a
    · simp only [Bool.false_eq_true, if_false]
      rw [GetDecodingFields, decLoop_eq _ 0 (fields_supported hS m)]
      simp only [errUsed_ok hS m, if_true]
      refine safe_decBody hl hS (O := fun _ _ => True) ⟨?_, ih, fun m => hup⟩ m x hx _ hup (by simp) (by simp)
      exact fun m' => safe_callNew hS fuel m' (by simp)
    · simp only [if_true]
      exact safe_pure hx

/-- A rank can be chosen bounded: only finitely many types have fields. -/
theorem bounded_rank {S : Schema} (h : S.FiniteSize) : ∃ (rank : Nat → Nat) (R : Nat),
    (∀ m, ∀ f ∈ S.fields m, ∀ r c, f = .one .message r c → rank r < rank m) ∧ ∀ m, rank m ≤ R := by
  obtain ⟨rank, hr⟩ := h
  have hb : ∀ n, ∃ R, ∀ m, m < n → rank m + 1 ≤ R := by
    intro n
    induction n with
    | zero => exact ⟨0, by simp⟩
    | succ n ih =>
      obtain ⟨R, hR⟩ := ih
      refine ⟨max R (rank n + 1), ?_⟩
      intro m hm
      rcases Nat.lt_or_ge m n with h | h
      · have := hR m h; omega
      · rw [show m = n by omega]; omega
  obtain ⟨R, hR⟩ := hb S.messages.length
  refine ⟨fun m => if m < S.messages.length then rank m + 1 else 0, R, ?_, ?_⟩
  · intro m f hf r c he
    have hm : m < S.messages.length := by
      rcases Nat.lt_or_ge m S.messages.length with h | h
      · exact h
      · simp [Schema.fields, List.getElem?_eq_none h] at hf
    have := hr m f hf r c he
    simp only [hm, if_true]
    split <;> omega
  · intro m
    simp only
    split
    · exact hR m ‹_›
    · omega

end GoGen
