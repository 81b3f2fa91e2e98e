import Verif.TS.DecodeFacts

/-! # The TypeScript decoder only moves forward -/

namespace TS

/-- `x` never changes the input and moves forward, by at least `n` if it returns. -/
def Fwd {α : Type} (n : Nat) (x : D α) : Prop := ∀ d : Decoder, (x d).2.buf = d.buf ∧ d.pos ≤ (x d).2.pos ∧
  ∀ a d', x d = (.ok a, d') → d.pos + n ≤ d'.pos

theorem Fwd.bind {α β : Type} {m n : Nat} {x : D α} {f : α → D β} (hx : Fwd m x) (hf : ∀ a, Fwd n (f a)) :
    Fwd (m + n) (x >>= f) := by
  intro d
  obtain ⟨h1, h2, h3⟩ := hx d
  rw [bind_apply]
  cases h : x d with
  | mk o d1 =>
    rw [h] at h1 h2
    cases o with
    | ok a =>
      obtain ⟨g1, g2, g3⟩ := hf a d1
      have h4 := h3 a d1 h
      simp only at h1 h2 g1 g2 ⊢
      refine ⟨by rw [g1, h1], by omega, fun b d' hb => ?_⟩
      have := g3 b d' hb; omega
    | error e =>
      refine ⟨h1, h2, fun b d' hb => ?_⟩
      simp at hb

theorem Fwd.mono {α : Type} {m n : Nat} {x : D α} (hx : Fwd m x) (h : n ≤ m) : Fwd n x := fun d =>
  ⟨(hx d).1, (hx d).2.1, fun a d' e => by have := (hx d).2.2 a d' e; omega⟩

theorem Fwd.pure {α : Type} (a : α) : Fwd 0 (pure a : D α) := fun d =>
  ⟨rfl, Nat.le_refl _, fun _ _ h => by rw [pure_apply] at h; simp only [Prod.mk.injEq] at h; rw [← h.2]; omega⟩

theorem Fwd.throw {α : Type} (n : Nat) (e : JsError) : Fwd n (Js.throw e : D α) := fun d =>
  ⟨rfl, Nat.le_refl _, fun _ _ h => by simp [Js.throw] at h⟩

theorem skip_fwd (n : Nat) : Fwd n (skip n) := fun d =>
  ⟨rfl, Nat.le_add_right _ _, fun _ _ h => by
    simp only [skip, Js.modify, Prod.mk.injEq] at h; rw [← h.2]; exact Nat.le_refl _⟩

theorem peek_fwd : Fwd 0 peek := fun d =>
  ⟨rfl, Nat.le_refl _, fun _ _ h => by simp only [peek, Prod.mk.injEq] at h; rw [← h.2]; omega⟩

theorem pop_fwd : Fwd 1 pop := (peek_fwd.bind fun _ => (skip_fwd 1).bind fun _ => Fwd.pure _).mono (by omega)

theorem validateKind_fwd (k : Byte) (err : JsError) : Fwd 1 (validateKind k err) :=
  (peek_fwd.bind (n := 1) fun a => by
    split
    · exact skip_fwd 1
    · exact Fwd.throw _ _).mono (by omega)

theorem varintRounds_fwd (signed : Bool) : ∀ (n : Nat) (num : Int) (shift : Nat), Fwd 0 (varintRounds signed n num shift) := by
  intro n
  induction n with
  | zero => intro num shift; exact Fwd.pure _
  | succ n ih =>
    intro num shift
    unfold varintRounds
    refine (pop_fwd.bind (n := 0) fun a => ?_).mono (by omega)
    cases a with
    | none => exact ih _ _
    | some b =>
      simp only
      split
      · split <;> exact Fwd.pure _
      · exact ih _ _

theorem uint16Rounds_fwd : ∀ (n : Nat) (num : Nat) (shift : Nat), Fwd 0 (uint16Rounds n num shift) := by
  intro n
  induction n with
  | zero => intro num shift; exact Fwd.pure _
  | succ n ih =>
    intro num shift
    unfold uint16Rounds
    refine (pop_fwd.bind (n := 0) fun a => ?_).mono (by omega)
    cases a with
    | none => exact ih _ _
    | some b =>
      simp only
      split
      · exact Fwd.pure _
      · exact ih _ _

theorem readView_fwd (n : Nat) : Fwd 0 (readView n) := fun d => by
  unfold readView
  cases dataView d.buf.buffer (d.buf.off + d.pos) n with
  | none => exact ⟨rfl, Nat.le_refl _, fun _ _ h => by simp at h⟩
  | some bs => exact ⟨rfl, Nat.le_refl _, fun _ _ h => by simp only [Prod.mk.injEq] at h; rw [← h.2]; omega⟩

theorem sliceAhead_fwd (n : Int) : Fwd 0 (sliceAhead n) := fun d =>
  ⟨rfl, Nat.le_refl _, fun _ _ h => by simp only [sliceAhead, Prod.mk.injEq] at h; rw [← h.2]; omega⟩

theorem readVarint_fwd (n : Nat) (s : Bool) : Fwd 0 (readVarint n s) := varintRounds_fwd s n 0 0

theorem decUint32_fwd : Fwd 1 decUint32 := (validateKind_fwd _ _).bind fun _ => readVarint_fwd _ _

theorem after_size {α : Type} (f : Bytes → α) :
    Fwd 0 (do let size ← decUint32; let value ← sliceAhead size; skip size.toNat; return f value : D α) :=
  (decUint32_fwd.bind (n := 0) fun size => ((sliceAhead_fwd size).bind (n := 0) fun v =>
    ((skip_fwd _).bind (n := 0) fun _ => Fwd.pure _).mono (by omega)).mono (by omega)).mono (by omega)

theorem map_fwd {α β : Type} {n : Nat} {x : D α} (f : α → β) (hx : Fwd n x) : Fwd n (do return f (← x) : D β) :=
  hx.bind (n := 0) fun _ => Fwd.pure _

theorem view_fwd {α : Type} (n : Nat) (f : Bytes → α) : Fwd 0 (do let bs ← readView n; skip n; return f bs : D α) :=
  ((readView_fwd n).bind (n := 0) fun _ => ((skip_fwd n).bind (n := 0) fun _ => Fwd.pure _).mono (by omega)).mono (by omega)

/-- All methods but `null` and `any`. -/
theorem read_fwd1 (js : Platform) (q : Req) (hq : q ≠ .null ∧ q ≠ .any) : Fwd 1 (read js q) := by
  cases q with
  | null => exact absurd rfl hq.1
  | any => exact absurd rfl hq.2
  | array k =>
    exact map_fwd _ (((validateKind_fwd _ _).bind fun _ => ((validateKind_fwd _ _).bind fun _ => decUint32_fwd)).mono (by omega))
  | map k v =>
    exact map_fwd _ (((validateKind_fwd _ _).bind fun _ => ((validateKind_fwd _ _).bind fun _ =>
      ((validateKind_fwd _ _).bind fun _ => decUint32_fwd))).mono (by omega))
  | uint8Array => exact map_fwd _ ((validateKind_fwd _ _).bind fun _ => after_size (fun x => x))
  | string => exact map_fwd _ ((validateKind_fwd _ _).bind fun _ => after_size _)
  | error =>
    refine map_fwd _ ((validateKind_fwd _ _).bind (n := 0) fun _ => (pop_fwd.bind (n := 0) fun a => ?_).mono (by omega))
    split
    · exact (Fwd.throw 0 _).bind (n := 0) fun _ => after_size _
    · exact after_size _
  | boolean =>
    exact map_fwd _ ((validateKind_fwd _ _).bind (n := 0) fun _ => (pop_fwd.bind (n := 0) fun a => Fwd.pure _).mono (by omega))
  | uint8 => exact map_fwd _ ((validateKind_fwd _ _).bind fun _ => view_fwd 1 _)
  | uint16 => exact map_fwd _ ((validateKind_fwd _ _).bind fun _ => uint16Rounds_fwd _ _ _)
  | uint32 => exact map_fwd _ decUint32_fwd
  | uint64 => exact map_fwd _ ((validateKind_fwd _ _).bind fun _ => readVarint_fwd _ _)
  | int32 => exact map_fwd _ ((validateKind_fwd _ _).bind fun _ => readVarint_fwd _ _)
  | int64 => exact map_fwd _ ((validateKind_fwd _ _).bind fun _ => readVarint_fwd _ _)
  | float32 => exact map_fwd _ ((validateKind_fwd _ _).bind fun _ => view_fwd 4 _)
  | float64 => exact map_fwd _ ((validateKind_fwd _ _).bind fun _ => view_fwd 8 _)

theorem probe_spec (k : Byte) (d : Decoder) :
    (do
      if (← peek) = some k then
        skip 1
        return .bool true
      return .bool false : D Val) d =
    if d.rest.head? = some k then (.ok (.bool true), d.adv 1) else (.ok (.bool false), d) := by
  rw [bind_ok (peek_spec d)]
  by_cases h : d.rest.head? = some k
  · rw [if_pos h, if_pos h]; rfl
  · rw [if_neg h, if_neg h]; rfl

theorem read_null (js : Platform) (d : Decoder) : read js .null d =
    if d.rest.head? = some Kind.Null then (.ok (.bool true), d.adv 1) else (.ok (.bool false), d) := by
  show (decNull >>= fun n => (pure (.bool n) : D Val)) d = _
  unfold decNull
  rw [bind_assoc, bind_ok (peek_spec d)]
  by_cases h : d.rest.head? = some Kind.Null
  · rw [if_pos h, if_pos h]; rfl
  · rw [if_neg h, if_neg h]; rfl

theorem read_any (js : Platform) (d : Decoder) : read js .any d =
    if d.rest.head? = some Kind.Any then (.ok (.bool true), d.adv 1) else (.ok (.bool false), d) := by
  show (decAny >>= fun n => (pure (.bool n) : D Val)) d = _
  unfold decAny
  rw [bind_assoc, bind_ok (peek_spec d)]
  by_cases h : d.rest.head? = some Kind.Any
  · rw [if_pos h, if_pos h]; rfl
  · rw [if_neg h, if_neg h]; rfl

theorem read_fwd (js : Platform) (q : Req) (d : Decoder) :
    (read js q d).2.buf = d.buf ∧ d.pos ≤ (read js q d).2.pos := by
  by_cases hq : q ≠ .null ∧ q ≠ .any
  · exact ⟨(read_fwd1 js q hq d).1, (read_fwd1 js q hq d).2.1⟩
  · have : q = .null ∨ q = .any := by
      by_cases h : q = .null
      · exact .inl h
      · by_cases h' : q = .any
        · exact .inr h'
        · exact absurd ⟨h, h'⟩ hq
    rcases this with rfl | rfl
    · rw [read_null]; split
      · exact ⟨rfl, Nat.le_add_right _ _⟩
      · exact ⟨rfl, Nat.le_refl _⟩
    · rw [read_any]; split
      · exact ⟨rfl, Nat.le_add_right _ _⟩
      · exact ⟨rfl, Nat.le_refl _⟩

theorem read_progress (js : Platform) (q : Req) (d d' : Decoder) (x : Val) (h : read js q d = (.ok x, d'))
    (hx : x ≠ .bool false) : d.pos < d'.pos := by
  by_cases hq : q ≠ .null ∧ q ≠ .any
  · exact (read_fwd1 js q hq d).2.2 x d' h
  · have : q = .null ∨ q = .any := by
      by_cases h : q = .null
      · exact .inl h
      · by_cases h' : q = .any
        · exact .inr h'
        · exact absurd ⟨h, h'⟩ hq
    rcases this with rfl | rfl
    · rw [read_null] at h; split at h
      · simp only [Prod.mk.injEq] at h; rw [← h.2]; exact Nat.lt_succ_self _
      · simp only [Prod.mk.injEq, Except.ok.injEq] at h; exact absurd h.1.symm hx
    · rw [read_any] at h; split at h
      · simp only [Prod.mk.injEq] at h; rw [← h.2]; exact Nat.lt_succ_self _
      · simp only [Prod.mk.injEq, Except.ok.injEq] at h; exact absurd h.1.symm hx

end TS
