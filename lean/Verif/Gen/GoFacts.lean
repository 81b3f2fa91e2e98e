import Verif.Gen.GoGen
import Verif.Gen.Values
import Verif.GoV2.ReadFacts
import Verif.GoV1.Api
import Verif.Props.WireFormat

/-! # Facts about the generated Go code: decoding what was encoded -/

namespace GoGen

open Gen Spec
open GoV2 (Req Outcome Err Matches)

/-- What the proofs need of a decoder: matching calls invert `wire` (in v1 only if `Bytes` is called without a
scratch slice), and `Nil` answers no (and reads nothing) unless the next byte is the nil kind. -/
structure Law (ver : Version) (rd : Codec) : Prop where
  wire : ∀ {q : Req} {i : Item}, Matches q i → (ver.bytesScratch = true ∨ ∀ s, q = .bytes s → s = []) → i.Fits →
    ∀ t, rd q (wire i ++ t) = .ok (t, .value i)
  notNil : ∀ b : Bytes, b.head? ≠ some kNil → rd .nil b = .ok (b, .notNil)

theorem law_v2 : Law v2 GoV2.readItem where
  wire := fun hm _ hf t => GoV2.read_wire hm hf t
  notNil := by
    intro b hb
    simp only [GoV2.readItem, GoV2.decodeNil_spec]
    cases b with
    | nil => rfl
    | cons c t =>
      have : c ≠ kNil := by intro h; subst h; simp at hb
      simp [this]

theorem law_v1 : Law v1 v1Codec where
  wire := by
    intro q i hm hs hf t
    have hs : ∀ s, q = .bytes s → s = [] := by
      rcases hs with h | h
      · exact absurd h (by decide)
      · exact h
    obtain ⟨q1, hq, he, hr⟩ : ∃ q1, GoV1.SameCall q1 q ∧ v1Codec q = GoV1.readItem q1 ∧ GoV1.returned q1 i = i := by
      cases hm with
      | bytes s v =>
        obtain rfl := hs _ rfl
        refine ⟨_, .bytes none [], rfl, ?_⟩
        cases v <;> simp [GoV1.returned, GoV1.bytesResult]
      | nil => exact ⟨_, .nil, rfl, rfl⟩
      | map => exact ⟨_, .map _ _ _ _, rfl, rfl⟩
      | slice => exact ⟨_, .slice _ _, rfl, rfl⟩
      | string => exact ⟨_, .string, rfl, rfl⟩
      | error => exact ⟨_, .error, rfl, rfl⟩
      | bool => exact ⟨_, .bool, rfl, rfl⟩
      | uint8 => exact ⟨_, .uint8, rfl, rfl⟩
      | uint16 => exact ⟨_, .uint16, rfl, rfl⟩
      | uint32 => exact ⟨_, .uint32, rfl, rfl⟩
      | uint64 => exact ⟨_, .uint64, rfl, rfl⟩
      | int32 => exact ⟨_, .int32, rfl, rfl⟩
      | int64 => exact ⟨_, .int64, rfl, rfl⟩
      | float32 => exact ⟨_, .float32, rfl, rfl⟩
      | float64 => exact ⟨_, .float64, rfl, rfl⟩
    rw [he, GoV1.readItem_value_iff hq]
    exact .inl ⟨i, _, hm, Props.wire_accepts hf, rfl, hr.symm⟩
  notNil := by
    intro b hb
    have := law_v2.notNil b hb
    show GoV1.readItem .nil b = _
    rw [GoV1.readItem_eq .nil (by simp) (by simp) b id]
    exact this

/-! ## The monad -/

theorem bind_def {α β : Type} (x : D α) (f : α → D β) (b : Bytes) : (x >>= f) b =
    match x b with
    | .ok r a => f a r
    | .err e => .err e
    | .panic => .panic
    | .bad => .bad
    | .overflow => .overflow := rfl

theorem bind_ok {α β : Type} {x : D α} {b r : Bytes} {a : α} (h : x b = .ok r a) (f : α → D β) :
    (x >>= f) b = f a r := by rw [bind_def, h]

@[simp] theorem pure_def {α : Type} (a : α) (b : Bytes) : (pure a : D α) b = .ok b a := rfl

theorem read_wire {ver : Version} {rd : Codec} (hl : Law ver rd) {q : Req} {i : Item} (hm : Matches q i) (hf : i.Fits)
    (hq : ver.bytesScratch = true ∨ ∀ s, q = .bytes s → s = []) (t : Bytes) : read rd q (wire i ++ t) = .ok t i := by
  simp only [read, hl.wire hm hq hf t]

theorem isNil_nil {ver : Version} {rd : Codec} (hl : Law ver rd) (t : Bytes) : isNil rd (wire .nil ++ t) = .ok t true := by
  simp only [isNil, hl.wire Matches.nil (.inr (by simp)) (by trivial) t]

theorem isNil_no {ver : Version} {rd : Codec} (hl : Law ver rd) {b : Bytes} (h : b.head? ≠ some kNil) : isNil rd b = .ok b false := by
  simp only [isNil, hl.notNil b h]

theorem wire_head (i : Item) : ∃ t, wire i = i.kind :: t := by
  cases i <;> simp [wire, Item.kind]

theorem head_wireAll {i : Item} (h : i ≠ .nil) (is : List Item) (t : Bytes) :
    (wireAll (i :: is) ++ t).head? ≠ some kNil := by
  obtain ⟨u, hu⟩ := wire_head i
  simp only [wireAll, List.flatMap_cons, hu, List.cons_append, List.head?_cons]
  cases i <;> first | exact absurd rfl h | simp [Item.kind, kNil, kSlice, kMap, kBytes, kString, kError, kBool, kUint8, kUint16, kUint32, kUint64, kInt32, kInt64, kFloat32, kFloat64]

theorem wireAll_append (as bs : List Item) : wireAll (as ++ bs) = wireAll as ++ wireAll bs := by
  simp [wireAll]

theorem wireAll_cons (i : Item) (bs : List Item) : wireAll (i :: bs) = wire i ++ wireAll bs := by
  simp [wireAll]

/-! ## Scalars -/

/-- The kinds of scalar fields. -/
def IsScalar (k : PKind) : Prop := k ≠ .message ∧ k ≠ .group

theorem ofKind_scalar {k : PKind} {s : Scalar} (h : s.OfKind k) : IsScalar k := by
  cases k <;> cases s <;> simp [Scalar.OfKind, IsScalar] at *

/-- The item a scalar field is written as. -/
def itemOf : Scalar → Item
  | .bool v => .bool v
  | .int32 v => .int32 v
  | .uint32 v => .uint32 v
  | .int64 v => .int64 v
  | .uint64 v => .uint64 v
  | .float32 v => .float32 v
  | .float64 v => .float64 v
  | .string v => .string v
  | .bytes v => .bytes v
  | .enum v => .uint32 v

theorem itemOf_fits {s : Scalar} (h : s.Fits) : (itemOf s).Fits := by
  cases s <;> simp_all [Scalar.Fits, itemOf, Item.Fits]

theorem itemOf_ne_nil (s : Scalar) : itemOf s ≠ .nil := by cases s <;> simp [itemOf]

theorem emitScalar_enum {m : Method} {k : PKind} {s : Scalar} (hs : s.OfKind k) (hm : encodeLUT k = some m) :
    emitScalar m (k = .enum) s = some [itemOf s] := by
  cases k <;> cases s <;> simp only [Scalar.OfKind] at hs <;>
    simp only [encodeLUT, Option.some.injEq] at hm <;> subst hm <;> rfl

theorem emitScalar_plain {m : Method} {k : PKind} {s : Scalar} (hs : s.OfKind k) (hm : encodeLUT k = some m)
    (hk : k ≠ .enum) : emitScalar m false s = some [itemOf s] := by
  have := emitScalar_enum hs hm
  simpa [hk] using this

theorem encodeLUT_scalar {k : PKind} (h : IsScalar k) : ∃ m, encodeLUT k = some m ∧ decodeLUT k = some m ∧
    (∃ kk, kindLUT k = some kk ∧ GetKind k = some kk) := by
  cases k <;> simp [IsScalar, encodeLUT, decodeLUT, kindLUT, GetKind] at *

theorem assign_wire {ver : Version} {rd : Codec} (hl : Law ver rd) {k : PKind} {s : Scalar} (hs : s.OfKind k) (hk : k ≠ .enum)
    {m : Method} (hm : decodeLUT k = some m) (ref : Nat) (scratch t : Bytes) (hf : s.Fits)
    (hsc : ver.bytesScratch = true ∨ scratch = []) :
    ∃ ty, FindElem k ref false = some ty ∧ assign rd m scratch ty (wire (itemOf s) ++ t) = .ok t s := by
  have key : ∀ (q : Req) (i : Item), Matches q i → (ver.bytesScratch = true ∨ ∀ s, q = .bytes s → s = []) → i.Fits → ofItem i = some s →
      (do
        let i ← read rd q
        match ofItem i with
        | some s => pure s
        | none => D.bad : D Scalar) (wire i ++ t) = .ok t s := by
    intro q i hm hq hf ho
    rw [bind_ok (read_wire hl hm hf hq t), ho]; rfl
  have hff := itemOf_fits hf
  cases k <;> cases s <;> simp only [Scalar.OfKind] at hs <;>
    simp only [decodeLUT, Option.some.injEq] at hm <;> subst hm <;>
    first
    | exact absurd rfl hk
    | (refine ⟨_, rfl, ?_⟩
       simp only [assign, Method.type, Method.req, itemOf, Bool.false_eq_true, if_false]
       exact key _ _ (by constructor) (by rcases hsc with h | rfl <;> first | exact .inl h | (right; simp)) hff rfl)

theorem assignEnum_wire {ver : Version} {rd : Codec} (hl : Law ver rd) (v : BitVec 32) (t : Bytes) :
    assignEnum rd .Uint32 (wire (.uint32 v) ++ t) = .ok t (.enum v) := by
  unfold assignEnum
  rw [if_pos (show Method.Uint32.type = GoType.uint32 from rfl), Method.req, bind_ok (read_wire hl (.uint32 v) (by trivial) (.inr (by simp)) t)]; rfl

theorem enum_cases {s : Scalar} (h : s.OfKind .enum) : ∃ v, s = .enum v := by
  cases s <;> simp [Scalar.OfKind] at h; exact ⟨_, rfl⟩

theorem decodeLUT_bytes {k : PKind} (h : decodeLUT k = some .Bytes) : k = .bytes := by
  cases k <;> simp_all [decodeLUT]

theorem decValue_one (rd : Codec) (b : Bool) (k : PKind) (r : Nat) (c : Bool) (old : V) :
    decValue rd b (.one k r c) old =
    match decodeLUT k, FindElem k r false with
    | some m, some t =>
      if k = .bytes then do
        let s ← assign rd m (if b then scratchOf old else []) t
        pure (.scalar s)
      else if k = .enum then do
        let s ← assignEnum rd m
        pure (.scalar s)
      else if m = .Bytes then D.bad
      else do
        let s ← assign rd m [] t
        pure (.scalar s)
    | _, _ => D.bad := rfl

theorem decValue_wire {ver : Version} {rd : Codec} (hl : Law ver rd) {k : PKind} {s : Scalar} (hs : s.OfKind k) (r : Nat) (c : Bool)
    (old : V) (t : Bytes) (hf : s.Fits) :
    decValue rd ver.bytesScratch (.one k r c) old (wire (itemOf s) ++ t) = .ok t (.scalar s) := by
  obtain ⟨m, _, hm, _⟩ := encodeLUT_scalar (ofKind_scalar hs)
  by_cases hk : k = .enum
  · subst hk
    obtain ⟨v, rfl⟩ := enum_cases hs
    show (do
      let s ← assignEnum rd .Uint32
      pure (.scalar s) : D V) _ = _
    rw [itemOf, bind_ok (assignEnum_wire hl v t)]; rfl
  · rw [decValue_one, hm]
    by_cases hb : k = .bytes
    · obtain ⟨ty, h1, h2⟩ := assign_wire hl hs hk hm r (if ver.bytesScratch then scratchOf old else []) t hf (by
        cases ver.bytesScratch <;> simp)
      rw [h1]; simp only []
      rw [if_pos hb]
      rw [bind_ok h2]; rfl
    · obtain ⟨ty, h1, h2⟩ := assign_wire hl hs hk hm r [] t hf (.inr rfl)
      have hmb : m ≠ .Bytes := fun h => hb (decodeLUT_bytes (h ▸ hm))
      rw [h1]; simp only []
      rw [if_neg hb, if_neg hk, if_neg hmb, bind_ok h2]; rfl

theorem decKey_wire {ver : Version} {rd : Codec} (hl : Law ver rd) {k : PKind} {s : Scalar} (hs : s.OfKind k) (hb : k ≠ .bytes)
    (t : Bytes) (hf : s.Fits) : decKey rd k (wire (itemOf s) ++ t) = .ok t s := by
  obtain ⟨m, _, hm, _⟩ := encodeLUT_scalar (ofKind_scalar hs)
  by_cases hk : k = .enum
  · subst hk
    obtain ⟨v, rfl⟩ := enum_cases hs
    exact assignEnum_wire hl v t
  · obtain ⟨ty, h1, h2⟩ := assign_wire hl hs hk hm 0 [] t hf (.inr rfl)
    have hmb : m ≠ .Bytes := fun h => hb (decodeLUT_bytes (h ▸ hm))
    simp only [decKey, hm, h1, hk, hmb, if_false]
    exact h2

end GoGen
