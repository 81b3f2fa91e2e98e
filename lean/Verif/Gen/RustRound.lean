import Verif.Gen.RustGen
import Verif.Gen.RustValues
import Verif.Gen.GoMain
import Verif.Rust.Safe
import Verif.Props.WireFormat

/-! # Generated Rust code: `decode` inverts `encode` -/

namespace RustGen

open Gen Spec
open Rust (Cursor Std Dec DecodingError Item.KindsOk Item.Utf8Ok)
open GoGen (idx isValue isSlice isMsg itemOf setAll setAll_get setAll_length wireAll_append wireAll_cons IsScalar)

/-! ## Running code on encoded items -/

theorem bind_def {α β : Type} (x : D α) (f : α → D β) (c : Cursor) : (x >>= f) c =
    match x c with
    | (.ok a, c) => f a c
    | (.err e, c) => (.err e, c)
    | (.panic, c) => (.panic, c)
    | (.bad, c) => (.bad, c)
    | (.overflow, c) => (.overflow, c) := rfl

theorem bind_ok {α β : Type} {x : D α} {c c1 : Cursor} {a : α} (h : x c = (.ok a, c1)) (f : α → D β) :
    (x >>= f) c = f a c1 := by rw [bind_def, h]

theorem call_ok {α : Type} {x : Dec α} {c c1 : Cursor} {a : α} (h : x c = (.ok a, c1)) : call x c = (.ok a, c1) := by
  rw [call, h]

/-- An item generated code writes: no nil, no error, and what the encoder calls need. -/
structure Sound (i : Item) : Prop where
  notNil : i ≠ .nil
  notError : ∀ m, i ≠ .error m
  fits : i.Fits
  utf8 : Item.Utf8Ok i
  kinds : Item.KindsOk i

/-- Input that is empty or begins with something else than nil or an error. -/
def Clean (t : Bytes) : Prop := t = [] ∨ ∃ a b u, t = a :: b :: u ∧ a ≠ kNil ∧ a ≠ kError

theorem clean_wire {i : Item} (h1 : i ≠ .nil) (h2 : ∀ m, i ≠ .error m) (t : Bytes) : Clean (wire i ++ t) := by
  right
  have leb : ∀ n, ∃ a u, leb128 n = a :: u := by
    intro n; rw [leb128]; split <;> exact ⟨_, _, rfl⟩
  cases i with
  | nil => exact absurd rfl h1
  | error m => exact absurd rfl (h2 m)
  | map size k v => exact ⟨_, _, _, rfl, by decide, by decide⟩
  | slice size k => exact ⟨_, _, _, rfl, by decide, by decide⟩
  | bytes v => exact ⟨_, _, _, rfl, by decide, by decide⟩
  | string v => exact ⟨_, _, _, rfl, by decide, by decide⟩
  | bool v => exact ⟨_, _, _, rfl, by decide, by decide⟩
  | uint8 v => exact ⟨_, _, _, rfl, by decide, by decide⟩
  | uint16 v =>
    obtain ⟨a, u, h⟩ := leb v.toNat
    exact ⟨kUint16, a, u ++ t, by simp [wire, h], by decide, by decide⟩
  | uint32 v =>
    obtain ⟨a, u, h⟩ := leb v.toNat
    exact ⟨kUint32, a, u ++ t, by simp [wire, h], by decide, by decide⟩
  | uint64 v =>
    obtain ⟨a, u, h⟩ := leb v.toNat
    exact ⟨kUint64, a, u ++ t, by simp [wire, h], by decide, by decide⟩
  | int32 v =>
    obtain ⟨a, u, h⟩ := leb (zigzag v.toInt)
    exact ⟨kInt32, a, u ++ t, by simp [wire, h], by decide, by decide⟩
  | int64 v =>
    obtain ⟨a, u, h⟩ := leb (zigzag v.toInt)
    exact ⟨kInt64, a, u ++ t, by simp [wire, h], by decide, by decide⟩
  | float32 v => exact ⟨_, _, _, rfl, by decide, by decide⟩
  | float64 v => exact ⟨_, _, _, rfl, by decide, by decide⟩

theorem clean_items {is : List Item} (h : ∀ i ∈ is, Sound i) {t : Bytes} (ht : Clean t) : Clean (wireAll is ++ t) := by
  cases is with
  | nil => exact ht
  | cons i is =>
    rw [wireAll_cons, List.append_assoc]
    exact clean_wire (h i (by simp)).notNil (h i (by simp)).notError _

/-- `x` reads exactly these items, whatever clean input follows, and returns `a`. -/
def Yields {α : Type} (x : D α) (is : List Item) (a : α) : Prop :=
  ∀ (c : Cursor) (t : Bytes), c.pos ≤ c.vec.length → c.rest = wireAll is ++ t → Clean t →
    x c = (.ok a, c.adv (wireAll is).length)

theorem adv_le {c : Cursor} {p t : Bytes} (h : c.rest = p ++ t) (hp : c.pos ≤ c.vec.length) :
    (c.adv p.length).pos ≤ (c.adv p.length).vec.length := by
  have := congrArg List.length h
  simp only [Cursor.rest, List.length_drop, List.length_append] at this
  simp only [Cursor.adv]; omega

theorem adv_drop {c : Cursor} {p t : Bytes} (h : c.rest = p ++ t) : (c.adv p.length).rest = t := by
  rw [Rust.adv_rest, h, List.drop_left]

theorem Yields.pure {α : Type} (a : α) : Yields (pure a : D α) [] a := by
  intro c t _ _ _; rfl

theorem Yields.bind {α β : Type} {x : D α} {f : α → D β} {is js : List Item} {a : α} {b : β} (hx : Yields x is a)
    (hf : Yields (f a) js b) (hj : ∀ j ∈ js, Sound j) : Yields (x >>= f) (is ++ js) b := by
  intro c t hp hr ht
  rw [wireAll_append, List.append_assoc] at hr
  rw [bind_ok (hx c _ hp hr (clean_items hj ht)), hf _ t (adv_le hr hp) (adv_drop hr) ht, wireAll_append, Rust.adv_adv,
    List.length_append]

theorem Yields.map {α β : Type} {x : D α} {f : α → D β} {is : List Item} {a : α} {b : β} (hx : Yields x is a)
    (hf : ∀ c, f a c = (.ok b, c)) : Yields (x >>= f) is b := by
  intro c t hp hr ht
  rw [bind_ok (hx c t hp hr ht), hf]

theorem yields_call {α : Type} {x : Dec α} {i : Item} {a : α}
    (h : ∀ (c : Cursor) (t : Bytes), c.rest = wire i ++ t → x c = (.ok a, c.adv (wire i).length)) : Yields (call x) [i] a := by
  intro c t _ hr _
  rw [show wireAll [i] = wire i by simp [wireAll]] at hr ⊢
  exact call_ok (h c t hr)

/-- Reading a scalar. -/
theorem reads {α : Type} (std : Std) {q : Rust.Req} {x : Dec α} {g : α → Item} (hx : Rust.readItem std q = (do return g (← x)))
    {a : α} (hg : ∀ b, g b = g a → b = a) (hm : Rust.Matches q (g a)) (hu : Item.Utf8Ok (g a)) (hf : (g a).Fits) : Yields (call x) [g a] a := by
  apply yields_call
  intro c t hr
  have := (Rust.readItem_value_iff std q c (c.adv (wire (g a)).length) (g a)).mpr (.inl ⟨_, t, hm, Props.wire_accepts hf, hu, hr, rfl⟩)
  rw [hx, Rust.map_ok_iff] at this
  obtain ⟨b, h1, h2⟩ := this
  rw [h1, hg b h2.symm]

theorem decScalar_yields (std : Std) {S : Schema} {k : PKind} {m : Method} {s : Scalar} {r : Nat} (hs : s.OfKind k) (he : k ≠ .enum)
    (hm : decodeLUT k = some m) (hr : s.RustOk S r) : Yields (decScalar std m) [itemOf s] s := by
  cases s <;> simp only [Scalar.RustOk] at hr <;> cases k <;> simp [Scalar.OfKind] at hs he <;>
    simp [decodeLUT] at hm <;> subst hm <;> simp only [decScalar, itemOf]
  all_goals first
    | exact Yields.map (reads std (q := .bool) (g := .bool) rfl (by simp) (.bool _) trivial trivial) (fun _ => rfl)
    | exact Yields.map (reads std (q := .i32) (g := .int32) rfl (by simp) (.i32 _) trivial trivial) (fun _ => rfl)
    | exact Yields.map (reads std (q := .u32) (g := .uint32) rfl (by simp) (.u32 _) trivial trivial) (fun _ => rfl)
    | exact Yields.map (reads std (q := .i64) (g := .int64) rfl (by simp) (.i64 _) trivial trivial) (fun _ => rfl)
    | exact Yields.map (reads std (q := .u64) (g := .uint64) rfl (by simp) (.u64 _) trivial trivial) (fun _ => rfl)
    | exact Yields.map (reads std (q := .f32) (g := .float32) rfl (by simp) (.f32 _) trivial trivial) (fun _ => rfl)
    | exact Yields.map (reads std (q := .f64) (g := .float64) rfl (by simp) (.f64 _) trivial trivial) (fun _ => rfl)
    | exact Yields.map (reads std (q := .string) (g := .string) rfl (by simp) (.string _) hr.1 hr.2) (fun _ => rfl)
    | exact Yields.map (reads std (q := .bytes) (g := .bytes) rfl (by simp) (.bytes _) trivial hr) (fun _ => rfl)

theorem sound_itemOf {S : Schema} {s : Scalar} {r : Nat} (h : s.RustOk S r) : Sound (itemOf s) := by
  cases s <;> simp only [Scalar.RustOk] at h <;>
    constructor <;> simp_all [itemOf, Item.Fits, Item.Utf8Ok, Item.KindsOk]

theorem lut_scalar {k : PKind} (h : IsScalar k) : ∃ m, encodeLUT k = some m ∧ decodeLUT k = some m ∧
    (∃ kk, kindLUT k = some kk ∧ getKind k = some kk) ∧ (k ≠ .enum → findElem k r false = some m.type) := by
  cases k <;> simp [IsScalar] at h <;> simp [encodeLUT, decodeLUT, kindLUT, getKind, findElem, typeLUT, Method.type]

theorem getKind_ok {k : PKind} (h : k ≠ .group) : ∃ kk, getKind k = some kk := by
  cases k <;> simp [getKind, kindLUT] at *

/-- The reads of all scalars other than enums. -/
theorem assign_yields (std : Std) {S : Schema} {k : PKind} {m : Method} {s : Scalar} {r r' : Nat} {t : Ty} (hs : s.OfKind k) (he : k ≠ .enum)
    (hm : decodeLUT k = some m) (ht : findElem k r' false = some t) (hr : s.RustOk S r) : Yields (assign std m t) [itemOf s] s := by
  have h : m.type = t := by
    obtain ⟨m', _, h2, _, h4⟩ := lut_scalar (r := r') (GoGen.ofKind_scalar hs)
    rw [hm] at h2; cases h2
    have := h4 he
    rw [ht] at this; exact (Option.some.inj this).symm
  rw [assign, if_pos h]
  exact decScalar_yields std hs he hm hr

theorem enum_yields (std : Std) {S : Schema} {v : BitVec 32} {r : Nat} {e : DecodingError} (h : (Scalar.enum v).RustOk S r) :
    Yields (do
      let n ← call (Rust.decode_u32 std)
      let s ← okOr (try_from S r n) e
      pure (.scalar s) : D V) [itemOf (.enum v)] (.scalar (.enum v)) := by
  refine Yields.map (a := v) (reads std (q := .u32) (g := .uint32) rfl (by simp) (.u32 _) trivial trivial) ?_
  intro c
  simp only [Scalar.RustOk] at h
  have : try_from S r v = some (.enum v) := by rw [try_from, discriminants, if_pos (by simpa using h)]
  rw [this]; rfl

theorem decValue_yields (std : Std) {S : Schema} {k : PKind} {r : Nat} {c : Bool} {s : Scalar} (hs : s.OfKind k) (hr : s.RustOk S r) :
    Yields (decValue std S (.one k r c)) [itemOf s] (.scalar s) := by
  obtain ⟨m, h1, h2, h3, h4⟩ := lut_scalar (r := r) (GoGen.ofKind_scalar hs)
  by_cases he : k = .enum
  · subst he
    obtain ⟨v, rfl⟩ := GoGen.enum_cases hs
    exact enum_yields std hr
  · have : decValue std S (.one k r c) = (do
        let s ← assign std m m.type
        pure (.scalar s)) := by
      unfold decValue
      simp only [Field.Kind, h2, findValue, h4 he]
      rw [if_neg he]
    rw [this]
    exact Yields.map (assign_yields std hs he h2 (h4 he) hr) (fun _ => rfl)

/-! ## Encoding scalars -/

theorem emit_form {k : PKind} {r : Nat} {s : Scalar} {m : Method} (hs : s.OfKind k) (hm : encodeLUT k = some m) {form : Form}
    {t : Ty} (ht : findElem k r false = some t)
    (hf : form = if k = .enum then .cast else if k = .string ∨ k = .bytes then .ref else .own) :
    emitScalar m form t s = some [itemOf s] := by
  subst hf
  cases s <;> cases k <;> simp [Scalar.OfKind] at hs <;> simp [encodeLUT] at hm <;> simp [findElem, typeLUT] at ht <;>
    subst hm <;> subst ht <;> simp [emitScalar, accepts, callEnc, itemOf]

/-! ## Field classification -/

/-- The call that writes a value field. -/
def callOf (f : Field) (i : Nat) : ValueCall :=
  ⟨(encodeLUT f.Kind).getD .bool, i, if f.Kind = .enum then .cast else if f.Kind = .string ∨ f.Kind = .bytes then .ref else .own⟩

def calls : Nat → List Field → List ValueCall
  | _, [] => []
  | i, f :: fs => if isValue f then callOf f i :: calls (i + 1) fs else calls (i + 1) fs

theorem classify {f : Field} (h : f.RustSupported) :
    (f.Cardinality = .repeated ∧ f.IsMap = false ∧ isSlice f = true ∧ isValue f = false ∧ isMsg f = false) ∨
    (¬ (f.Cardinality = .repeated ∧ f.IsMap = false) ∧ encodeLUT f.Kind = none ∧ decodeLUT f.Kind = none ∧
      f.Kind = .message ∧ isSlice f = false ∧ isValue f = false ∧ isMsg f = true) ∨
    (¬ (f.Cardinality = .repeated ∧ f.IsMap = false) ∧ (∃ m, encodeLUT f.Kind = some m ∧ decodeLUT f.Kind = some m) ∧
      isSlice f = false ∧ isValue f = true ∧ isMsg f = false) := by
  cases f with
  | one k r c =>
    cases c <;> cases k <;>
      simp [Field.RustSupported, Field.Cardinality, Field.IsMap, Field.Kind, isSlice, isValue, isMsg, encodeLUT, decodeLUT] at *
  | many k r => left; exact ⟨rfl, rfl, rfl, rfl, rfl⟩
  | map kk k r => right; left; exact ⟨by simp [Field.IsMap], rfl, rfl, rfl, rfl, rfl, rfl⟩

theorem encLoop_eq : ∀ (fs : List Field) (i : Nat), (∀ f ∈ fs, f.RustSupported) →
    encLoop i fs = some ⟨idx isMsg i fs, idx isSlice i fs, calls i fs⟩ := by
  intro fs
  induction fs with
  | nil => intro i _; rfl
  | cons f fs ih =>
    intro i h
    have h1 := ih (i + 1) (fun g hg => h g (by simp [hg]))
    rw [encLoop, h1]
    rcases classify (h f (by simp)) with ⟨a, b, c, d, e⟩ | ⟨a, b, c, d, e, g, h⟩ | ⟨a, ⟨m, b, c⟩, d, e, g⟩
    · simp [idx, calls, a, b, c, d, e]
    · simp only [bind, Option.bind, if_neg a, d]
      simp [idx, calls, e, g, h, encodeLUT]
    · simp only [bind, Option.bind, if_neg a, b]
      by_cases hk : f.Kind = .enum
      · simp [idx, calls, d, e, g, callOf, hk]; rw [hk] at b; simp [b]
      · by_cases hk2 : f.Kind = .string
        · simp [idx, calls, d, e, g, callOf, hk2]; rw [hk2] at b; simp [b]
        · by_cases hk3 : f.Kind = .bytes
          · simp [idx, calls, d, e, g, callOf, hk3]; rw [hk3] at b; simp [b]
          · simp [idx, calls, d, e, g, callOf, hk, hk2, hk3, b]

theorem decLoop_eq : ∀ (fs : List Field) (i : Nat), (∀ f ∈ fs, f.RustSupported) →
    decLoop i fs = some ⟨idx isMsg i fs, idx isSlice i fs, idx isValue i fs⟩ := by
  intro fs
  induction fs with
  | nil => intro i _; rfl
  | cons f fs ih =>
    intro i h
    have h1 := ih (i + 1) (fun g hg => h g (by simp [hg]))
    rw [decLoop, h1]
    rcases classify (h f (by simp)) with ⟨a, b, c, d, e⟩ | ⟨a, b, c, d, e, g, h⟩ | ⟨a, ⟨m, b, c⟩, d, e, g⟩
    · simp [idx, a, b, c, d, e]
    · simp only [bind, Option.bind, if_neg a, d]
      simp [idx, e, g, h, decodeLUT]
    · simp only [bind, Option.bind, if_neg a, c]
      simp [idx, d, e, g]

/-- The chain of value calls, by field index. -/
def emitAt (ps : List Part) (fields : List Field) (j : Nat) : Option (List Item) :=
  match fields[j]? with
  | some f => emitValue ps (callOf f j)
  | none => none

theorem concat_calls (ps : List Part) (fields : List Field) : ∀ (fs : List Field) (i : Nat), fields.drop i = fs →
    concatM (emitValue ps) (calls i fs) = concatM (emitAt ps fields) (idx isValue i fs) := by
  intro fs
  induction fs with
  | nil => intros; rfl
  | cons f fs ih =>
    intro i h
    have hi : fields[i]? = some f := by
      have := congrArg (fun l => l[0]?) h
      simpa using this
    have h1 : fields.drop (i + 1) = fs := by
      have := congrArg List.tail h
      simpa using this
    simp only [calls, idx]
    split
    · rw [concatM, concatM, ih _ h1]
      simp only [emitAt, hi]
    · exact ih _ h1

theorem forFields_spec {init : Field → D V} {fields : List Field} {em : Nat → Option (List Item)} {T : List V} :
    ∀ (is : List Nat),
    (∀ i ∈ is, ∃ f v items, fields[i]? = some f ∧ T[i]? = some v ∧ em i = some items ∧
      (∀ j ∈ items, Sound j) ∧ Yields (init f) items v) →
    ∃ items, concatM em is = some items ∧ (∀ j ∈ items, Sound j) ∧
      ∀ x, Yields (forFields init fields is x) items (setAll T is x) := by
  intro is
  induction is with
  | nil => intro _; exact ⟨[], rfl, by simp, fun x => Yields.pure x⟩
  | cons i is ih =>
    intro h
    obtain ⟨f, v, items, h1, h3, h4, h5, h6⟩ := h i (by simp)
    obtain ⟨items', h7, h8, h9⟩ := ih (fun j hj => h j (by simp [hj]))
    refine ⟨items ++ items', by simp [concatM, h4, h7], ?_, ?_⟩
    · intro j hj
      rcases List.mem_append.mp hj with hj | hj
      · exact h5 j hj
      · exact h8 j hj
    · intro x
      rw [forFields, h1]
      refine Yields.bind h6 ?_ h8
      rw [setAll, h3]
      exact h9 _

end RustGen
