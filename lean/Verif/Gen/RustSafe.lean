import Verif.Gen.RustMain
import Verif.Gen.GoSafe
import Verif.Rust.Safe

/-! # Generated Rust code on arbitrary input -/

namespace RustGen

open Gen Spec
open Rust (Cursor Std Dec DecodingError Item.Utf8Ok)
open GoGen (Up Deep deep_up idx isMsg isSlice isValue idx_of ofElems_iff)

/-- How many bytes are left. -/
def left (c : Cursor) : Nat := c.vec.length - c.pos

/-- On every cursor inside its input `x` compiles, does not panic, leaves the input alone and the cursor inside it, not further back;
a returned value has property `P`, and with `strict` something has been read; if it is too deep, `O` holds of the number of
unread bytes. -/
def Safe {α : Type} (strict : Bool) (x : D α) (O : Nat → Prop) (P : α → Prop) : Prop := ∀ c : Cursor, c.pos ≤ c.vec.length →
  (x c).2.vec = c.vec ∧ c.pos ≤ (x c).2.pos ∧ (x c).2.pos ≤ c.vec.length ∧
  match (x c).1 with
  | .ok a => P a ∧ (strict = true → c.pos < (x c).2.pos)
  | .err _ => True
  | .panic => False
  | .bad => False
  | .overflow => O (left c)

theorem safe_pure {α : Type} {O : Nat → Prop} {P : α → Prop} {a : α} (h : P a) : Safe false (pure a : D α) O P :=
  fun c hc => ⟨rfl, Nat.le_refl _, hc, h, by simp⟩

theorem safe_bind {α β : Type} {s1 s2 : Bool} {x : D α} {f : α → D β} {O O' : Nat → Prop} {P : α → Prop} {Q : β → Prop}
    (hO : Up O) (hs : ∀ n, O' n → if s1 then O (n + 1) else O n)
    (hx : Safe s1 x O P) (hf : ∀ a, P a → Safe s2 (f a) O' Q) : Safe (s1 || s2) (x >>= f) O Q := by
  intro c hc
  rw [bind_def]
  have h1 := hx c hc
  cases hxc : x c with
  | mk o c1 =>
    rw [hxc] at h1
    obtain ⟨hv, hp1, hp2, h1⟩ := h1
    cases o with
    | ok a =>
      simp only at h1 ⊢
      obtain ⟨hp, hst⟩ := h1
      simp only at hv hp1 hp2 hst
      obtain ⟨k1, k2, k3, h2⟩ := hf a hp c1 (by rw [hv]; exact hp2)
      rw [hv] at k1 k3
      refine ⟨k1, by omega, k3, ?_⟩
      cases ho : (f a c1).1 with
      | ok b =>
        rw [ho] at h2
        refine ⟨h2.1, ?_⟩
        intro h
        cases s1
        · have := h2.2 (by simpa using h); omega
        · have := hst rfl; omega
      | err => trivial
      | panic => rw [ho] at h2; exact h2
      | bad => rw [ho] at h2; exact h2
      | overflow =>
        rw [ho] at h2
        have h3 := hs _ h2
        unfold left at h3 ⊢
        rw [hv] at h3
        cases s1
        · exact hO.le (a := c.vec.length - c1.pos) (by omega) (by simpa using h3)
        · have := hst rfl
          exact hO.le (a := c.vec.length - c1.pos + 1) (by omega) (by simpa using h3)
    | err e => exact ⟨hv, hp1, hp2, trivial⟩
    | panic => exact h1.elim
    | bad => exact h1.elim
    | overflow => exact ⟨hv, hp1, hp2, h1⟩

theorem safe_seq {α β : Type} {x : D α} {f : α → D β} {O : Nat → Prop} {P : α → Prop} {Q : β → Prop}
    (hO : Up O) (hx : Safe false x O P) (hf : ∀ a, P a → Safe false (f a) O Q) : Safe false (x >>= f) O Q := by
  have := safe_bind (s1 := false) (s2 := false) hO (O' := O) (by simp) hx hf
  simpa using this

theorem Safe.mono {α : Type} {s : Bool} {x : D α} {O O' : Nat → Prop} {P Q : α → Prop} (h : Safe s x O P) (ho : ∀ n, O n → O' n)
    (hq : ∀ a, P a → Q a) : Safe false x O' Q := by
  intro c hc
  obtain ⟨h1, h2, h3, h4⟩ := h c hc
  refine ⟨h1, h2, h3, ?_⟩
  cases hx : (x c).1 with
  | ok a => rw [hx] at h4; exact ⟨hq _ h4.1, by simp⟩
  | err => trivial
  | panic => rw [hx] at h4; exact h4
  | bad => rw [hx] at h4; exact h4
  | overflow => rw [hx] at h4; exact ho _ h4

theorem Safe.weaken {α : Type} {s : Bool} {x : D α} {O : Nat → Prop} {P : α → Prop} (h : Safe s x O P) : Safe false x O P :=
  h.mono (fun _ => id) (fun _ => id)

theorem Safe.deep {α : Type} {x : D α} {O O' : Nat → Prop} {P : α → Prop} (h : Safe false x O P) (ho : ∀ n, O n → O' n) :
    Safe false x O' P := h.mono ho (fun _ => id)

theorem Safe.imp {α : Type} {x : D α} {O : Nat → Prop} {P Q : α → Prop} (h : Safe false x O P) (hq : ∀ a, P a → Q a) :
    Safe false x O Q := h.mono (fun _ => id) hq

theorem safe_throw {α : Type} {O : Nat → Prop} {P : α → Prop} (e : DecodingError) : Safe false (D.throw e : D α) O P :=
  fun _ hc => ⟨rfl, Nat.le_refl _, hc, trivial⟩

theorem safe_okOr {α : Type} {O : Nat → Prop} {P : α → Prop} {x : Option α} (e : DecodingError) (h : ∀ a, x = some a → P a) :
    Safe false (okOr x e) O P := by
  cases x with
  | none => exact safe_throw e
  | some a => exact safe_pure (h a rfl)

theorem fst_map {α : Type} {std : Std} {q : Rust.Req} {x : Dec α} {g : α → Item} (hx : Rust.readItem std q = (do return g (← x))) (c : Cursor) :
    Rust.readItem std q c = match x c with
      | (.ok a, c) => (.ok (g a), c)
      | (.err e, c) => (.err e, c)
      | (.panic, c) => (.panic, c) := by
  rw [hx, Rust.bind_apply]
  rcases x c with ⟨o, c1⟩
  cases o <;> rfl

/-- A decoder call whose result is an item. -/
theorem safe_call {α : Type} {std : Std} {q : Rust.Req} {x : Dec α} {g : α → Item} {O : Nat → Prop}
    (hx : Rust.readItem std q = (do return g (← x))) :
    Safe true (call x) O (fun a => Rust.Matches q (g a) ∧ (g a).Fits ∧ Item.Utf8Ok (g a)) := by
  intro c hc
  have hg := Rust.readItem_good std q c
  have hv := Rust.readItem_value_iff std q c
  rw [fst_map hx c] at hg
  simp only [fst_map hx c] at hv
  unfold call
  rcases hxc : x c with ⟨o, c1⟩
  rw [hxc] at hg
  simp only [hxc] at hv
  cases o with
  | ok a =>
    obtain ⟨_, h2, h3⟩ := hg
    obtain ⟨h3, h4⟩ := h3 hc
    refine ⟨h2, h3, h4, ?_⟩
    rcases (hv c1 (g a)).mp rfl with ⟨p, t, hm, ha, hu, _, rfl⟩ | ⟨rfl, hb, b, t, _, _, rfl⟩
    · have := ha.pos
      exact ⟨⟨hm, GoGen.accepts_fits ha, hu⟩, fun _ => by simp [Cursor.adv]; omega⟩
    · refine ⟨?_, fun _ => by simp [Cursor.adv]⟩
      simp only [hb]
      exact ⟨.bool _, trivial, trivial⟩
  | err e =>
    obtain ⟨_, h2, h3⟩ := hg
    exact ⟨h2, (h3 hc).1, (h3 hc).2, trivial⟩
  | panic => exact absurd rfl hg.1

theorem safe_callOr {α : Type} {x : Dec α} {O : Nat → Prop} {P : α → Prop} (e : DecodingError) (h : Safe true (call x) O P) :
    Safe true (callOr x e) O P := by
  intro c hc
  have := h c hc
  unfold call at this
  unfold callOr
  rcases hxc : x c with ⟨o, c1⟩
  rw [hxc] at this
  cases o <;> exact this

/-- The two counts: `decode_array` and `decode_map` return them as numbers below 2^32. -/
theorem safe_array {O : Nat → Prop} (std : Std) (k : Rust.Kind) : Safe true (call (Rust.decode_array std k)) O (fun n => n < 2 ^ 32) := by
  intro c hc
  obtain ⟨h1, h2, h3, h4⟩ := safe_call (O := O) (std := std) (q := .array k) (x := Rust.decode_array std k) rfl c hc
  refine ⟨h1, h2, h3, ?_⟩
  unfold call at *
  rcases hxc : Rust.decode_array std k c with ⟨o, c1⟩
  rw [hxc] at h4
  cases o with
  | ok n =>
    obtain ⟨_, _, _, h, _⟩ := (Rust.decode_array_ok_iff std k c c1 n).mp hxc
    exact ⟨h, h4.2⟩
  | err => trivial
  | panic => exact h4

theorem safe_map {O : Nat → Prop} (std : Std) (k v : Rust.Kind) : Safe true (call (Rust.decode_map std k v)) O (fun n => n < 2 ^ 32) := by
  intro c hc
  obtain ⟨h1, h2, h3, h4⟩ := safe_call (O := O) (std := std) (q := .map k v) (x := Rust.decode_map std k v) rfl c hc
  refine ⟨h1, h2, h3, ?_⟩
  unfold call at *
  rcases hxc : Rust.decode_map std k v c with ⟨o, c1⟩
  rw [hxc] at h4
  cases o with
  | ok n =>
    obtain ⟨_, _, _, h, _⟩ := (Rust.decode_map_ok_iff std k v c c1 n).mp hxc
    exact ⟨h, h4.2⟩
  | err => trivial
  | panic => exact h4

theorem safe_none {O : Nat → Prop} (std : Std) : Safe false (call (Rust.decode_none std)) O (fun _ => True) := by
  intro c hc
  have hg := Rust.readItem_good std .none c
  have he : Rust.readItem std .none c = match Rust.decode_none std c with
      | (.ok true, c) => (.ok .nil, c)
      | (.ok false, c) => (.err .InvalidNone, c)
      | (.err e, c) => (.err e, c)
      | (.panic, c) => (.panic, c) := by
    simp only [Rust.readItem, Rust.bind_apply]
    rcases Rust.decode_none std c with ⟨o, c1⟩
    cases o with
    | ok a => cases a <;> rfl
    | err => rfl
    | panic => rfl
  rw [he] at hg
  unfold call
  rcases hxc : Rust.decode_none std c with ⟨o, c1⟩
  rw [hxc] at hg
  cases o with
  | ok a =>
    have h : c1.vec = c.vec ∧ c.pos ≤ c1.pos ∧ c1.pos ≤ c.vec.length := by
      cases a
      · exact ⟨hg.2.1, hg.2.2 hc⟩
      · exact ⟨hg.2.1, hg.2.2 hc⟩
    exact ⟨h.1, h.2.1, h.2.2, trivial, by simp⟩
  | err e => exact ⟨hg.2.1, (hg.2.2 hc).1, (hg.2.2 hc).2, trivial⟩
  | panic => exact absurd rfl hg.1

theorem safe_probe {O : Nat → Prop} (std : Std) : Safe false (probeError std) O (fun _ => True) := by
  intro c hc
  have hg := Rust.readItem_good std .error c
  rw [fst_map (q := .error) (x := Rust.decode_error std) (g := .error) rfl c] at hg
  unfold probeError
  rcases hxc : Rust.decode_error std c with ⟨o, c1⟩
  rw [hxc] at hg
  cases o with
  | ok a => exact ⟨hg.2.1, (hg.2.2 hc).1, (hg.2.2 hc).2, trivial⟩
  | err e => exact ⟨hg.2.1, (hg.2.2 hc).1, (hg.2.2 hc).2, trivial, by simp⟩
  | panic => exact absurd rfl hg.1

/-! ## Values -/

/-- A value decoding can return for a field. -/
def Ok (S : Schema) (f : Field) (v : V) : Prop := v.OfField S f ∧ v.RustOk S f

theorem ok_scalar {S : Schema} {k : PKind} {r : Nat} {c : Bool} {s : Scalar} (h : s.OfKind k ∧ s.RustOk S r) : Ok S (.one k r c) (.scalar s) := by
  simp [Ok, V.OfField, V.RustOk, h.1, h.2]

def Oks (S : Schema) (fs : List Field) (vs : List V) : Prop :=
  vs.length = fs.length ∧ ∀ (i : Nat) f v, fs[i]? = some f → vs[i]? = some v → Ok S f v

theorem oks_cons {S : Schema} {f : Field} {fs : List Field} {v : V} {vs : List V} :
    Oks S (f :: fs) (v :: vs) ↔ Ok S f v ∧ Oks S fs vs := by
  constructor
  · rintro ⟨h1, h2⟩
    exact ⟨h2 0 f v rfl rfl, by simpa using h1, fun i g w hg hw => h2 (i + 1) g w (by simpa using hg) (by simpa using hw)⟩
  · rintro ⟨h1, h2, h3⟩
    refine ⟨by simp [h2], ?_⟩
    intro i g w hg hw
    cases i with
    | zero => simp at hg hw; subst hg; subst hw; exact h1
    | succ i => exact h3 i g w (by simpa using hg) (by simpa using hw)

theorem oks_iff {S : Schema} : ∀ {fs : List Field} {vs : List V}, Oks S fs vs ↔ OfFields S fs vs ∧ RustOkF S fs vs := by
  intro fs
  induction fs with
  | nil =>
    intro vs
    cases vs with
    | nil => simp [Oks, OfFields, RustOkF]
    | cons v vs => simp [Oks, OfFields]
  | cons f fs ih =>
    intro vs
    cases vs with
    | nil => simp [Oks, OfFields]
    | cons v vs =>
      rw [oks_cons, ih]
      simp only [Ok, OfFields, RustOkF]
      constructor
      · rintro ⟨⟨a, b⟩, d, e⟩; exact ⟨⟨a, d⟩, b, e⟩
      · rintro ⟨⟨a, d⟩, b, e⟩; exact ⟨⟨a, b⟩, d, e⟩

theorem ok_msg {S : Schema} {m : Nat} {c : Bool} {vs : List V} : Ok S (.one .message m c) (.msg vs) ↔ Oks S (S.fields m) vs := by
  rw [oks_iff]; simp [Ok, V.OfField, V.RustOk]

def ElemsOk (S : Schema) (f : Field) (vs : List V) : Prop := ∀ v ∈ vs, Ok S f v

/-! ## Scalars -/

/-- What a decoder method returns. -/
def Returns : Method → Scalar → Prop
  | .bytes, .bytes v => v.length < 2 ^ 32
  | .string, .string v => Spec.utf8 v = true ∧ v.length < 2 ^ 32
  | .bool, .bool _ => True
  | .u32, .uint32 _ => True
  | .u64, .uint64 _ => True
  | .i32, .int32 _ => True
  | .i64, .int64 _ => True
  | .f32, .float32 _ => True
  | .f64, .float64 _ => True
  | _, _ => False

theorem safe_ret {α : Type} {std : Std} {m : Method} {q : Rust.Req} {x : Dec α} {g : α → Item} {h : α → Scalar} (O : Nat → Prop) (hO : Up O)
    (hx : Rust.readItem std q = (do return g (← x))) (hh : ∀ a, (g a).Fits → Item.Utf8Ok (g a) → Returns m (h a)) :
    Safe false (do return h (← call x) : D Scalar) O (Returns m) :=
  safe_seq hO (safe_call hx).weaken fun a ⟨_, h2, h3⟩ => safe_pure (hh a h2 h3)

theorem safe_decScalar (std : Std) (m : Method) (hm : m ≠ .u8 ∧ m ≠ .u16) (O : Nat → Prop) (hO : Up O) :
    Safe false (decScalar std m) O (Returns m) := by
  cases m with
  | bytes => exact safe_ret O hO (q := .bytes) (g := .bytes) rfl (fun a h _ => h)
  | string => exact safe_ret O hO (q := .string) (g := .string) rfl (fun a h1 h2 => ⟨h2, h1⟩)
  | bool => exact safe_ret O hO (q := .bool) (g := .bool) rfl (fun a _ _ => trivial)
  | u8 => simp at hm
  | u16 => simp at hm
  | u32 => exact safe_ret O hO (q := .u32) (g := .uint32) rfl (fun a _ _ => trivial)
  | u64 => exact safe_ret O hO (q := .u64) (g := .uint64) rfl (fun a _ _ => trivial)
  | i32 => exact safe_ret O hO (q := .i32) (g := .int32) rfl (fun a _ _ => trivial)
  | i64 => exact safe_ret O hO (q := .i64) (g := .int64) rfl (fun a _ _ => trivial)
  | f32 => exact safe_ret O hO (q := .f32) (g := .float32) rfl (fun a _ _ => trivial)
  | f64 => exact safe_ret O hO (q := .f64) (g := .float64) rfl (fun a _ _ => trivial)

theorem returns_kind {S : Schema} {r : Nat} {k : PKind} (hk : k ≠ .enum) {m : Method} (hm : decodeLUT k = some m) {s : Scalar} (h : Returns m s) :
    s.OfKind k ∧ s.RustOk S r := by
  cases k <;> simp [decodeLUT] at hm hk <;> subst hm <;> cases s <;> simp only [Returns] at h <;>
    simp_all [Scalar.OfKind, Scalar.RustOk]

theorem safe_assign (std : Std) (S : Schema) {k : PKind} (hk : k ≠ .enum) {m : Method} (hm : decodeLUT k = some m) (r r' : Nat) (O : Nat → Prop) (hO : Up O) :
    ∃ t, findElem k r' false = some t ∧ Safe false (assign std m t) O (fun s => s.OfKind k ∧ s.RustOk S r) := by
  have hsc : GoGen.IsScalar k := by constructor <;> (rintro rfl; simp [decodeLUT] at hm)
  obtain ⟨m', _, h2, _, h4⟩ := lut_scalar (r := r') hsc
  rw [hm] at h2; simp at h2; subst h2
  refine ⟨_, h4 hk, ?_⟩
  rw [assign, if_pos rfl]
  refine (safe_decScalar std m ?_ O hO).imp fun s hs => returns_kind hk hm hs
  constructor <;> (rintro rfl; cases k <;> simp [decodeLUT] at hm)

theorem safe_enum (std : Std) {S : Schema} {r : Nat} {c : Bool} (e : DecodingError) (O : Nat → Prop) (hO : Up O) :
    Safe false (do
      let n ← call (Rust.decode_u32 std)
      let s ← okOr (try_from S r n) e
      pure (.scalar s) : D V) O (Ok S (.one .enum r c)) := by
  refine safe_seq hO (safe_call (q := .u32) (g := .uint32) rfl).weaken ?_
  intro n _
  refine safe_seq hO (safe_okOr (P := fun s => s.OfKind .enum ∧ s.RustOk S r) e ?_) (fun s hs => safe_pure (ok_scalar hs))
  intro s hs
  unfold try_from discriminants at hs
  split at hs
  · rename_i h
    simp at hs h; subst hs
    exact ⟨by simp [Scalar.OfKind], h⟩
  · simp at hs

theorem safe_decValue (std : Std) (S : Schema) {k : PKind} (hk : GoGen.IsScalar k) (r : Nat) (c : Bool) (O : Nat → Prop) (hO : Up O) :
    Safe false (decValue std S (.one k r c)) O (Ok S (.one k r c)) := by
  obtain ⟨m, h1, h2, h3, h4⟩ := lut_scalar (r := r) hk
  by_cases he : k = .enum
  · subst he
    exact safe_enum std .InvalidEnum O hO
  · obtain ⟨t, ht, hs⟩ := safe_assign std S he h2 r r O hO
    unfold decValue
    simp only [Field.Kind, h2, findValue, ht]
    rw [if_neg he]
    exact safe_seq hO hs fun s hs => safe_pure (ok_scalar hs)

/-! ## Nested messages, slices and maps -/

/-- What is known of the decoders of nested messages. -/
def SafeCallees (S : Schema) (rec : Callee) (O : Nat → Nat → Prop) : Prop :=
  ∀ m, Safe false (rec m) (O m) (fun x => ∀ vs, x = some vs → Oks S (S.fields m) vs) ∧ Up (O m)

theorem safe_nested {S : Schema} {rec : Callee} {O : Nat → Nat → Prop} (h : SafeCallees S rec O) (m : Nat) (c : Bool) (e : DecodingError) :
    Safe false (nested rec m e) (O m) (Ok S (.one .message m c)) := by
  unfold nested
  refine safe_seq (h m).2 (h m).1 ?_
  intro x hx
  exact safe_seq (h m).2 (safe_okOr (P := Oks S (S.fields m)) e hx) fun vs hvs => safe_pure (ok_msg.mpr hvs)

theorem safe_decElem (std : Std) {S : Schema} {rec : Callee} {O : Nat → Nat → Prop} (h : SafeCallees S rec O) {k : PKind} {r : Nat}
    (hf : (Field.many k r).RustSupported) (O' : Nat → Prop) (hO' : Up O') (hd : k = .message → ∀ n, O r n → O' n) :
    Safe false (decElem std rec k r) O' (Ok S (.one k r false)) := by
  unfold decElem
  by_cases hk : k = .message
  · subst hk
    rw [if_pos rfl]
    exact (safe_nested h r false _).deep (hd rfl)
  · rw [if_neg hk]
    have hg : GoGen.IsScalar k := ⟨hk, by intro h; subst h; simp [Field.RustSupported] at hf⟩
    have he : k ≠ .enum := by intro h; subst h; simp [Field.RustSupported] at hf
    obtain ⟨m, h1, h2, h3, h4⟩ := lut_scalar (r := r) hg
    obtain ⟨t, ht, hs⟩ := safe_assign std S he h2 r r O' hO'
    simp only [h2, ht]
    exact safe_seq hO' hs fun s hs => safe_pure (ok_scalar hs)

theorem safe_decElems (std : Std) {S : Schema} {rec : Callee} {O : Nat → Nat → Prop} (h : SafeCallees S rec O) {k : PKind} {r : Nat}
    (hf : (Field.many k r).RustSupported) (O' : Nat → Prop) (hO' : Up O') (hd : k = .message → ∀ n, O r n → O' n) :
    ∀ n, Safe false (decElems std rec k r n) O' (fun vs => vs.length = n ∧ ElemsOk S (.one k r false) vs) := by
  intro n
  induction n with
  | zero => exact safe_pure ⟨rfl, by simp [ElemsOk]⟩
  | succ n ih =>
    refine safe_seq hO' (safe_decElem std h hf O' hO' hd) ?_
    intro v hv
    refine safe_seq hO' ih ?_
    rintro vs ⟨h1, h2⟩
    refine safe_pure ⟨by simp [h1], ?_⟩
    intro w hw
    rcases List.mem_cons.mp hw with rfl | hw
    · exact hv
    · exact h2 w hw

theorem safe_decSlice (std : Std) {S : Schema} {rec : Callee} {O : Nat → Nat → Prop} (h : SafeCallees S rec O) {k : PKind} {r : Nat}
    (hf : (Field.many k r).RustSupported) (O' : Nat → Prop) (hO' : Up O') (hd : k = .message → ∀ n, O r n → O' (n + 1)) :
    Safe false (decSlice std rec (.many k r)) O' (Ok S (.many k r)) := by
  have hg : k ≠ .group := by intro h; subst h; simp [Field.RustSupported] at hf
  obtain ⟨kk, hkk⟩ := getKind_ok hg
  have ht : ∃ t, findValue (.many k r) = some t := by
    simp only [Field.RustSupported] at hf
    rcases hf with rfl | rfl | rfl <;> simp [findValue, findElem, typeLUT]
  obtain ⟨t, ht⟩ := ht
  unfold decSlice
  simp only [Field.Kind, hkk, ht]
  have hup : Up (fun n => O' (n + 1)) := fun n hn => hO' _ hn
  refine Safe.weaken (s := true || false) (safe_bind (s1 := true) (s2 := false) (O' := fun n => O' (n + 1)) hO' (by simp) (safe_array std kk) ?_)
  intro size hsize
  refine safe_seq hup (safe_decElems std h hf _ hup hd size) ?_
  rintro vs ⟨h1, h2⟩
  refine safe_pure ⟨?_, ?_⟩
  · simp only [V.OfField]
    exact ⟨by omega, (ofElems_iff ..).mpr fun v hv => (h2 v hv).1⟩
  · simp only [V.RustOk]
    exact (rustOkE_iff ..).mpr fun v hv => (h2 v hv).2

theorem safe_decKey (std : Std) (S : Schema) (O : Nat → Prop) (hO : Up O) :
    Safe false (decKey std .string) O (fun s => s.OfKind .string ∧ s.RustOk S 0) := by
  obtain ⟨t, ht, hs⟩ := safe_assign std S (k := .string) (by simp) (m := .string) rfl 0 0 O hO
  unfold decKey
  simp only [decodeLUT, ht]
  simpa using hs

theorem safe_decMapValue (std : Std) {S : Schema} {rec : Callee} {O : Nat → Nat → Prop} (h : SafeCallees S rec O) {k : PKind} {r : Nat}
    (hg : k ≠ .group) (O' : Nat → Prop) (hO' : Up O') (hd : k = .message → ∀ n, O r n → O' n) :
    Safe false (decMapValue std S rec k r) O' (Ok S (.one k r false)) := by
  unfold decMapValue
  by_cases hk : k = .message
  · subst hk
    have : ∃ t, findElem .message r false = some t := by simp [findElem, typeLUT]
    obtain ⟨t, ht⟩ := this
    simp only [decodeLUT, ht, if_true]
    exact (safe_nested h r false _).deep (hd rfl)
  · obtain ⟨m, h1, h2, h3, h4⟩ := lut_scalar (r := r) (k := k) ⟨hk, hg⟩
    by_cases he : k = .enum
    · subst he
      have : ∃ t, findElem .enum r false = some t := by simp [findElem, typeLUT]
      obtain ⟨t, ht⟩ := this
      simp only [decodeLUT, ht, if_true]
      exact safe_enum std .InvalidMap O' hO'
    · obtain ⟨t, ht, hs⟩ := safe_assign std S he h2 r r O' hO'
      simp only [h2, ht]
      rw [if_neg he]
      exact safe_seq hO' hs fun s hs => safe_pure (ok_scalar hs)

/-- Entries decoding can return in a map of at most `n` entries. -/
def EntriesOk (S : Schema) (k : PKind) (r n : Nat) (ks : List Scalar) (vs : List V) : Prop :=
  ks.length = vs.length ∧ vs.length ≤ n ∧ ks.Nodup ∧ (∀ s ∈ ks, s.OfKind .string ∧ s.RustOk S 0) ∧ ElemsOk S (.one k r false) vs

theorem insert_ok {S : Schema} {k : PKind} {r : Nat} {key : Scalar} {v : V} (hk : key.OfKind .string ∧ key.RustOk S 0) (hv : Ok S (.one k r false) v) :
    ∀ (ks : List Scalar) (vs : List V) (n : Nat), EntriesOk S k r n ks vs →
      EntriesOk S k r (n + 1) (insert key v ks vs).1 (insert key v ks vs).2 ∧ ∀ s ∈ (insert key v ks vs).1, s = key ∨ s ∈ ks := by
  intro ks
  induction ks with
  | nil =>
    rintro vs n ⟨h1, -, -, -, -⟩
    cases vs with
    | cons => simp at h1
    | nil =>
      refine ⟨⟨rfl, by simp [insert], by simp [insert], ?_, ?_⟩, by simp [insert]⟩
      · simpa [insert] using hk
      · simpa [insert, ElemsOk] using hv
  | cons k' ks ih =>
    rintro vs n ⟨h1, h2, h3, h4, h5⟩
    cases vs with
    | nil => simp at h1
    | cons v' vs =>
      rw [insert]
      split
      · rename_i he
        subst he
        refine ⟨⟨by simpa using h1, by simp at h2 ⊢; omega, h3, h4, ?_⟩, by intro s hs; exact .inr hs⟩
        intro w hw
        rcases List.mem_cons.mp hw with rfl | hw
        · exact hv
        · exact h5 w (by simp [hw])
      · rename_i he
        rw [List.nodup_cons] at h3
        obtain ⟨⟨a, b, c, d, e⟩, f⟩ := ih vs (n - 1) ⟨by simpa using h1, by simp at h2; omega, h3.2, fun s hs => h4 s (by simp [hs]),
          fun w hw => h5 w (by simp [hw])⟩
        refine ⟨⟨by simp [a], by simp at h2 ⊢; omega, ?_, ?_, ?_⟩, ?_⟩
        · simp only [List.nodup_cons]
          refine ⟨?_, c⟩
          intro hm
          rcases f _ hm with h | h
          · exact he h.symm
          · exact h3.1 h
        · intro s hs
          rcases List.mem_cons.mp hs with rfl | hs
          · exact h4 _ (by simp)
          · exact d s hs
        · intro w hw
          rcases List.mem_cons.mp hw with rfl | hw
          · exact h5 _ (by simp)
          · exact e w hw
        · intro s hs
          rcases List.mem_cons.mp hs with rfl | hs
          · exact .inr (by simp)
          · rcases f s hs with h | h
            · exact .inl h
            · exact .inr (by simp [h])

theorem safe_decEntries (std : Std) {S : Schema} {rec : Callee} {O : Nat → Nat → Prop} (h : SafeCallees S rec O) {k : PKind} {r : Nat}
    (hg : k ≠ .group) (O' : Nat → Prop) (hO' : Up O') (hd : k = .message → ∀ n, O r n → O' n) :
    ∀ (n : Nat) (ks : List Scalar) (vs : List V) (N : Nat), EntriesOk S k r N ks vs →
    Safe false (decEntries std S rec .string k r n ks vs) O' (fun e => EntriesOk S k r (N + n) e.1 e.2) := by
  intro n
  induction n with
  | zero => intro ks vs N he; exact safe_pure he
  | succ n ih =>
    intro ks vs N he
    rw [decEntries]
    refine safe_seq hO' (safe_decKey std S O' hO') ?_
    intro key hkey
    refine safe_seq hO' (safe_decMapValue std h hg O' hO' hd) ?_
    intro v hv
    rw [show N + (n + 1) = (N + 1) + n by omega]
    exact ih _ _ (N + 1) (insert_ok hkey hv ks vs N he).1

theorem ok_map {S : Schema} {k : PKind} {r n : Nat} {ks : List Scalar} {vs : List V} (hn : n < 2 ^ 32) (h : EntriesOk S k r n ks vs) :
    Ok S (.map .string k r) (.map ks vs) := by
  obtain ⟨h1, h2, h3, h4, h5⟩ := h
  refine ⟨?_, ?_⟩
  · simp only [V.OfField]
    exact ⟨h1, by omega, h3, fun s hs => (h4 s hs).1, (ofElems_iff ..).mpr fun v hv => (h5 v hv).1⟩
  · simp only [V.RustOk]; exact ⟨fun s hs => (h4 s hs).2, (rustOkE_iff ..).mpr fun v hv => (h5 v hv).2⟩

theorem safe_decMessage (std : Std) {S : Schema} {rec : Callee} {O : Nat → Nat → Prop} (h : SafeCallees S rec O) {f : Field}
    (hf : f.RustSupported) (hm : isMsg f = true) (O' : Nat → Prop) (hO' : Up O') (hd1 : ∀ r c, f = .one .message r c → ∀ n, O r n → O' n)
    (hd2 : ∀ kk r, f = .map kk .message r → ∀ n, O r n → O' (n + 1)) :
    Safe false (decMessage std S rec f) O' (Ok S f) := by
  cases f with
  | many => simp [isMsg] at hm
  | one k m c =>
    have hk : k = .message := by simpa [isMsg] using hm
    subst hk
    exact (safe_nested h m c _).deep (hd1 m c rfl)
  | map kk k r =>
    simp only [Field.RustSupported] at hf
    obtain ⟨rfl, hg, _, _⟩ := hf
    obtain ⟨keyKind, q1⟩ := getKind_ok (k := .string) (by simp)
    obtain ⟨valKind, q2⟩ := getKind_ok hg
    unfold decMessage decMap
    simp only [q1, q2]
    refine safe_seq hO' (P := fun x => ∀ v, x = some v → Ok S (.map .string k r) v) ?_ (fun x hx => safe_okOr _ hx)
    refine safe_seq hO' (safe_none std) ?_
    intro a _
    cases a
    · simp only [Bool.false_eq_true, if_false]
      have hup : Up (fun n => O' (n + 1)) := fun n hn => hO' _ hn
      refine Safe.weaken (s := true || false) (safe_bind (s1 := true) (s2 := false) (O' := fun n => O' (n + 1)) hO' (by simp)
        (safe_callOr _ (safe_map std keyKind valKind)) ?_)
      intro size hsize
      refine safe_seq hup (safe_decEntries std h hg _ hup (fun hk n hn => hd2 .string r (by rw [hk]) n hn) size [] [] 0
        ⟨rfl, by simp, by simp, by simp, by simp [ElemsOk]⟩) ?_
      intro e he
      refine safe_pure ?_
      intro v hv
      simp at hv; subst hv
      exact ok_map (n := 0 + size) (by omega) he
    · simp only [if_true]
      exact safe_pure (by simp)

/-! ## Whole messages -/

/-- Values of the fields that have been read already. -/
def Some' (S : Schema) (fs : List Field) (done : Nat → Prop) (vs : List V) : Prop :=
  vs.length = fs.length ∧ ∀ (i : Nat) f v, done i → fs[i]? = some f → vs[i]? = some v → Ok S f v

theorem safe_forFields {init : Field → D V} {S : Schema} {fields : List Field} (O : Nat → Prop) (hO : Up O) :
    ∀ (is : List Nat) (x : List V) (done : Nat → Prop), (∀ i ∈ is, ∃ f, fields[i]? = some f ∧ Safe false (init f) O (Ok S f)) →
      Some' S fields done x → Safe false (forFields init fields is x) O (Some' S fields fun i => done i ∨ i ∈ is) := by
  intro is
  induction is with
  | nil => intro x done _ hx; exact safe_pure (by simpa using hx)
  | cons i is ih =>
    intro x done h hx
    obtain ⟨f, hf, hs⟩ := h i (by simp)
    rw [forFields, hf]
    simp only []
    refine safe_seq hO hs ?_
    intro v hv
    refine (ih (x.set i v) (fun j => done j ∨ j = i) (fun j hj => h j (by simp [hj])) ⟨by simp [hx.1], ?_⟩).imp ?_
    · intro j g w hd hg hw
      by_cases hji : i = j
      · subst hji
        rw [hf] at hg; simp at hg; subst hg
        rw [List.getElem?_set] at hw
        simp at hw
        obtain ⟨_, rfl⟩ := hw
        exact hv
      · rw [List.getElem?_set_ne hji] at hw
        exact hx.2 j g w (by rcases hd with h | h; exact h; exact absurd h.symm hji) hg hw
    · rintro y ⟨h1, h2⟩
      refine ⟨h1, ?_⟩
      intro j g w hd
      apply h2
      rcases hd with h | h
      · exact .inl (.inl h)
      · rcases List.mem_cons.mp h with h | h
        · exact .inl (.inr h)
        · exact .inr h

theorem safe_decBody (std : Std) {S : Schema} (hS : S.RustSupported) {rec : Callee} {O : Nat → Nat → Prop}
    (h : SafeCallees S rec O) (m : Nat) (O' : Nat → Prop) (hO' : Up O')
    (hd1 : ∀ r c, .one .message r c ∈ S.fields m → ∀ n, O r n → O' n) (hd2 : ∀ r, ∀ n, O r n → O' (n + 1)) :
    Safe false (decBody std S rec (S.fields m) ⟨idx isMsg 0 (S.fields m), idx isSlice 0 (S.fields m), idx isValue 0 (S.fields m)⟩)
      O' (Oks S (S.fields m)) := by
  have hsup := fields_supported hS m
  unfold decBody
  refine safe_seq hO' (safe_forFields (S := S) O' hO' _ _ (fun _ => False) ?_ ⟨by simp, by simp⟩) ?_
  · intro i hi
    obtain ⟨f, hf, hp⟩ := idx_of hi
    refine ⟨f, hf, ?_⟩
    have hs := hsup f (List.mem_of_getElem? hf)
    cases f with
    | one k r c =>
      have hk : k ≠ .message := by simpa [isValue] using hp
      exact safe_decValue std S ⟨hk, hs⟩ r c O' hO'
    | many => simp [isValue] at hp
    | map => simp [isValue] at hp
  intro y hy
  refine safe_seq hO' (safe_forFields O' hO' _ y _ ?_ hy) ?_
  · intro i hi
    obtain ⟨f, hf, hp⟩ := idx_of hi
    refine ⟨f, hf, ?_⟩
    have hs := hsup f (List.mem_of_getElem? hf)
    cases f with
    | one => simp [isSlice] at hp
    | many k r => exact safe_decSlice std h hs O' hO' (fun _ => hd2 r)
    | map => simp [isSlice] at hp
  intro z hz
  refine (safe_forFields O' hO' _ z _ ?_ hz).imp ?_
  · intro i hi
    obtain ⟨f, hf, hp⟩ := idx_of hi
    refine ⟨f, hf, ?_⟩
    have hmem := List.mem_of_getElem? hf
    exact safe_decMessage std h (hsup f hmem) hp O' hO' (fun r c e => hd1 r c (e ▸ hmem)) (fun _ r _ => hd2 r)
  · rintro w ⟨h1, h2⟩
    refine ⟨h1, ?_⟩
    intro i f v hf
    refine h2 i f v ?_ hf
    have hcl : isValue f = true ∨ isSlice f = true ∨ isMsg f = true := by
      rcases classify (hsup f (List.mem_of_getElem? hf)) with ⟨_, _, c, _, _⟩ | ⟨_, _, _, _, _, _, c⟩ | ⟨_, _, _, c, _⟩
      · exact .inr (.inl c)
      · exact .inr (.inr c)
      · exact .inl c
    have hin : ∀ p : Field → Bool, p f = true → i ∈ idx p 0 (S.fields m) := by
      intro p hp
      exact (GoGen.mem_idx p (S.fields m) 0 i).mpr (by simpa using ⟨f, hf, hp⟩)
    rcases hcl with h | h | h
    · exact .inl (.inl (.inr (hin _ h)))
    · exact .inl (.inr (hin _ h))
    · exact .inr (hin _ h)

theorem safe_decode (std : Std) {S : Schema} (hS : S.RustSupported) {rank : Nat → Nat} {R : Nat}
    (hr : ∀ m, ∀ f ∈ S.fields m, ∀ r c, f = .one .message r c → rank r < rank m) (hR : ∀ m, rank m ≤ R) : ∀ (fuel m : Nat),
    Safe false (decode std S fuel m) (Deep rank R fuel m) (fun x => ∀ vs, x = some vs → Oks S (S.fields m) vs) := by
  intro fuel
  induction fuel with
  | zero =>
    intro m c hc
    exact ⟨rfl, Nat.le_refl _, hc, show Deep rank R 0 m _ by unfold Deep; omega⟩
  | succ fuel ih =>
    intro m
    rw [decode]
    refine safe_seq (deep_up rank R (fuel + 1) m) (safe_none std) ?_
    intro a _
    cases a
    · simp only [Bool.false_eq_true, if_false]
      refine safe_seq (deep_up rank R (fuel + 1) m) (safe_probe std) ?_
      intro _ _
      rw [getDecodingFields, decLoop_eq _ 0 (fields_supported hS m)]
      simp only []
      refine safe_seq (deep_up rank R (fuel + 1) m) (safe_decBody std hS (O := Deep rank R fuel) (fun m' => ⟨ih m', deep_up rank R fuel m'⟩) m _
        (deep_up rank R (fuel + 1) m) ?_ ?_) ?_
      · intro r c hmem n hn
        have := hr m _ hmem r c rfl
        unfold Deep at *; omega
      · intro r n hn
        have := hR r
        unfold Deep at *
        rw [Nat.add_mul]; omega
      · intro vs hvs
        refine safe_pure ?_
        intro ws hw
        simp at hw; subst hw; exact hvs
    · simp only [if_true]
      exact safe_pure (by simp)

end RustGen
