import Verif.Text.RustRunDecodeFn
import Verif.Text.GoLink

/-!
# Running generated Rust code: `decode`
-/

namespace RustRun

open Utils RustAst RustText
open Text hiding Tok
open Gen (PKind Scalar V Field Schema)
open GoText (FieldD FileD)
open Rust (Cursor Std)

/-- The struct of a message type of the file. -/
def structName (f : FileD) (m : Nat) : Ident := camel ((f.types[m]?.map (·.1)).getD [])

/-- What the names in the program of a file refer to. -/
structure Ctx (P : List Item) (f : FileD) : Prop where
  ready : Ready P
  vec : declares P go!"Vec" = false
  maps : ∀ t ∈ f.types, ∀ g ∈ t.2, ∀ kk, g.shape = .map kk → imported P [go!"std", go!"collections", go!"HashMap"] = true
  struct : ∀ t ∈ f.types, findStruct P (camel t.1) = some (t.2.map fun g => snake g.name)
  encode : ∀ t ∈ f.types, ∃ sig body, encodeImpl t.1 t.2 = .impl go!"Encode" (camel t.1) sig body ∧ findImpl P go!"Encode" (camel t.1) = some (sig, body)
  decode : ∀ t ∈ f.types, ∃ sig body, decodeImpl t.1 t.2 = .impl go!"Decode" (camel t.1) sig body ∧ findImpl P go!"Decode" (camel t.1) = some (sig, body)
  enum : ∀ t ∈ f.types, ∀ g ∈ t.2, g.kind = .enum → ∀ v, tryFrom P (camel g.type) [.scalar (.uint32 v)] = some (tried (RustGen.try_from f.schema (f.ref .enum g.type) v))
  closed : ∀ t ∈ f.types, ∀ g ∈ t.2, g.kind = .message → ∃ t', f.types[f.ref .message g.type]? = some t' ∧ t'.1 = g.type
  nodup : ∀ t ∈ f.types, (t.2.map fun g => snake g.name).Nodup
  supported : ∀ t ∈ f.types, ∀ g ∈ t.2, (g.toField f).RustSupported

section
variable {P : List Item} {std : Std} {trait : Ident → Ident → List RV → M RV} {local_ : Sig → Stmt → List RV → M RV} {L : Locals} {α β γ : Type}

/-! ## Functions -/

theorem call_runFn {sig : Sig} {body : Stmt} {args : List RV} {L0 : Locals} (hb : bindParams sig args = some L0) {x : RustGen.D α} {g : α → RV}
    (h : Body (exec P std trait local_ body) L0 x g) (L : Locals) : Call (runFn P std trait local_ sig body args) L x g := by
  intro c
  obtain ⟨r, L', h1, h2⟩ := h c
  simp only [runFn, hb, h1]
  rw [← h2]
  cases r with
  | ok o => cases o <;> rfl
  | _ => rfl

/-- A call of a function of the block. -/
theorem call_local (hb : L.lookup go!"b" = some (false, .cursor)) {n : Ident} {m : Bool} {sig : Sig} {body : Stmt} (hn : L.lookup n = some (m, .func sig body))
    {x : RustGen.D α} {g : α → RV} (h : ∀ L, Call (local_ sig body [.cursor]) L x g) : Call (eval P std trait local_ (.call (var n) (args1 vb))) L x g := by
  rw [var, eval]
  refine (args_one (eval_vb hb)).call ?_
  intro c
  rw [call1, bind_ok (s' := ⟨c, L⟩) (a := some (.func sig body)) (by simp [get, hn])]
  exact h L c

theorem env_cursor : Env [(go!"b", false, .cursor)] :=
  ⟨rfl, by decide +kernel⟩

/-! ## Fields -/

/-- The initialiser of a field. -/
def initOf (g : FieldD) : Ident × Expr :=
  match g.shape with
  | .one _ => (snake g.name, if g.kind = .message then initMessage (camel g.type) else initValue g.kind (camel g.type))
  | .many => (snake g.name, initCall (snake g.name) go!"InvalidArray")
  | .map _ => (snake g.name, initCall (snake g.name) go!"InvalidMap")

/-- The function of a field. -/
def fnOf (g : FieldD) : Option (Sig × Stmt) :=
  match g.shape with
  | .one _ => none
  | .many => match sliceFn (snake g.name) g.kind (camel g.type) with
    | .func s b => some (s, b)
    | _ => none
  | .map kk => match mapFn (snake g.name) kk g.kind (camel g.type) with
    | .func s b => some (s, b)
    | _ => none

/-- The model of the initialiser of a field. -/
def decField (std : Std) (S : Schema) (rec : RustGen.Callee) (fld : Field) : RustGen.D V :=
  if GoGen.isValue fld then RustGen.decValue std S fld else if GoGen.isSlice fld then RustGen.decSlice std rec fld else RustGen.decMessage std S rec fld

theorem rv_plain (S : Schema) (name : Nat → Ident) (fld : Field) (v : V) : (rv S name fld v).plain = true := by
  cases fld <;> cases v <;> simp only [rv] <;> rfl

theorem d_assoc {x : RustGen.D α} {y : α → RustGen.D β} {z : β → RustGen.D γ} : ((x >>= y) >>= z) = (x >>= fun a => y a >>= z) := by
  funext c
  simp only [d_bind]
  rcases x c with ⟨r, c'⟩
  cases r <;> rfl

/-- Calls of `T::decode`. -/
def Rec (f : FileD) (trait : Ident → Ident → List RV → M RV) (rec : RustGen.Callee) : Prop :=
  ∀ m t, f.types[m]? = some t → ∀ L, Call (trait go!"Decode" (camel t.1) [.cursor]) L (rec m)
    (optRV fun vs => .struct (camel t.1) (rvs f.schema (structName f) (f.schema.fields m) vs))

variable {f : FileD} {rec : RustGen.Callee}

/-- Reading a message. -/
theorem sim_message (hP : Ctx P f) (hr : Rec f trait rec) (hL : Env L) {t : Bytes × List FieldD} (ht : t ∈ f.types) {g : FieldD} (hg : g ∈ t.2) (hk : g.kind = .message)
    {n : Ident} {er : Rust.DecodingError} (hn : errors.lookup n = some er) (c : Bool) :
    Sim (eval P std trait local_ (okOr (decodeOf (camel g.type)) n)) L (RustGen.nested rec (f.ref g.kind g.type) er)
      (rv f.schema (structName f) (.one .message (f.ref g.kind g.type) c)) (fun _ => L) := by
  obtain ⟨t', h1, h2⟩ := hP.closed t ht g hg hk
  rw [hk]
  refine sim_nested hP.ready hL.b hn (g := fun vs => .struct (camel g.type) (rvs f.schema (structName f) (f.schema.fields (f.ref .message g.type)) vs)) ?_ ?_
  · intro vs
    simp [rv, structName, h1, h2]
  · have := hr _ _ h1
    rw [h2] at this
    exact this

/-- Reading one element of a repeated field. -/
theorem sim_elem (hP : Ctx P f) (hr : Rec f trait rec) (hL : Env L) {t : Bytes × List FieldD} (ht : t ∈ f.types) {g : FieldD} (hg : g ∈ t.2) (hs : g.shape = .many) :
    Sim (eval P std trait local_ (match g.kind with | .message => okOr (decodeOf (camel g.type)) go!"InvalidArray" | k => bcall (decoder k) .anil)) L
      (RustGen.decElem std rec g.kind (f.ref g.kind g.type)) (rv f.schema (structName f) (.one g.kind (f.ref g.kind g.type) false)) (fun _ => L) := by
  have hsup := hP.supported t ht g hg
  rw [FieldD.toField, hs] at hsup
  simp only [Field.RustSupported] at hsup
  rw [RustGen.decElem]
  by_cases hk : g.kind = .message
  · rw [if_pos hk]
    have := sim_message (P := P) (std := std) (local_ := local_) hP hr hL ht hg hk (n := go!"InvalidArray") (er := .InvalidArray) (by decide +kernel) false
    rw [hk] at this ⊢
    exact this
  · rw [if_neg hk]
    have hsc : ∀ k m ty, RustGen.decodeLUT k = some m → RustGen.findElem k (f.ref k g.type) false = some ty → k ≠ .enum → k ≠ .message →
        Sim (eval P std trait local_ (bcall (decoder k) .anil)) L (RustGen.assign std m ty >>= fun s => pure (.scalar s))
          (rv f.schema (structName f) (.one k (f.ref k g.type) false)) (fun _ => L) := by
      intro k m ty h1 h2 h3 h4
      exact Sim.mapD (by simpa only [rv] using dec_assign hP.ready hL.b h3 h1 h2)
    rcases hsup with h | h | h
    · rw [h]
      exact hsc .string .string .string rfl rfl (by decide) (by decide)
    · rw [h]
      exact hsc .bytes .bytes .bytes rfl rfl (by decide) (by decide)
    · exact absurd h hk

/-- The kinds of single values that are no messages and no enums. -/
theorem scalar_tables {k : PKind} (r : Nat) (hm : k ≠ .message) (hg : k ≠ .group) (he : k ≠ .enum) :
    ∃ m ty, RustGen.decodeLUT k = some m ∧ RustGen.findElem k r false = some ty := by
  cases k <;> first | exact ⟨_, _, rfl, rfl⟩ | exact absurd rfl hm | exact absurd rfl hg | exact absurd rfl he

theorem sim_scalar (hP : Ready P) (hL : Env L) {k : PKind} {r r' : Nat} {c : Bool} {m : RustGen.Method} {ty : RustGen.Ty} (S : Schema) (name : Nat → Ident) (he : k ≠ .enum)
    (h1 : RustGen.decodeLUT k = some m) (h2 : RustGen.findElem k r false = some ty) :
    Sim (eval P std trait local_ (bcall (decoder k) .anil)) L (RustGen.assign std m ty >>= fun s => pure (.scalar s)) (rv S name (.one k r' c)) (fun _ => L) :=
  Sim.mapD (by simpa only [rv] using dec_assign hP hL.b he h1 h2)

theorem sim_enumValue (hP : Ready P) (hL : Env L) {S S' : Schema} {name : Nat → Ident} {r : Nat} {c : Bool} {t n : Ident} {er : Rust.DecodingError} (hn : errors.lookup n = some er)
    (h : ∀ v, tryFrom P t [.scalar (.uint32 v)] = some (tried (RustGen.try_from S r v))) :
    Sim (eval P std trait local_ (okOr (.method (.call (.path [t, go!"try_from"]) (args1 (bcall go!"decode_u32" .anil))) go!"ok" .anil) n)) L
      (do let n ← RustGen.call (Rust.decode_u32 std); let s ← RustGen.okOr (RustGen.try_from S r n) er; pure (.scalar s)) (rv S' name (.one .enum r c)) (fun _ => L) := by
  have h1 := sim_enum (P := P) (std := std) (trait := trait) (local_ := local_) hP hL.b hn h
  have h2 : Sim (eval P std trait local_ (okOr (.method (.call (.path [t, go!"try_from"]) (args1 (bcall go!"decode_u32" .anil))) go!"ok" .anil) n)) L
      ((do let n ← RustGen.call (Rust.decode_u32 std); RustGen.okOr (RustGen.try_from S r n) er) >>= fun s => pure (.scalar s)) (rv S' name (.one .enum r c)) (fun _ => L) :=
    Sim.mapD (by simpa only [rv] using h1)
  rw [d_assoc] at h2
  exact h2

/-- Reading a value of a map. -/
theorem sim_value (hP : Ctx P f) (hr : Rec f trait rec) (hL : Env L) {t : Bytes × List FieldD} (ht : t ∈ f.types) {g : FieldD} (hg : g ∈ t.2) {kk : PKind} (hs : g.shape = .map kk) :
    Sim (eval P std trait local_ (valueExpr g.kind (camel g.type))) L (RustGen.decMapValue std f.schema rec g.kind (f.ref g.kind g.type))
      (rv f.schema (structName f) (.one g.kind (f.ref g.kind g.type) false)) (fun _ => L) := by
  have hsup := hP.supported t ht g hg
  rw [FieldD.toField, hs] at hsup
  simp only [Field.RustSupported] at hsup
  by_cases hm : g.kind = .message
  · have := sim_message (P := P) (std := std) (local_ := local_) hP hr hL ht hg hm (n := go!"InvalidMap") (er := .InvalidMap) (by decide +kernel) false
    rw [hm] at this ⊢
    exact this
  · by_cases he : g.kind = .enum
    · have := sim_enumValue (P := P) (std := std) (trait := trait) (local_ := local_) (name := structName f) (S' := f.schema) (c := false) hP.ready hL (n := go!"InvalidMap")
        (er := .InvalidMap) (by decide +kernel) (hP.enum t ht g hg he)
      rw [he]
      exact this
    · obtain ⟨m, ty, h1, h2⟩ := scalar_tables (f.ref g.kind g.type) hm hsup.2.1 he
      have := sim_scalar (P := P) (std := std) (trait := trait) (local_ := local_) (r' := f.ref g.kind g.type) (c := false) hP.ready hL f.schema (structName f) he h1 h2
      have e : valueExpr g.kind (camel g.type) = bcall (decoder g.kind) .anil := by
        rw [valueExpr]
        · exact hm
        · exact he
      rw [e, RustGen.decMapValue, h1, h2]
      simp only [if_neg he]
      exact this

/-- Reading a key of a map. -/
theorem sim_key (hP : Ready P) (hL : Env L) : Sim (eval P std trait local_ (keyExpr .string)) L (RustGen.decKey std .string) .scalar (fun _ => L) :=
  dec_assign (r := 0) (k := .string) (t := .string) (m := .string) hP hL.b (by decide) rfl rfl

theorem call_slice (hP : Ctx P f) (hr : Rec f trait rec) {t : Bytes × List FieldD} (ht : t ∈ f.types) {g : FieldD} (hg : g ∈ t.2) (hs : g.shape = .many) (L : Locals) :
    ∃ sig body, fnOf g = some (sig, body) ∧ Call (runFn P std trait local_ sig body [.cursor]) L
      (RustGen.decSlice std rec (g.toField f) >>= fun v => pure (some v)) (optRV (rv f.schema (structName f) (g.toField f))) := by
  have hsup := hP.supported t ht g hg
  have hfl : g.toField f = .many g.kind (f.ref g.kind g.type) := by rw [FieldD.toField, hs]
  rw [hfl] at hsup ⊢
  simp only [Field.RustSupported] at hsup
  have hgr : g.kind ≠ .group := by rcases hsup with h | h | h <;> rw [h] <;> decide
  obtain ⟨kk, hk⟩ := RustGen.getKind_ok hgr
  refine ⟨_, _, by rw [fnOf, hs]; rfl, ?_⟩
  refine call_runFn (L0 := [(go!"b", false, .cursor)]) rfl ?_ L
  have hb := body_slice (P := P) (std := std) (trait := trait) (local_ := local_) hP.ready hP.vec env_cursor (snake g.name) (r := f.ref g.kind g.type) (rec := rec)
    (g := rv f.schema (structName f) (.one g.kind (f.ref g.kind g.type) false)) hk (fun L hL => sim_elem (P := P) (std := std) (local_ := local_) hP hr hL ht hg hs)
  have hfe : ∃ ty, RustGen.findValue (.many g.kind (f.ref g.kind g.type)) = some ty := by
    rcases hsup with h | h | h <;> rw [h] <;> exact ⟨_, rfl⟩
  obtain ⟨ty, hty⟩ := hfe
  have e : (RustGen.decSlice std rec (.many g.kind (f.ref g.kind g.type)) >>= fun v => pure (some v)) = (do
        let size ← RustGen.call (Rust.decode_array std kk)
        let vs ← RustGen.decElems std rec g.kind (f.ref g.kind g.type) size
        pure (some (V.slice vs))) := by
    unfold RustGen.decSlice
    simp only [Field.Kind, hk, hty, d_assoc]
    rfl
  rw [e]
  intro c
  obtain ⟨r, L', h1, h2⟩ := hb c
  refine ⟨r, L', h1, ?_⟩
  rw [h2]
  congr 1
  funext o
  cases o with
  | none => rfl
  | some v => simp only [optRV]; cases v <;> simp [rv, rvElems_eq]

theorem call_map (hP : Ctx P f) (hr : Rec f trait rec) {t : Bytes × List FieldD} (ht : t ∈ f.types) {g : FieldD} (hg : g ∈ t.2) {kk : PKind} (hs : g.shape = .map kk)
    (L : Locals) :
    ∃ sig body, fnOf g = some (sig, body) ∧ Call (runFn P std trait local_ sig body [.cursor]) L
      (RustGen.decMap std f.schema rec kk g.kind (f.ref g.kind g.type)) (optRV (rv f.schema (structName f) (g.toField f))) := by
  have hsup := hP.supported t ht g hg
  have hfl : g.toField f = .map kk g.kind (f.ref g.kind g.type) := by rw [FieldD.toField, hs]
  rw [hfl] at hsup ⊢
  simp only [Field.RustSupported] at hsup
  obtain ⟨rfl, hsup⟩ := hsup
  obtain ⟨vk, hk⟩ := RustGen.getKind_ok hsup.1
  refine ⟨_, _, by rw [fnOf, hs]; rfl, ?_⟩
  refine call_runFn (L0 := [(go!"b", false, .cursor)]) rfl ?_ L
  have hb := body_map (P := P) (std := std) (trait := trait) (local_ := local_) hP.ready (hP.maps t ht g hg _ hs) env_cursor (r := f.ref g.kind g.type) (rec := rec) (S := f.schema)
    (g := rv f.schema (structName f) (.one g.kind (f.ref g.kind g.type) false)) (rv_plain _ _ _) (kk := .string) (keyKind := .String) rfl hk (fun L hL => sim_key hP.ready hL)
    (fun L hL => sim_value (P := P) (std := std) (local_ := local_) hP hr hL ht hg hs)
  intro c
  obtain ⟨r, L', h1, h2⟩ := hb c
  refine ⟨r, L', h1, ?_⟩
  rw [h2]
  congr 1
  funext o
  cases o with
  | none => rfl
  | some v => simp only [optRV]; cases v <;> simp [rv, rvElems_eq]

/-- The initialiser of a field reads the field. -/
theorem sim_field (hP : Ctx P f) (hr : Rec f trait rec) (hL : Env L) {t : Bytes × List FieldD} (ht : t ∈ f.types) {g : FieldD} (hg : g ∈ t.2)
    (hf : ∀ sig body, fnOf g = some (sig, body) → L.lookup (snake g.name ++ go!"_decode") = some (false, .func sig body)) :
    Sim (eval P std trait (runFn P std trait local_) (initOf g).2) L (decField std f.schema rec (g.toField f)) (rv f.schema (structName f) (g.toField f)) (fun _ => L) := by
  have hsup := hP.supported t ht g hg
  cases hs : g.shape with
  | one c =>
    have hfl : g.toField f = .one g.kind (f.ref g.kind g.type) c := by rw [FieldD.toField, hs]
    rw [hfl] at hsup ⊢
    simp only [Field.RustSupported] at hsup
    rw [initOf, hs]
    simp only [decField, GoGen.isValue, GoGen.isSlice, decide_eq_true_eq]
    by_cases hm : g.kind = .message
    · have := sim_message (P := P) (std := std) (local_ := runFn P std trait local_) hP hr hL ht hg hm (n := go!"InvalidStruct") (er := .InvalidStruct) (by decide +kernel) c
      rw [hm] at this ⊢
      exact this
    · rw [if_neg hm, if_pos (by simpa using hm)]
      by_cases he : g.kind = .enum
      · have := sim_enumValue (P := P) (std := std) (trait := trait) (local_ := runFn P std trait local_) (name := structName f) (S' := f.schema) (c := c) hP.ready hL
          (n := go!"InvalidEnum") (er := .InvalidEnum) (by decide +kernel) (hP.enum t ht g hg he)
        rw [he]
        exact this
      · obtain ⟨m, ty, h1, h2⟩ := scalar_tables (f.ref g.kind g.type) hm hsup he
        have := sim_scalar (P := P) (std := std) (trait := trait) (local_ := runFn P std trait local_) (r' := f.ref g.kind g.type) (c := c) hP.ready hL f.schema (structName f) he h1 h2
        have e : initValue g.kind (camel g.type) = bcall (decoder g.kind) .anil := by
          rw [initValue]
          exact he
        unfold RustGen.decValue
        simp only [Field.Kind, RustGen.findValue, h1, h2, if_neg he, e]
        exact this
  | many =>
    obtain ⟨sig, body, h1, _⟩ := call_slice (P := P) (std := std) (trait := trait) (local_ := local_) hP hr ht hg hs L
    have h2 : ∀ L, Call (runFn P std trait local_ sig body [.cursor]) L (RustGen.decSlice std rec (g.toField f) >>= fun v => pure (some v))
        (optRV (rv f.schema (structName f) (g.toField f))) := by
      intro L
      obtain ⟨sig', body', h3, h4⟩ := call_slice (P := P) (std := std) (trait := trait) (local_ := local_) hP hr ht hg hs L
      rw [h1] at h3; cases h3
      exact h4
    have h5 := sim_okOr (P := P) hP.ready (n := go!"InvalidArray") (er := .InvalidArray) (by decide +kernel) (Call.tr (call_local (P := P) (std := std) (trait := trait) hL.b (hf _ _ h1) h2))
    have e : decField std f.schema rec (g.toField f) = ((RustGen.decSlice std rec (g.toField f) >>= fun v => pure (some v)) >>= fun o => RustGen.okOr o .InvalidArray) := by
      rw [d_assoc, FieldD.toField, hs]
      have e0 : decField std f.schema rec (.many g.kind (f.ref g.kind g.type)) = RustGen.decSlice std rec (.many g.kind (f.ref g.kind g.type)) := rfl
      simp only [e0]
      funext c
      simp only [d_bind]
      rcases RustGen.decSlice std rec (.many g.kind (f.ref g.kind g.type)) c with ⟨r, c'⟩
      cases r <;> rfl
    rw [e, initOf, hs]
    exact h5
  | map kk =>
    obtain ⟨sig, body, h1, _⟩ := call_map (P := P) (std := std) (trait := trait) (local_ := local_) hP hr ht hg hs L
    have h2 : ∀ L, Call (runFn P std trait local_ sig body [.cursor]) L (RustGen.decMap std f.schema rec kk g.kind (f.ref g.kind g.type))
        (optRV (rv f.schema (structName f) (g.toField f))) := by
      intro L
      obtain ⟨sig', body', h3, h4⟩ := call_map (P := P) (std := std) (trait := trait) (local_ := local_) hP hr ht hg hs L
      rw [h1] at h3; cases h3
      exact h4
    have h5 := sim_okOr (P := P) hP.ready (n := go!"InvalidMap") (er := .InvalidMap) (by decide +kernel) (Call.tr (call_local (P := P) (std := std) (trait := trait) hL.b (hf _ _ h1) h2))
    have e : decField std f.schema rec (g.toField f) = (RustGen.decMap std f.schema rec kk g.kind (f.ref g.kind g.type) >>= fun o => RustGen.okOr o .InvalidMap) := by
      rw [FieldD.toField, hs]
      rfl
    rw [e, initOf, hs]
    exact h5

end

end RustRun
