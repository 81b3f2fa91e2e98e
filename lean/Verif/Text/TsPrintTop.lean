import Verif.Text.TsPrintAll

/-!
# What the templates of the TypeScript generator print, III: enums, classes and the file
-/

namespace TsText

open Utils Tmpl TsAst TsTempl
open Text (Frag Sym ofBytes ofBytes_append isLetter isWordChar letter_range)
open TsLex (Tok Mode run_seq run_comment)
open RustLex (IsWord)
open GoText (Chunks render flat ofBytes_render names uses FieldD MsgD FileD decimal IsKey eval1_var eval1_call isSlice_shape isMessage_shape depth_le
  toDigits_isDigit decimal_ne_nil digit_range)
open Gen (PKind)
open Package (EnumD qualify)

/-- Between two tokens, where line breaks are white space. -/
local notation "btw" => Mode.between

theorem file_flatMap {α : Type} (l : List α) (f : α → List Item) : file (l.flatMap f) = l.flatMap fun x => file (f x) := by
  simp [file, List.flatMap_assoc]

theorem file_map {α : Type} (l : List α) (f : α → Item) : file (l.map f) = l.flatMap fun x => (f x).toks := by
  simp [file, List.flatMap_map]

theorem structItemsAll_eq (s : Bytes) (ms : List MsgD) : structItemsAll s ms = ms.flatMap fun m => if m.isEntry then [] else structItems s m := by
  induction ms with
  | nil => rfl
  | cons m ms ih => obtain ⟨n, e, fs, es, ms'⟩ := m; rw [structItemsAll, ih]; rfl

/-! ## enums.templ -/

theorem start_digit {semi : Bool} {b : Byte} (h : isDigit b = true) : TsLex.start semi (.byte b) = ([], ⟨semi, .num [.byte b]⟩) := by
  have hr := digit_range h
  have hl : isLetter b = false := by
    cases hl : isLetter b
    · rfl
    · have := letter_range hl; omega
  simp [TsLex.start, hl, h]

theorem run_digits (semi : Bool) (s : Frag) (b : Bytes) (h : ∀ x ∈ b, isDigit x = true) :
    TsLex.run ⟨semi, .num s⟩ (ofBytes b) = ([], ⟨semi, .num (s ++ ofBytes b)⟩) := by
  induction b generalizing s with
  | nil => simp [ofBytes, TsLex.run]
  | cons c cs ih =>
    have h1 : TsLex.step ⟨semi, .num s⟩ (.byte c) = ([], ⟨semi, .num (s ++ [.byte c])⟩) := by simp [TsLex.step, h c (List.mem_cons_self ..)]
    show TsLex.emit (TsLex.step ⟨semi, .num s⟩ (.byte c)).1 (TsLex.run (TsLex.step ⟨semi, .num s⟩ (.byte c)).2 (ofBytes cs)) = _
    rw [h1, TsLex.emit_nil, ih _ fun x hx => h x (List.mem_cons_of_mem _ hx)]
    simp [ofBytes]

theorem run_number (n : Nat) : TsLex.run btw (ofBytes (decimal n ++ enum_t4)) = ([.num (ofBytes (decimal n)), .op go!","], btw) := by
  have hd := toDigits_isDigit n
  rw [ofBytes_append]
  cases hb : decimal n with
  | nil => exact absurd hb (decimal_ne_nil n)
  | cons c cs =>
    rw [hb] at hd
    have h1 : TsLex.run btw (ofBytes (c :: cs)) = ([], ⟨false, .num (ofBytes (c :: cs))⟩) := by
      show TsLex.emit (TsLex.start false (.byte c)).1 (TsLex.run (TsLex.start false (.byte c)).2 (ofBytes cs)) = _
      rw [start_digit (hd c (List.mem_cons_self ..)), TsLex.emit_nil, run_digits _ _ _ fun x hx => hd x (List.mem_cons_of_mem _ hx)]
      rfl
    rw [TsLex.run_append, h1]
    rfl

theorem shows_enum (fuel : Nat) (s : Bytes) (e : EnumD) (h : EnumOk s e) :
    Shows (Tmpl.run lang defs (fuel + 1) id!"enum" (.enum s e)) btw (enumItem s e).toks btw := by
  rw [run_call (b := enumBody) rfl]
  refine Shows.cast (ts := [.word go!"enum", .word (camel (qualify s e.name)), .op go!"{"] ++
    ((e.values.mapIdx fun i v => [.word (ofBytes v), .op go!"="] ++ [.num (ofBytes (decimal i)), .op go!","]).flatten ++ [.op go!"}", .nl])) ?_ ?_
  · refine shows_take 5 (env' := [(id!"enumName", .str (camelCase (qualify s e.name))), (0, .enum s e)])
      (t := render (names [camelCase (qualify s e.name)]) (.lit enum_t0 <| .lit enum_t1 <| .hole 0 <| .lit enum_t2 .nil)) (b := btw) (by kernel_rfl) ?_ ?_
    · tlex_by [.word go!"enum", .word [.hole 0], .op go!"{"] [0]
      holes h.name
    refine shows_count id!"i" id!"v" _ e.values rfl _ ?_ ?_
    · intro j v hv
      refine shows_assign id!"val" _ (x := .enumValue v) ?_ ?_
      · rw [eval1_var (x := .enum s e) (as := [.int j]) rfl rfl]
        show (e.values[j]?).map _ = _
        rw [hv]; rfl
      · refine ⟨render (names [v]) (.hole 0 <| .lit enum_t3 .nil) ++ (decimal j ++ enum_t4), ?_, ?_⟩
        · show some (v ++ (enum_t3 ++ (decimal j ++ (enum_t4 ++ [])))) = _
          simp [render, names]
        · rw [ofBytes_append]
          refine run_seq ?_ (run_number j)
          tlex_by [.word [.hole 0], .op go!"="] [0]
          holes (h.values v (List.mem_of_getElem? hv))
    · exact ⟨enum_t5 ++ [], rfl, by decide +kernel⟩
  · simp only [enumItem, Item.toks]
    rw [List.flatMap_def (l := List.mapIdx _ _)]
    have : (e.values.mapIdx fun i v => ([.word (ofBytes v), .op go!"="] ++ [.num (ofBytes (decimal i)), .op go!","] : List Tok)) =
        List.map (fun v : Ident × Frag => [.word v.1, .op go!"=", .num v.2, .op go!","]) (e.values.mapIdx fun i v => (ofBytes v, ofBytes (decimal i))) :=
      List.ext_getElem (by simp) fun j h1 h2 => by simp
    rw [this]
    simp

/-! ## structs.templ -/

theorem findValue_eq {f : FieldD} (h : FieldOk f) : findValue f = some (tyText f) := by
  have : (findValue f).isSome = true := by
    obtain ⟨n, s, k, t⟩ := f
    have hk : k ≠ .group := h.kind
    cases s with
    | one r => cases k <;> first | contradiction | rfl
    | many => cases k <;> first | contradiction | rfl
    | map kk =>
      have hkk := h.key kk rfl
      cases kk <;> first | exact absurd hkk (by decide) | (cases k <;> first | contradiction | rfl)
  rw [tyText]
  cases hv : findValue f <;> simp_all

/-- The text of the type of a field. -/
theorem ty_text {f : FieldD} (h : FieldOk f) (rest : Chunks) : render (fieldNames f) (cTy f.shape f.kind rest) = tyText f ++ render (fieldNames f) rest := by
  obtain ⟨n, s, k, t⟩ := f
  have hk : k ≠ .group := h.kind
  cases s with
  | one r => cases k <;> first | contradiction | (simp [cTy, cElem, render, fieldNames, names, tyText, findValue, findElem, typeLUT])
  | many => cases k <;> first | contradiction | (simp [cTy, cArr, cElem, render, fieldNames, names, tyText, findValue, findElem, typeLUT])
  | map kk =>
    have hkk := h.key kk rfl
    cases kk <;> first
      | exact absurd hkk (by decide)
      | (cases k <;> first | contradiction | (simp [cTy, cElem, render, fieldNames, names, tyText, findValue, findElem, typeLUT, keyType, typeName]))

/-- The three shapes of a type. -/
def norm : GoText.Shape → GoText.Shape
  | .one _ => .one false
  | .many => .many
  | .map _ => .map .string

/-- A text in which the type of a field occurs, when its tokens are those of `T` of the type. -/
theorem lex_typed {f : FieldD} (h : FieldOk f) (c : GoText.Shape → PKind → Chunks) (T : Ident → Ty → List Tok) (hc : ∀ s k, c s k = c (norm s) k)
    (h1 : ∀ s, s = .one false ∨ s = .many ∨ s = .map .string → ∀ k, k ≠ .group →
      TsLex.run btw (flat (c s k)) = (T [.hole 0] (hTy s k), btw) ∧ uses (fieldHoles s k) (flat (c s k)) = true)
    (h2 : ∀ σ n (t : Ty) (t' : Ty), t.toks.map (Tok.fill σ) = t'.toks → (T n t).map (Tok.fill σ) = T (Text.fill σ n) t') :
    TsLex.run btw (ofBytes (render (fieldNames f) (c f.shape f.kind))) = (T (lower f.name) (fieldTy f), btw) := by
  have hs : norm f.shape = .one false ∨ norm f.shape = .many ∨ norm f.shape = .map .string := by cases f.shape <;> simp [norm]
  have ht : hTy f.shape f.kind = hTy (norm f.shape) f.kind := by cases f.shape <;> rfl
  have hh : fieldHoles f.shape f.kind = fieldHoles (norm f.shape) f.kind := by cases f.shape <;> rfl
  obtain ⟨h3, h4⟩ := h1 _ hs f.kind h.kind
  rw [← hc, ← ht] at h3
  rw [← hc, ← hh] at h4
  refine run_render _ h3 _ h4 ?_ (field_words h)
  rw [h2 _ _ _ (fieldTy f)]
  · congr 1
  · clear hs ht hh h3 h4 h1 h2
    obtain ⟨n, s, k, t⟩ := f
    have hk : k ≠ .group := h.kind
    cases s with
    | one r => cases k <;> first | contradiction | kernel_rfl
    | many => cases k <;> first | contradiction | kernel_rfl
    | map kk =>
      have hkk := h.key kk rfl
      cases kk <;> first
        | exact absurd hkk (by decide)
        | (cases k <;> first | contradiction | kernel_rfl)

/-- The tokens of one parameter. -/
def paramTok (n : Ident) (t : Ty) : List Tok := .word n :: .op go!":" :: t.toks ++ [.op go!","]

/-- The tokens of one property. -/
def propertyToks (n : Ident) (t : Ty) : List Tok := (property n t).flatMap Member.toks

theorem lex_param {f : FieldD} (h : FieldOk f) :
    TsLex.run btw (ofBytes (render (fieldNames f) (cParam f.shape f.kind))) = (paramTok (lower f.name) (fieldTy f), btw) := by
  refine lex_typed h cParam paramTok (fun s k => by cases s <;> rfl) ?_ ?_
  · intro s hs k hk
    rcases hs with rfl | rfl | rfl <;> cases k <;> first | contradiction | exact ⟨by decide +kernel, by decide +kernel⟩
  · intro σ n t t' ht
    simp only [paramTok, List.map_cons, List.map_append, List.cons_append, ht]
    rfl

theorem lex_property {f : FieldD} (h : FieldOk f) :
    TsLex.run btw (ofBytes (render (fieldNames f) (cProperty f.shape f.kind))) = (propertyToks (lower f.name) (fieldTy f), btw) := by
  refine lex_typed h cProperty propertyToks (fun s k => by cases s <;> rfl) ?_ ?_
  · intro s hs k hk
    rcases hs with rfl | rfl | rfl <;> cases k <;> first | contradiction | exact ⟨by decide +kernel, by decide +kernel⟩
  · intro σ n t t' ht
    simp only [propertyToks, property, Member.toks, List.flatMap_cons, List.flatMap_nil, List.map_cons, List.map_append, List.cons_append, ht, toks_block,
      stmts, Stmt.toks, setField, priv, this, TsAst.Expr.toks, TsAst.Expr.toksWith, List.map_nil, Tok.fill, Text.fill_append]
    rfl

/-- structs.templ 14 -/
theorem lex_set {f : FieldD} (h : FieldOk f) :
    TsLex.run btw (ofBytes (render (names [lowercaseCamelCase f.name]) (.lit structs_t11 <| .hole 0 <| .lit structs_t12 <| .hole 0 <| .lit structs_t13 .nil))) =
      (stmts [setField (lower f.name)], btw) := by
  tlex_by (stmts [setField [.hole 0]]) [0]
  holes h.name

end TsText
