import Verif.Text.GoPrintFile

/-!
# What the templates print, III: maps and whole declarations without loops
-/

namespace GoText

open Utils Text GoAst Tmpl GoTempl
open Gen (PKind)
open Package (EnumD qualify)

variable {lib : Lib} (call : Nat → Val → Option Bytes) (env : Env Val)

/-! ## encodeMap.templ, decodeMap.templ, structs.templ 14-17 -/

/-- encodeMap.templ; hole 0 is the identifier of the field, 1 and 2 the kinds of keys and values, 3 the method for keys. -/
def cEncodeMap (k : PKind) : Chunks :=
  .lit encodeMap_t0 <| .hole 0 <| .lit encodeMap_t1 <| .lit encodeMap_t2 <| .lit str!"polyglot." <| .hole 1 <| .lit encodeMap_t3 <|
  .lit str!"polyglot." <| .hole 2 <| .lit encodeMap_t4 <| .lit str!"polyglot." <| .hole 1 <| .lit encodeMap_t5 <|
  .lit str!"polyglot." <| .hole 2 <| .lit encodeMap_t6 <|
  .sub (.sub (.lit encodeMap_t10 <| .lit str!"." <| .hole 3 <| .lit encodeMap_t11 .nil) .nil) <|
  .sub (match k with
    | .message => .lit encodeMap_t12 .nil
    | .enum => .sub (.lit encodeMap_t13 <| .lit (GetLUTEncoder k) <| .lit encodeMap_t14 .nil) .nil
    | k => .sub (.lit encodeMap_t15 <| .lit (GetLUTEncoder k) <| .lit encodeMap_t16 .nil) .nil) <|
  .lit encodeMap_t17 .nil

/-- `encodeMapFunc` with these holes. -/
def hEncodeMap (k : PKind) : Decl :=
  .func (some (go!"x", .name go!"#0Map")) go!"Encode" [(go!"b", .ptr (.qual go!"polyglot" go!"Buffer"))] none
    (block [.ite (.eq vx vnil)
      (block [.expr (.call3 (.sel encoder go!"Map") (.num go!"0") (polyglot [.hole 1]) (polyglot [.hole 2]))])
      (block [.expr (.call3 (.sel encoder go!"Map") (uint32 (len vx)) (polyglot [.hole 1]) (polyglot [.hole 2])),
        .range go!"k" go!"v" vx (block [.expr (.call1 (.sel encoder [.hole 3]) vk), encEntry vv k])]) false])

theorem shows_encodeMap (o n t : Bytes) (kk k : PKind) (hkk : IsKey kk) (hk : k ≠ .group) (ho : IsName (camelCase (qualify o n))) :
    Shows (exec lang call encodeMapBody env (.field o ⟨n, .map kk, k, t⟩)) false (encodeMapFunc (mapName o ⟨n, .map kk, k, t⟩) kk k).toks false := by
  refine .of (t := render (names [camelCase (qualify o n), kindName kk, kindName k, methodName kk]) (cEncodeMap k)) ?_ ?_
  · cases kk <;> first | exact absurd hkk (by decide) | (cases k <;> first | contradiction | kernel_rfl)
  · refine run_render (c := cEncodeMap k) (hEncodeMap k).toks ?_ [0, 1, 2, 3] ?_ ?_ ?_
    · cases k <;> first | contradiction | decide +kernel
    · cases k <;> first | contradiction | decide +kernel
    · cases kk <;> first | exact absurd hkk (by decide) | (cases k <;> first | contradiction | kernel_rfl)
    · holes ⟨ho, (key_names kk hkk).1, isName_kind k hk, (key_names kk hkk).2.2⟩

/-- The text of the type of the values of a map. -/
def cValueTy (k : PKind) (i : Nat) (rest : Chunks) : Chunks :=
  match k with
  | .message => .lit str!"*" <| .hole i rest
  | .enum => .hole i rest
  | k => .lit ((typeLUT k).getD []) rest

/-- decodeMap.templ; hole 0 is the identifier of the field, 1 the type of keys, 2 the method for keys, 3 the identifier of the
type of the values. -/
def cDecodeMap [Lib] (k : PKind) : Chunks :=
  .lit decodeMap_t0 <| .hole 0 <| .lit decodeMap_t1 <| .hole 1 <| .lit decodeMap_t2 <| .sub .nil <| .lit decodeMap_t5 <|
  cValueTy k 3 <| .lit decodeMap_t6 <|
  .sub (match k with
    | .enum => .lit decodeMap_t7 <| .lit str!"Value" <| .lit decodeMap_t8 .nil
    | _ => .nil) <|
  .lit decodeMap_t9 <| .sub (.sub (.lit decodeMap_t16 <| .lit str!"." <| .hole 2 <| .lit decodeMap_t17 .nil) .nil) <| .lit decodeMap_t18 <|
  .sub (match k with
    | .message => .lit decodeMap_t19 <| .hole 3 <| .lit decodeMap_t20 .nil
    | .enum => .sub (.lit str!"Value" <| .lit decodeMap_t21 <| .lit (GetLUTDecoder k) <| .lit decodeMap_t22 <| .hole 3 <| .lit decodeMap_t23 <|
        .lit str!"Value" <| .lit decodeMap_t24 .nil) .nil
    | k => .sub (.lit decodeMap_t25 <| .lit (GetLUTDecoder k) <| .lit decodeMap_t26 .nil) .nil) <|
  .lit decodeMap_t27 .nil

/-- `decodeMapFunc` with these holes. -/
def hDecodeMap [Lib] (k : PKind) : Decl :=
  .func (some (go!"x", .name go!"#0Map")) go!"decode" [(go!"d", tdecoder), (go!"size", tuint32)] (some terror) (block (
    [.if1 (.eq (.var go!"size") (.num go!"0")) (block [.ret1 vnil]), .var go!"k" (.name [.hole 1]), .var go!"v" (elemTy k [.hole 3])] ++
    (if k = .enum then [.var go!"ValueTemp" tuint32] else []) ++
    [.var go!"err" terror,
     .for3 go!"i" (uint32 (.num go!"0")) (.lt vi (.var go!"size")) (block (
       [.assign2 vk verr (.call0 (.sel vd [.hole 2])), check] ++ decEntry go!"v" k [.hole 3] go!"ValueTemp" ++ [check, .assign (.index vx vk) vv])),
     .ret1 vnil]))

theorem shows_decodeMap (o n t : Bytes) (kk k : PKind) (hkk : IsKey kk) (hk : k ≠ .group) (ho : IsName (camelCase (qualify o n)))
    (ht : k = .message ∨ k = .enum → IsName (camelCase t)) :
    Shows (exec lang call decodeMapBody env (.field o ⟨n, .map kk, k, t⟩)) false
      (decodeMapFunc (mapName o ⟨n, .map kk, k, t⟩) kk k (camel t)).toks false := by
  refine .of (t := render (names [camelCase (qualify o n), typeName kk, methodName kk, camelCase t]) (cDecodeMap k)) ?_ ?_
  · cases kk <;> first | exact absurd hkk (by decide) | (cases k <;> first | contradiction | kernel_rfl)
  · refine run_render (c := cDecodeMap k) (hDecodeMap k).toks ?_ (if k = .message ∨ k = .enum then [0, 1, 2, 3] else [0, 1, 2]) ?_ ?_ ?_
    · cases lib <;> cases k <;> first | contradiction | decide +kernel
    · cases lib <;> cases k <;> first | contradiction | decide +kernel
    · cases lib <;> cases kk <;> first | exact absurd hkk (by decide) | (cases k <;> first | contradiction | kernel_rfl)
    · have := key_names kk hkk
      split
      · holes ⟨ho, this.2.1, this.2.2, ht ‹_›⟩
      · holes ⟨ho, this.2.1, this.2.2⟩

/-- structs.templ 11-17; hole 0 is the identifier of the field, 1 the type of keys, 2 the identifier of the type of the values. -/
def cMapDecls (k : PKind) : Chunks :=
  .lit structs_t8 <| .lit structs_t9 <| .lit structs_t10 <| .hole 0 <| .lit structs_t11 <| .hole 1 <| .lit structs_t12 <| cValueTy k 2 <|
  .lit structs_t13 <| .hole 0 <| .lit structs_t14 <| .hole 1 <| .lit structs_t15 <| cValueTy k 2 <|
  .lit structs_t16 <| .hole 1 <| .lit structs_t17 <| cValueTy k 2 <| .lit structs_t18 .nil

theorem lex_mapDecls (o n t : Bytes) (kk k : PKind) (hkk : IsKey kk) (hk : k ≠ .group) (ho : IsName (camelCase (qualify o n)))
    (ht : k = .message ∨ k = .enum → IsName (camelCase t)) :
    Text.run ⟨false, .none⟩ (ofBytes (render (names [camelCase (qualify o n), typeName kk, camelCase t]) (cMapDecls k))) =
      (file (mapDecls (mapName o ⟨n, .map kk, k, t⟩) (scalarTy kk) (elemTy k (camel t))), ⟨false, .none⟩) := by
  refine run_render (c := cMapDecls k) (file (mapDecls go!"#0Map" (.name [.hole 1]) (elemTy k [.hole 2]))) ?_
    (if k = .message ∨ k = .enum then [0, 1, 2] else [0, 1]) ?_ ?_ ?_
  · cases k <;> first | contradiction | decide +kernel
  · cases k <;> first | contradiction | decide +kernel
  · cases kk <;> first | exact absurd hkk (by decide) | (cases k <;> first | contradiction | kernel_rfl)
  · have := key_names kk hkk
    split
    · holes ⟨ho, this.2.1, ht ‹_›⟩
    · holes ⟨ho, this.2.1⟩

/-! ## Declarations without loops -/

/-- One element of a new struct. -/
def elementToks (f : Ident × Ident) : List Tok := [.word f.1, .op go!":", .word f.2, .op go!"(", .op go!")", .op go!","]

/-- `newFunc` before the elements. -/
def newHead (t : Ident) : List Tok := (newFunc t []).toks.take 11

theorem newFunc_toks (t : Ident) (fs : List (Ident × Ident)) :
    (newFunc t fs).toks = newHead t ++ (fs.flatMap elementToks ++ [.op go!"}", semi, .op go!"}", semi]) := by
  simp only [newFunc, newHead, Decl.toks, Stmt.toks, Ty.toks, GoAst.Expr.toks, params, block, List.foldr, List.flatMap_nil]
  simp only [List.append_assoc, List.cons_append, List.nil_append, List.append_nil, List.take]
  rfl

/-- The elements that one field gives. -/
def fieldElements (f : FieldD) : List Tok :=
  if f.Kind = .message ∧ f.IsRepeated = false then elementToks (camel f.name, go!"New" ++ camel f.type) else []

theorem fieldElements_flatMap (fs : List FieldD) :
    ((fs.filter fun f => f.Kind = .message ∧ f.IsRepeated = false).map fun f => (camel f.name, go!"New" ++ camel f.type)).flatMap elementToks = fs.flatMap fieldElements := by
  induction fs with
  | nil => rfl
  | cons f fs ih =>
    simp only [List.filter_cons, List.flatMap_cons, fieldElements]
    by_cases h : f.Kind = .message ∧ f.IsRepeated = false
    · rw [if_pos (by simpa using h), if_pos h, List.map_cons, List.flatMap_cons, ih]
    · rw [if_neg (by simpa using h), if_neg h, ih]; rfl

theorem shows_getFunc (s n : Bytes) (e : Bool) (fs : List FieldD) (es : List EnumD) (ms : List MsgD) (hn : IsName (camelCase (qualify s n)))
    (h : ∀ f ∈ fs, FieldOk (qualify s n) f) :
    Shows (exec lang call getFuncBody [(0, .message s (.mk n e fs es ms))] (.message s (.mk n e fs es ms))) false
      (newFunc (camel (qualify s n)) (newElements fs)).toks false := by
  cases lib with
  | v2 =>
    open LibV2 in
    refine .of (t := render (names [camelCase (qualify s n)]) (.lit getFunc_t0 <| .hole 0 <| .lit getFunc_t1 <| .hole 0 <| .lit getFunc_t2 <| .hole 0 <|
      .lit getFunc_t3 .nil)) (by kernel_rfl) ?_
    lex_by (newFunc [.hole 0] []).toks [0]
    holes hn
  | v1 =>
    open LibV1 in
    rw [newFunc_toks]
    show Shows _ _ (_ ++ (((fs.filter fun f => f.Kind = .message ∧ f.IsRepeated = false).map fun f => (camel f.name, go!"New" ++ camel f.type)).flatMap elementToks ++ _)) _
    rw [fieldElements_flatMap]
    refine shows_take 7 (env' := [(0, .message s (.mk n e fs es ms))]) (t := render (names [camelCase (qualify s n)]) (.lit getFunc_t0 <| .hole 0 <|
      .lit getFunc_t1 <| .hole 0 <| .lit getFunc_t2 <| .hole 0 <| .lit str!"{\n        " .nil)) (b := false) (by kernel_rfl) ?_ ?_
    · lex_by (newHead [.hole 0]) [0]
      holes hn
    refine shows_index id!"i" id!"v" _ fs rfl _ ?_ ⟨str!"}\n}\n" ++ [], rfl, by decide +kernel⟩
    intro j f hj
    have hok := h f (List.mem_of_getElem? hj)
    refine shows_assign id!"field" _ (x := .field (qualify s n) f) ?_ ?_
    · rw [eval1_var (x := .message s (.mk n e fs es ms)) (as := [.int j]) rfl rfl]
      show (fs[j]?).map _ = _
      rw [hj]; rfl
    obtain ⟨fn, sh, k, t⟩ := f
    by_cases hm : (∃ r, sh = .one r) ∧ k = .message
    · obtain ⟨⟨r, rfl⟩, rfl⟩ := hm
      refine .of (t := render (names [camelCase fn, camelCase t]) (.sub (.hole 0 <| .lit str!": New" <| .hole 1 <| .lit str!"(),\n            " .nil) .nil)) (by kernel_rfl) ?_
      refine run_render (elementToks ([.hole 0], go!"New#1")) ?_ [0, 1] ?_ ?_ ?_
      · decide +kernel
      · decide +kernel
      · kernel_rfl
      · holes ⟨hok.name, hok.type (.inl rfl)⟩
    · have : fieldElements ⟨fn, sh, k, t⟩ = [] := by
        rw [fieldElements, if_neg]
        rintro ⟨h1, h2⟩
        apply hm
        cases sh <;> simp [FieldD.IsRepeated] at h2
        exact ⟨⟨_, rfl⟩, h1⟩
      rw [this]
      cases sh with
      | one r => cases k <;> first | exact absurd ⟨⟨_, rfl⟩, rfl⟩ hm | exact ⟨[], by kernel_rfl, rfl⟩
      | many => cases k <;> exact ⟨[], by kernel_rfl, rfl⟩
      | map kk => exact ⟨[], by kernel_rfl, rfl⟩

theorem shows_error (s n : Bytes) (e : Bool) (fs : List FieldD) (es : List EnumD) (ms : List MsgD) (hn : IsName (camelCase (qualify s n))) :
    Shows (exec lang call errorBody env (.message s (.mk n e fs es ms))) false (errorFunc (camel (qualify s n))).toks false := by
  refine .of (t := render (names [camelCase (qualify s n)]) (.lit error_t0 <| .hole 0 <| .lit error_t1 .nil)) (by kernel_rfl) ?_
  lex_by (errorFunc [.hole 0]).toks [0]
  holes hn

theorem shows_decode (s n : Bytes) (e : Bool) (fs : List FieldD) (es : List EnumD) (ms : List MsgD) (hn : IsName (camelCase (qualify s n))) :
    Shows (exec lang call decodeBody env (.message s (.mk n e fs es ms))) false (decodeApi (camel (qualify s n))).toks false := by
  by_lib
    refine .of (t := render (names [camelCase (qualify s n)]) (.lit decode_t0 <| .hole 0 <| .lit decode_t1 .nil)) (by kernel_rfl) ?_
    lex_by (decodeApi [.hole 0]).toks [0]
    holes hn

theorem shows_errors (v : Val) : Shows (exec lang call errorsBody env v) false errorsDecl.toks false :=
  .of (t := errors_t0 ++ []) rfl (by cases lib <;> decide +kernel)

end GoText
