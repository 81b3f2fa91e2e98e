import Verif.Text.TsPrints

/-!
# What the templates of the TypeScript generator print, I: texts without loops
-/

namespace TsText

open Utils Tmpl TsAst TsTempl
open Text (Frag Sym ofBytes ofBytes_append isLetter isWordChar)
open TsLex (Tok Mode)
open RustLex (IsWord)
open GoText (Chunks render flat ofBytes_render names uses FieldD MsgD FileD decimal IsKey)
open Gen (PKind)
open Package (EnumD qualify)

variable (call : Nat → Val → Option Bytes) (env : Env Val)

/-- Between two tokens, where line breaks are white space. -/
local notation "btw" => Mode.between

/-! ## encode.templ -/

/-- structs.go 170-176: the call for a singular field. -/
def encText (f : FieldD) : Bytes :=
  if f.kind = .enum then (encodeLUT f.kind).getD [] ++ str!"(encoded, this." ++ lowercaseCamelCase f.name ++ str!" as number)"
  else (encodeLUT f.kind).getD [] ++ str!"(encoded, this." ++ lowercaseCamelCase f.name ++ str!")"

/-- encode.templ 8 without the line break before and with one after it. -/
def cEncValue (k : PKind) : Chunks :=
  .lit (encode_t1.drop 1) <| .lit ((encodeLUT k).getD []) <| match k with
  | .enum => .lit str!"(encoded, this." <| .hole 0 <| .lit str!" as number)" <| .lit str!"\n" .nil
  | _ => .lit str!"(encoded, this." <| .hole 0 <| .lit str!")" <| .lit str!"\n" .nil

theorem encText_eq (f : FieldD) (hk : f.kind ≠ .message) (hg : f.kind ≠ .group) :
    encode_t1.drop 1 ++ (encText f ++ str!"\n") = render (names [lowercaseCamelCase f.name]) (cEncValue f.kind) := by
  obtain ⟨n, s, k, t⟩ := f
  cases k <;> first | contradiction | (simp [encText, cEncValue, render, names])

theorem lex_encValue (f : FieldD) (hk : f.kind ≠ .message) (hg : f.kind ≠ .group) (hn : IsWord (lowercaseCamelCase f.name)) :
    TsLex.run btw (ofBytes (encode_t1.drop 1 ++ (encText f ++ str!"\n"))) = (stmts [encValue (lower f.name) f.kind], btw) := by
  rw [encText_eq f hk hg]
  obtain ⟨n, s, k, t⟩ := f
  simp only at hk hg hn
  show TsLex.run _ (ofBytes (render (names [lowercaseCamelCase n]) (cEncValue k))) = (stmts [encValue (lower n) k], _)
  tlex_cases k (stmts [encValue [.hole 0] k]) [0]
  holes hn

/-- encode.templ 26-36 -/
def cEncSlice (k : PKind) : Chunks :=
  .sub (match k with
    | .message => .lit encodeSlices_t1 <| .lit str!"encodeArray" <| .lit encodeSlices_t2 <| .hole 0 <| .lit encodeSlices_t3 <| .hole 0 <| .lit encodeSlices_t4 .nil
    | k => .lit encodeSlices_t5 <| .lit str!"encodeArray" <| .lit encodeSlices_t6 <| .hole 0 <| .lit encodeSlices_t7 <| .lit (getKindLUT k) <| .lit encodeSlices_t8 <| .hole 0 <|
        .lit encodeSlices_t9 <| .lit (getLUTEncoder k) <| .lit encodeSlices_t10 .nil) .nil

theorem shows_encSlice (n t : Bytes) (k : PKind) (hg : k ≠ .group) (hn : IsWord (lowercaseCamelCase n)) :
    Shows (exec lang call encodeSlices_r0 ((id!"field", .field ⟨n, .many, k, t⟩) :: env) (.field ⟨n, .many, k, t⟩))
      btw (stmts (encSlice (lower n) k)) btw := by
  refine .of (t := render (names [lowercaseCamelCase n]) (cEncSlice k)) ?_ ?_
  · cases k <;> first | contradiction | kernel_rfl
  · tlex_cases k (stmts (encSlice [.hole 0] k)) [0]
    holes hn

/-- The name after `Kind.`, the name of the type and the names of the functions of a key. -/
def kindName (k : PKind) : Bytes := ((getKind k).getD []).drop 5
def typeName (k : PKind) : Bytes := (typeLUT k).getD []

theorem isWord_of {c : Byte} {cs : Bytes} (h1 : isLetter c = true) (h2 : cs.all isWordChar = true) : IsWord (c :: cs) :=
  ⟨c, cs, rfl, h1, List.all_eq_true.mp h2⟩

theorem isWord_kind (k : PKind) (h : k ≠ .group) : IsWord (kindName k) := by
  cases k <;> first | contradiction | exact isWord_of (by decide +kernel) (by decide +kernel)

theorem key_words (k : PKind) (h : IsKey k) : IsWord (kindName k) ∧ IsWord (typeName k) ∧ IsWord (getLUTEncoder k) ∧ IsWord (getLUTDecoder k) := by
  revert h
  cases k <;> intro h <;> first
    | exact absurd h (by decide)
    | exact ⟨isWord_of (by decide +kernel) (by decide +kernel), isWord_of (by decide +kernel) (by decide +kernel),
        isWord_of (by decide +kernel) (by decide +kernel), isWord_of (by decide +kernel) (by decide +kernel)⟩

/-- encode.templ 44-68; hole 0 is the field, 1 and 2 the kinds of keys and values, 3 the function for keys. -/
def cEncMap (k : PKind) : Chunks :=
  .sub (.lit encodeMessages_t1 <| .lit str!"encodeMap" <| .lit encodeMessages_t2 <| .hole 0 <| .lit encodeMessages_t3 <| .lit str!"Kind." <| .hole 1 <| .lit encodeMessages_t4 <|
    .lit str!"Kind." <| .hole 2 <| .lit encodeMessages_t5 <| .hole 0 <| .lit encodeMessages_t6 <|
    .sub (.sub (.lit encodeMessages_t10 <| .hole 3 <| .lit encodeMessages_t11 .nil) .nil) <|
    .sub (match k with
      | .message => .lit encodeMessages_t12 .nil
      | .enum => .sub (.lit encodeMessages_t13 <| .lit str!"encodeUint32" <| .lit encodeMessages_t14 .nil) .nil
      | k => .sub (.lit encodeMessages_t15 <| .lit (getLUTEncoder k) <| .lit encodeMessages_t16 .nil) .nil) <|
    .lit encodeMessages_t17 .nil) .nil

/-- `encMap` with these holes. -/
def hEncMap (k : PKind) : List Stmt :=
  [setEncoded (fn go!"encodeMap" (args4 encoded (.field (priv [.hole 0]) go!"size") (.field (.var go!"Kind") [.hole 1]) (.field (.var go!"Kind") [.hole 2]))),
   .forEach (priv [.hole 0]) [go!"v", go!"k"] (block [
     setEncoded (fn [.hole 3] (args2 encoded (.var go!"k"))),
     setEncoded (match k with
       | .message => encodeOf (.var go!"v")
       | .enum => fn go!"encodeUint32" (args2 encoded (.as (.var go!"v") tnumber))
       | k => fn (encoder k) (args2 encoded (.var go!"v")))])]

theorem shows_encMap (n t : Bytes) (kk k : PKind) (hkk : IsKey kk) (hk : k ≠ .group) (hn : IsWord (lowercaseCamelCase n)) :
    Shows (exec lang call encodeMessages_r0 ((id!"field", .field ⟨n, .map kk, k, t⟩) :: env) (.field ⟨n, .map kk, k, t⟩))
      btw (stmts (encMap (lower n) kk k)) btw := by
  refine .of (t := render (names [lowercaseCamelCase n, kindName kk, kindName k, getLUTEncoder kk]) (cEncMap k)) ?_ ?_
  · cases kk <;> first | exact absurd hkk (by decide) | (cases k <;> first | contradiction | kernel_rfl)
  · refine run_render (c := cEncMap k) (stmts (hEncMap k)) ?_ [0, 1, 2, 3] ?_ ?_ ?_
    · cases k <;> first | contradiction | decide +kernel
    · cases k <;> first | contradiction | decide +kernel
    · cases kk <;> first | exact absurd hkk (by decide) | (cases k <;> first | contradiction | kernel_rfl)
    · have := key_words kk hkk
      holes ⟨hn, this.1, isWord_kind k hk, this.2.2.1⟩

theorem shows_encMessage (n t : Bytes) (r : Bool) (hn : IsWord (lowercaseCamelCase n)) :
    Shows (exec lang call encodeMessages_r0 ((id!"field", .field ⟨n, .one r, .message, t⟩) :: env) (.field ⟨n, .one r, .message, t⟩))
      btw (stmts (encMessage (lower n))) btw := by
  refine .of (t := render (names [lowercaseCamelCase n]) (.sub (.lit encodeMessages_t18 <| .hole 0 <| .lit encodeMessages_t19 .nil) .nil)) (by kernel_rfl) ?_
  tlex_by (stmts (encMessage [.hole 0])) [0]
  holes hn

/-! ## decode.templ -/

/-- The text of an element type; hole 1 is the identifier of the type. -/
def cElem (k : PKind) (rest : Chunks) : Chunks :=
  match k with
  | .message => .hole 1 rest
  | .enum => .hole 1 rest
  | k => .lit ((typeLUT k).getD []) rest

/-- The text of the type of a field. -/
def tyText (f : FieldD) : Bytes := (findValue f).getD []

/-- decode.templ 8-27; `ty` is the text of the type and `el` that of the element type. -/
def cDecSlice (k : PKind) (ty el : Chunks → Chunks) : Chunks :=
  .lit decode_t2 <| .lit decode_t3 <| .hole 0 <| .lit decode_t4 <| .lit str!"decodeArray" <| .lit decode_t5 <| .hole 0 <| .lit decode_t6 <| .hole 0 <| .lit decode_t7 <|
  ty <| .lit decode_t8 <| .hole 0 <| .lit decode_t9 <|
  .sub (match k with
    | .enum => .lit decode_t10 <| .lit str!"decodeUint32" <| .lit decode_t11 <| ty <| .lit decode_t12 .nil
    | .message => .sub (.lit decode_t13 <| el <| .lit decode_t14 .nil) .nil
    | k => .sub (.lit decode_t15 <| .lit (getLUTDecoder k) <| .lit decode_t16 .nil) .nil) <|
  .hole 0 <| .lit decode_t17 .nil

/-- Which holes. -/
def elemHoles (k : PKind) : List Nat := if k = .message ∨ k = .enum then [0, 1] else [0]

theorem elem_words {n t : Bytes} {rest : List Bytes} {k : PKind} (hn : IsWord (lowercaseCamelCase n)) (ht : k = .message ∨ k = .enum → IsWord (camelCase t)) :
    ∀ i ∈ elemHoles k, IsWord (names (lowercaseCamelCase n :: camelCase t :: rest) i) := by
  unfold elemHoles
  split
  · holes ⟨hn, ht ‹_›⟩
  · holes hn

/-- `T[]` -/
def cArr (k : PKind) (rest : Chunks) : Chunks := cElem k <| .lit str!"[]" rest

theorem trimSuffix_append (x y : Bytes) : trimSuffix (x ++ y) y = x := by
  simp [trimSuffix]

/-- A name does not end with a bracket. -/
theorem trimSuffix_word {x : Bytes} (h : IsWord x) : trimSuffix x str!"[]" = x := by
  unfold trimSuffix
  rw [if_neg]
  intro he
  have h1 : (0x5D : Byte) ∈ x := by
    refine List.mem_of_mem_drop (i := x.length - (str!"[]" : Bytes).length) ?_
    rw [he]; decide
  obtain ⟨c, cs, rfl, hc, hs⟩ := h
  rcases List.mem_cons.mp h1 with h1 | h1
  · rw [← h1] at hc; exact absurd hc (by decide)
  · exact absurd (hs _ h1) (by decide)

theorem shows_decSlice (n t : Bytes) (k : PKind) (hg : k ≠ .group) (hn : IsWord (lowercaseCamelCase n)) (ht : k = .message ∨ k = .enum → IsWord (camelCase t)) :
    Shows (exec lang call decode_r0 ((id!"field", .field ⟨n, .many, k, t⟩) :: env) (.field ⟨n, .many, k, t⟩))
      btw (stmts (decSlice (lower n) k (camel t))) btw := by
  refine .of (t := render (names [lowercaseCamelCase n, camelCase t]) (cDecSlice k (cArr k) (.hole 1))) ?_ ?_
  · have h1 : exec lang call decode_r0 ((id!"field", .field ⟨n, .many, k, t⟩) :: env) (.field ⟨n, .many, k, t⟩) =
        some (render (names [lowercaseCamelCase n, camelCase t, tyText ⟨n, .many, k, t⟩, trimSuffix (tyText ⟨n, .many, k, t⟩) str!"[]"]) (cDecSlice k (.hole 2) (.hole 3))) := by
      cases k <;> first | contradiction | kernel_rfl
    rw [h1]
    have h2 : k = .message → trimSuffix (tyText ⟨n, .many, k, t⟩) str!"[]" = camelCase t := by
      rintro rfl; exact trimSuffix_append _ _
    revert h2
    cases k <;> first
      | contradiction
      | (intro h2; simp [cDecSlice, cArr, cElem, render, names, tyText, findValue, findElem, typeLUT] at h2 ⊢; done)
      | (intro h2; simp [cDecSlice, cArr, cElem, render, names, tyText, findValue, findElem, typeLUT] at h2 ⊢; exact h2)
  · tlex_cases k (stmts (decSlice [.hole 0] k [.hole 1])) (elemHoles k)
    exact elem_words hn ht

/-- decodeMap.templ; hole 0 is the field, 1 the identifier of the type of the values, 4 the type of keys, 5 the function for keys;
`ty` is the text of the type of the values, `el` the class that decodes them. -/
def cDecMap (k : PKind) (ty el : Chunks → Chunks) : Chunks :=
  .lit decodeMap_t0 <| .lit decodeMap_t1 <| .lit decodeMap_t2 <| .lit decodeMap_t3 <| .hole 0 <| .lit decodeMap_t4 <| .lit str!"decodeMap" <| .lit decodeMap_t5 <| .hole 0 <|
  .lit decodeMap_t6 <| .hole 0 <| .lit decodeMap_t7 <| .hole 4 <| .lit decodeMap_t8 <| ty <| .lit decodeMap_t9 <| .hole 0 <| .lit decodeMap_t10 <|
  .sub (.sub (.lit decodeMap_t16 <| .hole 5 <| .lit decodeMap_t17 .nil) .nil) <| .lit decodeMap_t18 <|
  .sub (match k with
    | .enum => .lit decodeMap_t19 <| .lit str!"decodeUint32" <| .lit decodeMap_t20 <| ty <| .lit decodeMap_t21 .nil
    | .message => .sub (.lit decodeMap_t22 <| el <| .lit decodeMap_t23 .nil) .nil
    | k => .sub (.lit decodeMap_t24 <| .lit (getLUTDecoder k) <| .lit decodeMap_t25 .nil) .nil) <|
  .lit decodeMap_t26 <| .hole 0 <| .lit decodeMap_t27 .nil

/-- `decMap` with these holes. -/
def hDecMap (k : PKind) : List Stmt :=
  [.let1 [.hole 0] (fn go!"decodeMap" (args1 decoded)), setDecoded (bufOf [.hole 0]),
   .constT (temp [.hole 0]) (.obj1 go!"value" (.map (.name [.hole 4]) (elemTy k [.hole 1]))) (.obj1 go!"value" (.new go!"Map" false args0)),
   .for1 go!"i" (.field (.var [.hole 0]) go!"size") (block (
     [.let1 go!"key" (fn [.hole 5] (args1 decoded)), setDecoded (bufOf go!"key")] ++
     readInto go!"value" go!"valueEnum" (bufOf go!"valueEnum") k [.hole 1] (elemTy k [.hole 1]) ++
     [.expr (.call (.field (valueOf [.hole 0]) go!"set") (args2 (.var go!"key") (.var go!"value")))]))]

theorem shows_decodeMap (n t : Bytes) (kk k : PKind) (hkk : IsKey kk) (hk : k ≠ .group) (hn : IsWord (lowercaseCamelCase n))
    (ht : k = .message ∨ k = .enum → IsWord (camelCase t)) :
    Shows (exec lang call decodeMapBody env (.field ⟨n, .map kk, k, t⟩)) btw (stmts (decMap (lower n) kk k (camel t))) btw := by
  refine .of (t := render (names [lowercaseCamelCase n, camelCase t, [], [], typeName kk, getLUTDecoder kk]) (cDecMap k (cElem k) (.hole 1))) ?_ ?_
  · have h1 : exec lang call decodeMapBody env (.field ⟨n, .map kk, k, t⟩) =
        some (render (names [lowercaseCamelCase n, camelCase t, trimSuffix (camelCase t) str!"[]", [], typeName kk, getLUTDecoder kk]) (cDecMap k (cElem k) (.hole 2))) := by
      cases kk <;> first | exact absurd hkk (by decide) | (cases k <;> first | contradiction | kernel_rfl)
    rw [h1]
    clear h1
    have h2 : k = .message → trimSuffix (camelCase t) str!"[]" = camelCase t := fun h => trimSuffix_word (ht (.inl h))
    revert h2
    cases k <;> first
      | contradiction
      | (intro h2; simp [cDecMap, cElem, render, names] at h2 ⊢; done)
      | (intro h2; simp [cDecMap, cElem, render, names] at h2 ⊢; exact h2)
  · refine run_render (c := cDecMap k (cElem k) (.hole 1)) (stmts (hDecMap k)) ?_ (if k = .message ∨ k = .enum then [0, 1, 4, 5] else [0, 4, 5]) ?_ ?_ ?_
    · cases k <;> first | contradiction | decide +kernel
    · cases k <;> first | contradiction | decide +kernel
    · cases kk <;> first | exact absurd hkk (by decide) | (cases k <;> first | contradiction | kernel_rfl)
    · have := key_words kk hkk
      split
      · holes ⟨hn, ht ‹_›, this.2.1, this.2.2.2⟩
      · holes ⟨hn, this.2.1, this.2.2.2⟩

theorem shows_decMessage (n t : Bytes) (r : Bool) (hn : IsWord (lowercaseCamelCase n)) (ht : IsWord (camelCase t)) :
    Shows (exec lang call decode_r1 ((id!"field", .field ⟨n, .one r, .message, t⟩) :: env) (.field ⟨n, .one r, .message, t⟩))
      btw (stmts (decMessage (lower n) (camel t))) btw := by
  refine .of (t := render (names [lowercaseCamelCase n, camelCase t]) (.lit decode_t18 <| .sub (.lit decode_t19 <| .hole 0 <| .lit decode_t20 <| .hole 1 <| .lit decode_t21 <|
    .hole 0 <| .lit decode_t22 .nil) .nil)) (by kernel_rfl) ?_
  tlex_by (stmts (decMessage [.hole 0] [.hole 1])) [0, 1]
  holes ⟨hn, ht⟩

/-- decode.templ 43-54 -/
def cDecOther (k : PKind) : Chunks :=
  .lit decode_t23 <| .sub (match k with
    | .enum => .lit decode_t24 <| .hole 0 <| .lit decode_t25 <| .lit str!"decodeUint32" <| .lit decode_t26 <| .hole 0 <| .lit decode_t27 <| .hole 0 <| .lit decode_t28 <|
        .hole 1 <| .lit decode_t29 <| .hole 0 <| .lit decode_t30 .nil
    | k => .lit decode_t31 <| .hole 0 <| .lit decode_t32 <| .lit (getLUTDecoder k) <| .lit decode_t33 <| .hole 0 <| .lit decode_t34 .nil) .nil

theorem shows_decOther (n t : Bytes) (r : Bool) (k : PKind) (hk : k ≠ .message) (hg : k ≠ .group) (hn : IsWord (lowercaseCamelCase n))
    (ht : k = .message ∨ k = .enum → IsWord (camelCase t)) :
    Shows (exec lang call decode_r2 ((id!"field", .field ⟨n, .one r, k, t⟩) :: env) (.field ⟨n, .one r, k, t⟩))
      btw (stmts (decOther (lower n) k (camel t))) btw := by
  refine .of (t := render (names [lowercaseCamelCase n, camelCase t]) (cDecOther k)) ?_ ?_
  · cases k <;> first | contradiction | kernel_rfl
  · tlex_cases k (stmts (decOther [.hole 0] k [.hole 1])) (elemHoles k)
    exact elem_words hn ht

/-- The tokens of an argument of the constructor. -/
def argToks (f : FieldD) : List Tok := (argOf f).toks ++ [.op go!","]

theorem shows_arg (b : Body) (f : FieldD) (hb : exec lang call b ((id!"field", .field f) :: env) (.field f) = some (lowercaseCamelCase f.name ++ decode_t37))
    (hn : IsWord (lowercaseCamelCase f.name)) :
    Shows (exec lang call b ((id!"field", .field f) :: env) (.field f)) btw (argToks f) btw := by
  refine .of (t := render (names [lowercaseCamelCase f.name]) (.hole 0 <| .lit decode_t37 .nil)) (by rw [hb]; simp [render, names]) ?_
  show TsLex.run _ _ = ((valueOf (temp (lower f.name))).toks ++ [.op go!","], _)
  tlex_by ((valueOf (temp [.hole 0])).toks ++ [.op go!","]) [0]
  holes hn

/-! ## structs.templ -/

/-- The text of the type of a field; hole 1 is the identifier of its message or enum type, 4 the type of keys. -/
def cTy (s : GoText.Shape) (k : PKind) (rest : Chunks) : Chunks :=
  match s with
  | .one _ => cElem k rest
  | .many => cArr k rest
  | .map _ => .lit str!"Map<" <| .hole 4 <| .lit str!", " <| cElem k <| .lit str!">" rest

/-- The type with holes. -/
def hTy (s : GoText.Shape) (k : PKind) : Ty :=
  match s with
  | .one _ => elemTy k [.hole 1]
  | .many => .arr (elemTy k [.hole 1])
  | .map _ => .map (.name [.hole 4]) (elemTy k [.hole 1])

/-- The name of the type of the keys. -/
def keyType (f : FieldD) : Bytes :=
  match f.shape with
  | .map kk => typeName kk
  | _ => []

/-- The names for the holes. -/
def fieldNames (f : FieldD) : Nat → Bytes := names [lowercaseCamelCase f.name, camelCase f.type, [], [], keyType f]

/-- structs.templ 12 -/
def cParam (s : GoText.Shape) (k : PKind) : Chunks := .hole 0 <| .lit structs_t8 <| cTy s k <| .lit structs_t9 .nil

/-- structs.templ 21-31 -/
def cProperty (s : GoText.Shape) (k : PKind) : Chunks :=
  .lit structs_t15 <| .hole 0 <| .lit structs_t16 <| cTy s k <| .lit structs_t17 <| .hole 0 <| .lit structs_t18 <| cTy s k <| .lit structs_t19 <| .hole 0 <|
  .lit structs_t20 <| .hole 0 <| .lit structs_t21 <| .hole 0 <| .lit structs_t22 <| cTy s k <| .lit structs_t23 <| .hole 0 <| .lit structs_t24 <| .hole 0 <| .lit structs_t25 .nil

/-- Which holes there are in the text of a field. -/
def fieldHoles (s : GoText.Shape) (k : PKind) : List Nat :=
  match s with
  | .map _ => if k = .message ∨ k = .enum then [0, 1, 4] else [0, 4]
  | _ => elemHoles k

theorem field_words {f : FieldD} (h : FieldOk f) : ∀ i ∈ fieldHoles f.shape f.kind, IsWord (fieldNames f i) := by
  obtain ⟨n, s, k, t⟩ := f
  cases s with
  | one r => exact elem_words h.name h.type
  | many => exact elem_words h.name h.type
  | map kk =>
    have := key_words kk (h.key kk rfl)
    have hn : IsWord (lowercaseCamelCase n) := h.name
    have ht : k = .message ∨ k = .enum → IsWord (camelCase t) := h.type
    unfold fieldHoles fieldNames
    simp only [keyType]
    split
    · holes ⟨hn, ht ‹_›, this.2.1⟩
    · holes ⟨hn, this.2.1⟩

end TsText
