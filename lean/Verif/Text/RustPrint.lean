import Verif.Text.RustPrints

/-!
# What the templates of the Rust generator print, I: texts without loops
-/

namespace RustText

open Utils Tmpl RustAst RustTempl
open Text (Frag Sym ofBytes ofBytes_append isLetter isWordChar)
open RustLex (Tok Cur IsWord)
open GoText (Chunks render flat ofBytes_render names uses FieldD MsgD FileD decimal IsKey)
open Gen (PKind)
open Package (EnumD qualify)

variable (privacy : Bytes) (call : Nat → Val → Option Bytes) (env : Env Val)

/-! ## encode.templ -/

/-- structs.go 170-177: one call of the chain. -/
def encText (f : FieldD) : Bytes :=
  if f.kind = .enum then (encodeLUT f.kind).getD [] ++ str!"(self." ++ snakeBytes f.name ++ str!"  as u32)"
  else if f.kind = .string then (encodeLUT f.kind).getD [] ++ str!"(&self." ++ snakeBytes f.name ++ str!")"
  else if f.kind = .bytes then (encodeLUT f.kind).getD [] ++ str!"(&self." ++ snakeBytes f.name ++ str!")"
  else (encodeLUT f.kind).getD [] ++ str!"(self." ++ snakeBytes f.name ++ str!")"

/-- The tokens of one call of the chain. -/
def encToks (f : FieldD) : List Tok :=
  .op go!"." :: .word (encoder f.kind) :: .op go!"(" :: (encArg (snake f.name) f.kind).toks ++ [.op go!")", .op go!"?"]

def cEncValue (k : PKind) : Chunks :=
  .lit ((encodeLUT k).getD []) <| match k with
  | .enum => .lit str!"(self." <| .hole 0 <| .lit str!"  as u32)" <| .lit encode_t3 .nil
  | .string => .lit str!"(&self." <| .hole 0 <| .lit str!")" <| .lit encode_t3 .nil
  | .bytes => .lit str!"(&self." <| .hole 0 <| .lit str!")" <| .lit encode_t3 .nil
  | _ => .lit str!"(self." <| .hole 0 <| .lit str!")" <| .lit encode_t3 .nil

theorem encText_eq (f : FieldD) (hk : f.kind ≠ .message) (hg : f.kind ≠ .group) :
    encText f ++ encode_t3 = render (names [snakeBytes f.name]) (cEncValue f.kind) := by
  obtain ⟨n, s, k, t⟩ := f
  cases k <;> first | contradiction | (simp [encText, cEncValue, render, names])

theorem lex_encValue (f : FieldD) (hk : f.kind ≠ .message) (hg : f.kind ≠ .group) (hn : IsWord (snakeBytes f.name)) :
    RustLex.run .none (ofBytes (encText f ++ encode_t3)) = (encToks f, .none) := by
  rw [encText_eq f hk hg]
  obtain ⟨n, s, k, t⟩ := f
  simp only at hk hg hn
  show RustLex.run _ (ofBytes (render (names [snakeBytes n]) (cEncValue k))) = (.op go!"." :: .word (encoder k) :: .op go!"(" :: (encArg (snake n) k).toks ++ [.op go!")", .op go!"?"], _)
  rlex_cases k (.op go!"." :: .word (encoder k) :: .op go!"(" :: (encArg [.hole 0] k).toks ++ [.op go!")", .op go!"?"]) [0]
  holes hn

/-- encode.templ 25-36 -/
def cEncSlice (k : PKind) : Chunks :=
  .sub (match k with
    | .message => .lit encodeSlices_t1 <| .hole 0 <| .lit encodeSlices_t2 <| .hole 0 <| .lit encodeSlices_t3 .nil
    | k => .lit encodeSlices_t4 <| .hole 0 <| .lit encodeSlices_t5 <| .lit (getKindLUT k) <| .lit encodeSlices_t6 <| .hole 0 <| .lit encodeSlices_t7 <|
        .sub (match k with
          | .string => .lit encodeSlices_t8 <| .lit (getLUTEncoder k) <| .lit encodeSlices_t9 .nil
          | k => .lit encodeSlices_t10 <| .lit (getLUTEncoder k) <| .lit encodeSlices_t11 .nil) <| .lit encodeSlices_t12 .nil) .nil

theorem shows_encSlice (n t : Bytes) (k : PKind) (hg : k ≠ .group) (hn : IsWord (snakeBytes n)) :
    Shows (exec (lang privacy) call encodeSlices_r0 ((id!"field", .field ⟨n, .many, k, t⟩) :: env) (.field ⟨n, .many, k, t⟩))
      .none (stmts (encSlice (snake n) k)) .none := by
  refine .of (t := render (names [snakeBytes n]) (cEncSlice k)) ?_ ?_
  · cases k <;> first | contradiction | kernel_rfl
  · rlex_cases k (stmts (encSlice [.hole 0] k)) [0]
    holes hn

/-- The name after `Kind::`, the name of the type and the names of the methods of a key. -/
def kindName (k : PKind) : Bytes := ((getKind k).getD []).drop 6
def typeName (k : PKind) : Bytes := (typeLUT k).getD []
def encName (k : PKind) : Bytes := (getLUTEncoder k).drop 1
def decName (k : PKind) : Bytes := (getLUTDecoder k).drop 1

theorem isWord_of {c : Byte} {cs : Bytes} (h1 : isLetter c = true) (h2 : cs.all isWordChar = true) : IsWord (c :: cs) :=
  ⟨c, cs, rfl, h1, List.all_eq_true.mp h2⟩

theorem isWord_kind (k : PKind) (h : k ≠ .group) : IsWord (kindName k) := by
  cases k <;> first | contradiction | exact isWord_of (by decide +kernel) (by decide +kernel)

theorem key_words (k : PKind) (h : IsKey k) : IsWord (kindName k) ∧ IsWord (typeName k) ∧ IsWord (encName k) ∧ IsWord (decName k) := by
  revert h
  cases k <;> intro h <;> first
    | exact absurd h (by decide)
    | exact ⟨isWord_of (by decide +kernel) (by decide +kernel), isWord_of (by decide +kernel) (by decide +kernel),
        isWord_of (by decide +kernel) (by decide +kernel), isWord_of (by decide +kernel) (by decide +kernel)⟩

/-- encode.templ 45-71; hole 0 is the field, 1 and 2 the kinds of keys and values, 3 the method for keys. -/
def cEncMap (key : Bool) (k : PKind) : Chunks :=
  .sub (.lit encodeMessages_t1 <| .hole 0 <| .lit encodeMessages_t2 <| .lit str!"Kind::" <| .hole 1 <| .lit encodeMessages_t3 <|
    .lit str!"Kind::" <| .hole 2 <| .lit encodeMessages_t4 <| .hole 0 <| .lit encodeMessages_t5 <|
    .sub (.sub (.sub (if key then .lit encodeMessages_t8 <| .lit str!"." <| .hole 3 <| .lit encodeMessages_t9 .nil
      else .lit encodeMessages_t10 <| .lit str!"." <| .hole 3 <| .lit encodeMessages_t11 .nil) .nil) .nil) <|
    .sub (match k with
      | .message => .lit encodeMessages_t12 .nil
      | .enum => .sub (.lit encodeMessages_t13 .nil) .nil
      | k => .sub (.lit encodeMessages_t14 <| .lit (getLUTEncoder k) <| .lit encodeMessages_t15 .nil) .nil) <|
    .lit encodeMessages_t16 .nil) .nil

/-- `encMap` with these holes. -/
def hEncMap (key : Bool) (k : PKind) : List Stmt :=
  [.expr (bcall go!"encode_map" (args3 (len (sf [.hole 0])) (.path [go!"Kind", [.hole 1]]) (.path [go!"Kind", [.hole 2]]))),
   .for2 go!"k" go!"v" (.ref (sf [.hole 0])) (block [
     .expr (bcall [.hole 3] (args1 (if key then .ref (var go!"k") else var go!"k"))),
     (match k with
       | .message => .expr (.tr (.method (var go!"v") go!"encode" (args1 vb)))
       | .enum => .expr (bcall go!"encode_u32" (args1 (.as (.deref (var go!"v")) go!"u32")))
       | k => .expr (bcall (encoder k) (args1 (.deref (var go!"v")))))])]

theorem shows_encMap (n t : Bytes) (kk k : PKind) (hkk : IsKey kk) (hk : k ≠ .group) (hn : IsWord (snakeBytes n)) :
    Shows (exec (lang privacy) call encodeMessages_r0 ((id!"field", .field ⟨n, .map kk, k, t⟩) :: env) (.field ⟨n, .map kk, k, t⟩))
      .none (stmts (encMap (snake n) kk k)) .none := by
  refine .of (t := render (names [snakeBytes n, kindName kk, kindName k, encName kk]) (cEncMap (kk = .string) k)) ?_ ?_
  · cases kk <;> first | exact absurd hkk (by decide) | (cases k <;> first | contradiction | kernel_rfl)
  · refine run_render (c := cEncMap (kk = .string) k) (stmts (hEncMap (kk = .string) k)) ?_ [0, 1, 2, 3] ?_ ?_ ?_
    · generalize decide (kk = .string) = key
      cases key <;> cases k <;> first | contradiction | decide +kernel
    · generalize decide (kk = .string) = key
      cases key <;> cases k <;> first | contradiction | decide +kernel
    · cases kk <;> first | exact absurd hkk (by decide) | (cases k <;> first | contradiction | kernel_rfl)
    · have := key_words kk hkk
      holes ⟨hn, this.1, isWord_kind k hk, this.2.2.1⟩

theorem shows_encMessage (n t : Bytes) (r : Bool) (hn : IsWord (snakeBytes n)) :
    Shows (exec (lang privacy) call encodeMessages_r0 ((id!"field", .field ⟨n, .one r, .message, t⟩) :: env) (.field ⟨n, .one r, .message, t⟩))
      .none (stmts (encMessage (snake n))) .none := by
  refine .of (t := render (names [snakeBytes n]) (.sub (.lit encodeMessages_t17 <| .hole 0 <| .lit encodeMessages_t18 .nil) .nil)) (by kernel_rfl) ?_
  rlex_by (stmts (encMessage [.hole 0])) [0]
  holes hn

/-! ## decode.templ -/

/-- The text of an element type; hole 1 is the identifier of the type. -/
def cElem (k : PKind) (rest : Chunks) : Chunks :=
  match k with
  | .message => .hole 1 rest
  | .enum => .hole 1 rest
  | k => .lit ((typeLUT k).getD []) rest

/-- decode.templ 15-31 -/
def cDecSlice (k : PKind) : Chunks :=
  .lit decode_t3 <| .hole 0 <| .lit decode_t4 <| .lit str!"Vec<" <| cElem k <| .lit str!">" <| .lit decode_t5 <|
  .lit decode_t6 <| .hole 0 <| .lit decode_t7 <| .lit ((getKind k).getD []) <| .lit decode_t8 <| .hole 0 <| .lit decode_t9 <| .hole 0 <| .lit decode_t10 <|
  .sub (match k with
    | .message => .lit decode_t11 <| .hole 1 <| .lit decode_t12 .nil
    | k => .lit decode_t13 <| .lit (getLUTDecoder k) <| .lit decode_t14 .nil) <| .lit decode_t15 .nil

/-- The function with holes. -/
def hSliceFn (k : PKind) : Stmt :=
  .func (decodeSig go!"#0_decode" (.app1 go!"Vec" (elemTy k [.hole 1])) false) (block
    [.let1 false go!"#0_size" (bcall go!"decode_array" (args1 (kindOf k))),
     .let1 true go!"temp" (.call (.path [go!"Vec", go!"with_capacity"]) (args1 (var go!"#0_size"))),
     .for1 go!"_" (.range (.num go!"0") (var go!"#0_size")) (block
       [.expr (.method (var go!"temp") go!"push" (args1 (match k with
         | .message => okOr (decodeOf [.hole 1]) go!"InvalidArray"
         | k => bcall (decoder k) .anil)))]),
     .tail (okOf (someOf (var go!"temp")))])

/-- Which holes. -/
def elemHoles (k : PKind) : List Nat := if k = .message ∨ k = .enum then [0, 1] else [0]

theorem elem_words {n t : Bytes} {rest : List Bytes} {k : PKind} (hn : IsWord (snakeBytes n)) (ht : k = .message ∨ k = .enum → IsWord (camelCase t)) :
    ∀ i ∈ elemHoles k, IsWord (names (snakeBytes n :: camelCase t :: rest) i) := by
  unfold elemHoles
  split
  · holes ⟨hn, ht ‹_›⟩
  · holes hn

/-- The same before the type is computed, which is hole 2. -/
def cDecSlice' (k : PKind) : Chunks :=
  .lit decode_t3 <| .hole 0 <| .lit decode_t4 <| .hole 2 <| .lit decode_t5 <|
  .lit decode_t6 <| .hole 0 <| .lit decode_t7 <| .lit ((getKind k).getD []) <| .lit decode_t8 <| .hole 0 <| .lit decode_t9 <| .hole 0 <| .lit decode_t10 <|
  .sub (match k with
    | .message => .lit decode_t11 <| .hole 1 <| .lit decode_t12 .nil
    | k => .lit decode_t13 <| .lit (getLUTDecoder k) <| .lit decode_t14 .nil) <| .lit decode_t15 .nil

/-- The text of the type of a field. -/
def tyText (f : FieldD) : Bytes := (findValue f).getD []

theorem shows_decSlice (n t : Bytes) (k : PKind) (hg : k ≠ .group) (hn : IsWord (snakeBytes n)) (ht : k = .message ∨ k = .enum → IsWord (camelCase t)) :
    Shows (exec (lang privacy) call decode_r0 ((id!"field", .field ⟨n, .many, k, t⟩) :: env) (.field ⟨n, .many, k, t⟩))
      .none (stmts [sliceFn (snake n) k (camel t)]) .none := by
  refine .of (t := render (names [snakeBytes n, camelCase t]) (cDecSlice k)) ?_ ?_
  · have h1 : exec (lang privacy) call decode_r0 ((id!"field", .field ⟨n, .many, k, t⟩) :: env) (.field ⟨n, .many, k, t⟩) =
        some (render (names [snakeBytes n, camelCase t, tyText ⟨n, .many, k, t⟩]) (cDecSlice' k)) := by
      cases k <;> first | contradiction | kernel_rfl
    rw [h1]
    cases k <;> first
      | contradiction
      | (simp [cDecSlice', cDecSlice, cElem, render, names, tyText, findValue, findElem, typeLUT])
  · rlex_cases k (stmts [hSliceFn k]) (elemHoles k)
    exact elem_words hn ht

/-- decodeMap.templ; hole 0 is the field, 1 the identifier of the type of the values, 2 and 3 the kinds of keys and values, 4 the
type of keys, 5 the method for keys. -/
def cDecMap (k : PKind) : Chunks :=
  .lit decodeMap_t0 <| .lit decodeMap_t1 <| .lit decodeMap_t2 <| .hole 0 <| .lit decodeMap_t3 <| .hole 4 <| .lit decodeMap_t4 <| cElem k <| .lit decodeMap_t5 <|
  .lit decodeMap_t6 <| .lit str!"Kind::" <| .hole 2 <| .lit decodeMap_t7 <| .lit str!"Kind::" <| .hole 3 <| .lit decodeMap_t8 <|
  .sub (.sub (.lit decodeMap_t14 <| .lit str!"." <| .hole 5 <| .lit decodeMap_t15 .nil) .nil) <|
  .sub (match k with
    | .message => .lit decodeMap_t16 <| .hole 1 <| .lit decodeMap_t17 .nil
    | .enum => .sub (.lit decodeMap_t18 <| .hole 1 <| .lit decodeMap_t19 <| .lit (getLUTDecoder k) <| .lit decodeMap_t20 .nil) .nil
    | k => .sub (.lit decodeMap_t21 <| .lit (getLUTDecoder k) <| .lit decodeMap_t22 .nil) .nil) <|
  .lit decodeMap_t23 .nil

/-- `mapFn` with these holes. -/
def hMapFn (k : PKind) : Stmt :=
  .func (decodeSig go!"#0_decode" (.app2 go!"HashMap" (tname [.hole 4]) (elemTy k [.hole 1])) false) (block
    [noneCheck,
     .let1 false go!"size" (okOr (.method (.method vb go!"decode_map" (args2 (.path [go!"Kind", [.hole 2]]) (.path [go!"Kind", [.hole 3]]))) go!"ok" .anil) go!"InvalidU32"),
     .let1 true go!"map" (.call (.path [go!"HashMap", go!"new"]) .anil),
     .for1 go!"_" (.range (.num go!"0") (var go!"size")) (block
       [.let1 false go!"k" (bcall [.hole 5] .anil), .let1 false go!"v" (valueExpr k [.hole 1]),
        .expr (.method (var go!"map") go!"insert" (args2 (var go!"k") (var go!"v")))]),
     .tail (okOf (someOf (var go!"map")))])

theorem shows_decodeMap (n t : Bytes) (kk k : PKind) (hkk : IsKey kk) (hk : k ≠ .group) (hn : IsWord (snakeBytes n))
    (ht : k = .message ∨ k = .enum → IsWord (camelCase t)) :
    Shows (exec (lang privacy) call decodeMapBody env (.field ⟨n, .map kk, k, t⟩)) .none (stmts [mapFn (snake n) kk k (camel t)]) .none := by
  refine .of (t := render (names [snakeBytes n, camelCase t, kindName kk, kindName k, typeName kk, decName kk]) (cDecMap k)) ?_ ?_
  · cases kk <;> first | exact absurd hkk (by decide) | (cases k <;> first | contradiction | kernel_rfl)
  · refine run_render (c := cDecMap k) (stmts [hMapFn k]) ?_ (if k = .message ∨ k = .enum then [0, 1, 2, 3, 4, 5] else [0, 2, 3, 4, 5]) ?_ ?_ ?_
    · cases k <;> first | contradiction | decide +kernel
    · cases k <;> first | contradiction | decide +kernel
    · cases kk <;> first | exact absurd hkk (by decide) | (cases k <;> first | contradiction | kernel_rfl)
    · have := key_words kk hkk
      split
      · holes ⟨hn, ht ‹_›, this.1, isWord_kind k hk, this.2.1, this.2.2.2⟩
      · holes ⟨hn, this.1, isWord_kind k hk, this.2.1, this.2.2.2⟩

/-- decode.templ 39-46 -/
def cInitValue (k : PKind) : Chunks :=
  .sub (match k with
    | .enum => .hole 0 <| .lit decode_t18 <| .hole 1 <| .lit decode_t19 .nil
    | k => .hole 0 <| .lit decode_t20 <| .lit (getLUTDecoder k) <| .lit decode_t21 .nil) .nil

theorem shows_initValue (n t : Bytes) (r : Bool) (k : PKind) (hk : k ≠ .message) (hg : k ≠ .group) (hn : IsWord (snakeBytes n))
    (ht : k = .message ∨ k = .enum → IsWord (camelCase t)) :
    Shows (exec (lang privacy) call decode_r2 ((id!"field", .field ⟨n, .one r, k, t⟩) :: env) (.field ⟨n, .one r, k, t⟩))
      .none (fieldToks (snake n, initValue k (camel t))) .none := by
  refine .of (t := render (names [snakeBytes n, camelCase t]) (cInitValue k)) ?_ ?_
  · cases k <;> first | contradiction | kernel_rfl
  · rlex_cases k (fieldToks ([.hole 0], initValue k [.hole 1])) (elemHoles k)
    exact elem_words hn ht

theorem shows_initSlice (n t : Bytes) (k : PKind) (hn : IsWord (snakeBytes n)) :
    Shows (exec (lang privacy) call decode_r3 ((id!"field", .field ⟨n, .many, k, t⟩) :: env) (.field ⟨n, .many, k, t⟩))
      .none (fieldToks (snake n, initCall (snake n) go!"InvalidArray")) .none := by
  refine .of (t := render (names [snakeBytes n]) (.hole 0 <| .lit decode_t22 <| .hole 0 <| .lit decode_t23 .nil)) (by kernel_rfl) ?_
  rlex_by (fieldToks ([.hole 0], initCall [.hole 0] go!"InvalidArray")) [0]
  holes hn

theorem shows_initMap (n t : Bytes) (kk k : PKind) (hn : IsWord (snakeBytes n)) :
    Shows (exec (lang privacy) call decode_r4 ((id!"field", .field ⟨n, .map kk, k, t⟩) :: env) (.field ⟨n, .map kk, k, t⟩))
      .none (fieldToks (snake n, initCall (snake n) go!"InvalidMap")) .none := by
  refine .of (t := render (names [snakeBytes n]) (.sub (.hole 0 <| .lit decode_t24 <| .hole 0 <| .lit decode_t25 .nil) .nil)) (by kernel_rfl) ?_
  rlex_by (fieldToks ([.hole 0], initCall [.hole 0] go!"InvalidMap")) [0]
  holes hn

theorem shows_initMessage (n t : Bytes) (r : Bool) (hn : IsWord (snakeBytes n)) (ht : IsWord (camelCase t)) :
    Shows (exec (lang privacy) call decode_r4 ((id!"field", .field ⟨n, .one r, .message, t⟩) :: env) (.field ⟨n, .one r, .message, t⟩))
      .none (fieldToks (snake n, initMessage (camel t))) .none := by
  refine .of (t := render (names [snakeBytes n, camelCase t]) (.sub (.hole 0 <| .lit decode_t26 <| .hole 1 <| .lit decode_t27 .nil) .nil)) (by kernel_rfl) ?_
  rlex_by (fieldToks ([.hole 0], initMessage [.hole 1])) [0, 1]
  holes ⟨hn, ht⟩

/-! ## structs.templ 9-21 -/

/-- The text of the type of a field; hole 1 is the identifier of its message or enum type, 4 the type of keys. -/
def cTy (f : FieldD) (rest : Chunks) : Chunks :=
  match f.shape with
  | .one _ => cElem f.kind rest
  | .many => .lit str!"Vec<" <| cElem f.kind <| .lit str!">" rest
  | .map _ => .lit str!"HashMap<" <| .hole 4 <| .lit str!", " <| cElem f.kind <| .lit str!">" rest

/-- The type with holes. -/
def hTy (f : FieldD) : Ty :=
  match f.shape with
  | .one _ => elemTy f.kind [.hole 1]
  | .many => .app1 go!"Vec" (elemTy f.kind [.hole 1])
  | .map _ => .app2 go!"HashMap" (tname [.hole 4]) (elemTy f.kind [.hole 1])

end RustText
