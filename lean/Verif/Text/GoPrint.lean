import Verif.Text.Prints
import Verif.Text.GoProgram
import Verif.Gen.PackageFacts

/-!
# What the templates print, I: texts without loops

For every part of a template that contains no loop: the text it prints, for all descriptors, and the tokens of that text.
-/

namespace GoText

open Utils Text GoAst Tmpl
open Gen (PKind)
open Package (EnumD qualify)

/-- Close an equation whose sides compute to the same term; the kernel does the computation. -/
elab "kernel_rfl" : tactic => Lean.Elab.Tactic.liftMetaTactic fun g => do
  let t ← Lean.instantiateMVars (← g.getType)
  match t.consumeMData.eq? with
  | some (α, a, _) =>
    let u ← Lean.Meta.getLevel α
    g.assign (Lean.mkApp2 (.const ``Eq.refl [u]) α a)
    return []
  | none => Lean.throwError "not an equation"

/-! ## Texts with named parts -/

/-- Text in the order in which a template writes it; holes stand for names. -/
inductive Chunks where
  | nil
  | lit (b : Bytes) (rest : Chunks)
  | hole (i : Nat) (rest : Chunks)
  | sub (c : Chunks) (rest : Chunks)

/-- The text, with names for the holes. -/
def render (σ : Nat → Bytes) : Chunks → Bytes
  | .nil => []
  | .lit b r => b ++ render σ r
  | .hole i r => σ i ++ render σ r
  | .sub c r => render σ c ++ render σ r

def flat : Chunks → Frag
  | .nil => []
  | .lit b r => ofBytes b ++ flat r
  | .hole i r => .hole i :: flat r
  | .sub c r => flat c ++ flat r

theorem ofBytes_render (σ : Nat → Bytes) (c : Chunks) : ofBytes (render σ c) = fill σ (flat c) := by
  induction c with
  | nil => rfl
  | lit b r ih => simp [render, flat, ofBytes_append, fill_append, fill_ofBytes, ih]
  | hole i r ih => simp [render, flat, ofBytes_append, fill_cons_hole, ih]
  | sub c r ih1 ih2 => simp [render, flat, ofBytes_append, fill_append, ih1, ih2]

/-- The names for holes 0, 1, … -/
def names (l : List Bytes) (i : Nat) : Bytes := l.getD i []

/-- Which holes there are. -/
def uses (hs : List Nat) (s : Frag) : Bool := s.all fun
  | .byte _ => true
  | .hole i => hs.contains i

/-- The tokens of a text with names, from those of the text with holes. -/
theorem run_render {c : Chunks} {a b : Bool} (ts : List Tok) (h : run ⟨a, .none⟩ (flat c) = (ts, ⟨b, .none⟩)) {σ : Nat → Bytes}
    (hs : List Nat) (hu : uses hs (flat c) = true) {ts' : List Tok} (ht : ts.map (Tok.fill σ) = ts') (hσ : ∀ i ∈ hs, IsName (σ i)) :
    run ⟨a, .none⟩ (ofBytes (render σ c)) = (ts', ⟨b, .none⟩) := by
  rw [ofBytes_render, run_fill_between σ h, ht]
  intro i hi
  simp only [uses, List.all_eq_true] at hu
  exact hσ i (by simpa using hu _ hi)

/-- The tokens of the text with holes (computed by the kernel for every kind `k`) and which holes there are; it remains to prove
that the names for them are identifiers. -/
macro "lex_cases " k:ident ts:term:max hs:term:max : tactic => `(tactic|
  (refine run_render $ts ?_ $hs ?_ ?_ ?_
   · cases $k:ident <;> first | contradiction | decide +kernel
   · cases $k:ident <;> first | contradiction | decide +kernel
   · cases $k:ident <;> first | contradiction | kernel_rfl))

/-- The same without a kind. -/
macro "lex_by " ts:term:max hs:term:max : tactic => `(tactic|
  (refine run_render $ts ?_ $hs ?_ ?_ ?_
   · decide +kernel
   · decide +kernel
   · kernel_rfl))

/-- The tokens of statements one after the other. -/
def stmts (l : List Stmt) : List Tok := l.flatMap fun s => s.toks false ++ [semi]

theorem toks_block (l : List Stmt) : (block l).toks false = stmts l := by
  induction l with
  | nil => rfl
  | cons s l ih => simp only [block, List.foldr_cons, Stmt.toks, stmts, List.flatMap_cons] at ih ⊢; simp [ih]


/-- The names for the holes 0, 1, … are identifiers. -/
macro "holes " h:term : tactic => `(tactic|
  (simp only [List.mem_cons, List.not_mem_nil, or_false, forall_eq_or_imp, forall_eq]; exact $h))

/-! ## decode.templ -/

open GoTempl

variable {lib : Lib} (call : Nat → Val → Option Bytes) (env : Env Val)

/-- decode.templ 22-37 -/
def cValue [Lib] (k : PKind) : Chunks :=
  match k with
  | .bytes => .sub (.lit internalDecode_t4 <| .hole 0 <| .lit internalDecode_t5 <| .lit (GetLUTDecoder k) <|
      Lib.pick (.lit str!"(nil)\n    " .nil) (.lit internalDecode_t6 <| .hole 0 <| .lit internalDecode_t7 .nil)) <| .lit internalDecode_t18 .nil
  | .enum => .sub (.sub (.lit internalDecode_t8 <| .hole 0 <| .lit internalDecode_t9 <| .hole 0 <| .lit internalDecode_t10 <| .lit (GetLUTDecoder k) <|
      .lit internalDecode_t11 <| .hole 0 <| .lit internalDecode_t12 <| .hole 1 <| .lit internalDecode_t13 <| .hole 0 <| .lit internalDecode_t14 .nil) .nil) <|
      .lit internalDecode_t18 .nil
  | k => .sub (.sub (.lit internalDecode_t15 <| .hole 0 <| .lit internalDecode_t16 <| .lit (GetLUTDecoder k) <| .lit internalDecode_t17 .nil) .nil) <|
      .lit internalDecode_t18 .nil

theorem shows_value (o n t : Bytes) (r : Bool) (k : PKind) (hk : k ≠ .message) (hg : k ≠ .group) (hn : IsName (camelCase n))
    (ht : k = .enum → IsName (camelCase t)) :
    Shows (exec lang call internalDecode_r0 ((id!"field", .field o ⟨n, .one r, k, t⟩) :: env) (.field o ⟨n, .one r, k, t⟩))
      false (stmts (decValue (camel n) k (camel t))) false := by
  refine .of (t := render (names [camelCase n, camelCase t]) (cValue k)) ?_ ?_
  · cases lib <;> cases k <;> first | contradiction | kernel_rfl
  · by_lib
      lex_cases k (stmts (decValue [.hole 0] k [.hole 1])) (if k = .enum then [0, 1] else [0])
      split
      · holes ⟨hn, ht ‹_›⟩
      · holes hn

theorem camelCase_slice (t : Bytes) : camelCase (Slice ++ t) = Slice ++ (t.takeWhile isLower ++ camelLoop (t.dropWhile isLower)) := by
  show camelCase (0x5B :: 0x5D :: t) = 0x5B :: 0x5D :: _
  rw [camelCase, if_neg (by decide), camelLoop_word (by rintro ⟨h, _⟩; revert h; decide) (by decide) (by decide), if_neg (by decide),
    List.takeWhile_cons_of_neg (by decide), List.dropWhile_cons_of_neg (by decide), List.nil_append,
    camelLoop_word (by rintro ⟨h, _⟩; revert h; decide) (by decide) (by decide), if_neg (by decide)]
  rfl

/-- `repeatedEnum` without `[]` and `CamelCase`: the leading lower-case letters stay as they are. -/
def elemName (t : Bytes) : Bytes := t.takeWhile isLower ++ camelLoop (t.dropWhile isLower)

theorem repeatedEnum_eq (t : Bytes) : repeatedEnum t = ofBytes (elemName t) := by
  rw [repeatedEnum, camelCase_slice]; rfl

/-- decode.templ 42-65; hole 1 is the message type, hole 2 the enum type. -/
def cSlice (k : PKind) : Chunks :=
  .lit internalDecode_t20 <| .lit ((GetKind k).getD []) <| .lit internalDecode_t21 <| .hole 0 <| .lit internalDecode_t22 <| .hole 0 <|
  .lit internalDecode_t23 <|
  (fun rest => match k with
    | .message => .lit str!"[]*" <| .hole 1 rest
    | .enum => .lit str!"[]" <| .hole 2 rest
    | k => .lit (Slice ++ (typeLUT k).getD []) rest) <|
  .lit internalDecode_t24 <|
  .sub (match k with
    | .message => .lit internalDecode_t25 <| .hole 0 <| .lit internalDecode_t26 <| .hole 0 <| .lit internalDecode_t27 <| .hole 1 <|
        .lit internalDecode_t28 <| .hole 0 <| .lit internalDecode_t29 .nil
    | k => .lit internalDecode_t30 <| .hole 0 <| .lit internalDecode_t31 <| .lit (GetLUTDecoder k) <| .lit internalDecode_t32 .nil) <|
  .lit internalDecode_t33 .nil

/-- The same before the name of a repeated enum is computed. -/
def cSliceEnum : Chunks :=
  .lit internalDecode_t20 <| .lit ((GetKind .enum).getD []) <| .lit internalDecode_t21 <| .hole 0 <| .lit internalDecode_t22 <| .hole 0 <|
  .lit internalDecode_t23 <| .hole 2 <| .lit internalDecode_t24 <|
  .sub (.lit internalDecode_t30 <| .hole 0 <| .lit internalDecode_t31 <| .lit (GetLUTDecoder .enum) <| .lit internalDecode_t32 .nil) <|
  .lit internalDecode_t33 .nil

/-- The element type of a repeated field, with holes. -/
def holeTy (k : PKind) : Ty :=
  match k with
  | .enum => .name [.hole 2]
  | k => elemTy k [.hole 1]

theorem shows_slice (o n t : Bytes) (k : PKind) (hg : k ≠ .group) (hn : IsName (camelCase n))
    (ht : k = .message → IsName (camelCase t)) (he : k = .enum → IsName (elemName t)) :
    Shows (exec lang call internalDecode_r1 ((id!"field", .field o ⟨n, .many, k, t⟩) :: env) (.field o ⟨n, .many, k, t⟩))
      false (stmts (decSlice (camel n) k (manyTy k t) (camel t))) false := by
  refine .of (t := render (names [camelCase n, camelCase t, elemName t]) (cSlice k)) ?_ ?_
  · by_cases hk : k = .enum
    · subst hk
      have : exec lang call internalDecode_r1 ((id!"field", .field o ⟨n, .many, .enum, t⟩) :: env) (.field o ⟨n, .many, .enum, t⟩) =
        some (render (names [camelCase n, camelCase t, camelCase (Slice ++ t)]) cSliceEnum) := by kernel_rfl
      rw [this, camelCase_slice]
      kernel_rfl
    · cases k <;> first | contradiction | kernel_rfl
  · have hm : manyTy k t = (match k with | .enum => .name (ofBytes (elemName t)) | k => elemTy k (camel t)) := by
      cases k <;> first | rfl | (simp only [manyTy]; rw [repeatedEnum_eq])
    rw [hm]
    lex_cases k (stmts (decSlice [.hole 0] k (holeTy k) [.hole 1])) (if k = .enum then [0, 2] else if k = .message then [0, 1] else [0])
    split
    · holes ⟨hn, he ‹_›⟩
    · split
      · holes ⟨hn, ht ‹_›⟩
      · holes hn

/-- The key types that protoc accepts. -/
def IsKey (k : PKind) : Prop := k ≠ .double ∧ k ≠ .float ∧ k ≠ .bytes ∧ k ≠ .enum ∧ k ≠ .message ∧ k ≠ .group

instance (k : PKind) : Decidable (IsKey k) := inferInstanceAs (Decidable (_ ∧ _))

/-- The name after `polyglot.` of the kind, the name of the type, and the name of the method. -/
def kindName (k : PKind) : Bytes := ((GetKind k).getD []).drop 9
def typeName (k : PKind) : Bytes := (typeLUT k).getD []
def methodName (k : PKind) : Bytes := (GetLUTEncoder k).drop 1

theorem isName_of {c : Byte} {cs : Bytes} (h1 : isLetter c = true) (h2 : cs.all isWordChar = true) (h3 : ofBytes (c :: cs) ∉ keywords) : IsName (c :: cs) :=
  ⟨⟨c, cs, rfl, h1, List.all_eq_true.mp h2⟩, h3⟩

theorem isName_kind (k : PKind) (h : k ≠ .group) : IsName (kindName k) := by
  cases k <;> first | contradiction | exact isName_of (by decide +kernel) (by decide +kernel) (by decide +kernel)

theorem key_names (k : PKind) (h : IsKey k) : IsName (kindName k) ∧ IsName (typeName k) ∧ IsName (methodName k) := by
  revert h
  cases k <;> intro h <;> first
    | exact absurd h (by decide)
    | exact ⟨isName_of (by decide +kernel) (by decide +kernel) (by decide +kernel), isName_of (by decide +kernel) (by decide +kernel) (by decide +kernel),
        isName_of (by decide +kernel) (by decide +kernel) (by decide +kernel)⟩

/-- decode.templ 67-80 -/
def cDecMap : Chunks :=
  .sub (.lit internalDecode_t34 <| .hole 0 <| .lit internalDecode_t35 <| .lit str!"polyglot." <| .hole 1 <| .lit internalDecode_t36 <| .lit str!"polyglot." <| .hole 2 <|
    .lit internalDecode_t37 <| .hole 0 <| .lit internalDecode_t38 <| .hole 3 <| .lit internalDecode_t39 <| .hole 0 <| .lit internalDecode_t40 <| .hole 0 <|
    .lit internalDecode_t41 <| .hole 0 <| .lit internalDecode_t42 .nil) .nil

/-- decode.templ 83-91 (v2: 81-89) -/
def cDecMessage [Lib] : Chunks := Lib.pick
  (.sub (.lit str!"if x." <| .hole 0 <| .lit str!" == nil {\n        x." <| .hole 0 <| .lit str!" = New" <| .hole 1 <|
    .lit str!"()\n        }\n        err = x." <| .hole 0 <| .lit str!".decode(d)\n        if err != nil {\n        return err\n        }\n    " .nil) .nil) <|
  .sub (.lit internalDecode_t43 <| .hole 0 <| .lit internalDecode_t44 <| .hole 1 <| .lit internalDecode_t45 <| .hole 0 <| .lit internalDecode_t46 .nil) .nil

theorem shows_decMap (o n t : Bytes) (kk k : PKind) (hkk : IsKey kk) (hk : k ≠ .group) (hn : IsName (camelCase n)) (ho : IsName (camelCase (qualify o n))) :
    Shows (exec lang call internalDecode_r2 ((id!"field", .field o ⟨n, .map kk, k, t⟩) :: env) (.field o ⟨n, .map kk, k, t⟩))
      false (stmts [decMap (camel n) kk k (mapName o ⟨n, .map kk, k, t⟩)]) false := by
  refine .of (t := render (names [camelCase n, kindName kk, kindName k, camelCase (qualify o n)]) cDecMap) ?_ ?_
  · cases kk <;> first | exact absurd hkk (by decide) | (cases k <;> first | contradiction | kernel_rfl)
  · refine run_render (c := cDecMap) (stmts [.if1 (.not (.call0 (.sel vd go!"Nil"))) (block
      [.define2 go!"#0Size" go!"err" (.call2 (.sel vd go!"Map") (polyglot [.hole 1]) (polyglot [.hole 2])), check,
       .assign (xf [.hole 0]) (.call1 (.var go!"New#3Map") (.var go!"#0Size")),
       .assign verr (.call2 (.sel (xf [.hole 0]) go!"decode") vd (.var go!"#0Size")), check])]) ?_ [0, 1, 2, 3] ?_ ?_ ?_
    · decide +kernel
    · decide +kernel
    · cases kk <;> first | exact absurd hkk (by decide) | (cases k <;> first | contradiction | kernel_rfl)
    · holes ⟨hn, (key_names kk hkk).1, isName_kind k hk, ho⟩

theorem shows_decMessage (o n t : Bytes) (r : Bool) (hn : IsName (camelCase n)) (ht : IsName (camelCase t)) :
    Shows (exec lang call internalDecode_r2 ((id!"field", .field o ⟨n, .one r, .message, t⟩) :: env) (.field o ⟨n, .one r, .message, t⟩))
      false (stmts (decMessage (camel n) (camel t))) false := by
  by_lib
    refine .of (t := render (names [camelCase n, camelCase t]) cDecMessage) (by kernel_rfl) ?_
    lex_by (stmts (decMessage [.hole 0] [.hole 1])) [0, 1]
    holes ⟨hn, ht⟩

/-! ## encode.templ -/

/-- structs.go 170-174: one call of the chain. -/
def cEncValue (k : PKind) : Chunks :=
  match k with
  | .enum => .lit (GetLUTEncoder k ++ str!"(uint32(x.") <| .hole 0 <| .lit str!"))" .nil
  | k => .lit (GetLUTEncoder k ++ str!"(x.") <| .hole 0 <| .lit str!")" .nil

/-- The text of one call of the chain (structs.go 170-174). -/
def encText (f : FieldD) : Bytes :=
  if f.kind = .enum then GetLUTEncoder f.kind ++ str!"(uint32(x." ++ camelCase f.name ++ str!"))"
  else GetLUTEncoder f.kind ++ str!"(x." ++ camelCase f.name ++ str!")"

/-- The tokens of one call of the chain. -/
def encToks (f : FieldD) : List Tok :=
  .op go!"." :: .word (method f.kind) :: .op go!"(" :: (if f.kind = .enum then uint32 (xf (camel f.name)) else xf (camel f.name)).toks ++ [.op go!")"]

theorem lex_encValue (f : FieldD) (hk : f.kind ≠ .message) (hg : f.kind ≠ .group) (hn : IsName (camelCase f.name)) :
    Text.run ⟨true, .none⟩ (ofBytes (encText f)) = (encToks f, ⟨true, .none⟩) := by
  obtain ⟨n, s, k, t⟩ := f
  have : encText ⟨n, s, k, t⟩ = render (names [camelCase n]) (cEncValue k) := by
    cases k <;> first | contradiction | (simp [encText, cEncValue, render, names])
  rw [this]
  simp only at hk hg hn
  lex_cases k (.op go!"." :: .word (method k) :: .op go!"(" :: (if k = .enum then uint32 (xf [.hole 0]) else xf [.hole 0]).toks ++ [.op go!")"]) [0]
  holes hn

/-- encode.templ 25-34 -/
def cEncSlice (k : PKind) : Chunks :=
  .sub (match k with
    | .message => .lit encodeSlices_t1 <| .hole 0 <| .lit encodeSlices_t2 <| .hole 0 <| .lit encodeSlices_t3 .nil
    | k => .lit encodeSlices_t4 <| .hole 0 <| .lit encodeSlices_t5 <| .lit (GetKindLUT k) <| .lit encodeSlices_t6 <| .hole 0 <| .lit encodeSlices_t7 <|
        .lit (GetLUTEncoder k) <| .lit encodeSlices_t8 .nil) .nil

theorem shows_encSlice (o n t : Bytes) (k : PKind) (hg : k ≠ .group) (hn : IsName (camelCase n)) :
    Shows (exec lang call encodeSlices_r0 ((id!"field", .field o ⟨n, .many, k, t⟩) :: env) (.field o ⟨n, .many, k, t⟩))
      false (stmts (encSlice (camel n) k)) false := by
  refine .of (t := render (names [camelCase n]) (cEncSlice k)) ?_ ?_
  · cases k <;> first | contradiction | kernel_rfl
  · lex_cases k (stmts (encSlice [.hole 0] k)) [0]
    holes hn

theorem shows_encMessage (o : Bytes) (f : FieldD) (hn : IsName (camelCase f.name)) :
    Shows (exec lang call encodeMessages_r0 ((id!"field", .field o f) :: env) (.field o f)) false (stmts [encMessage (camel f.name)]) false := by
  refine .of (t := render (names [camelCase f.name]) (.lit encodeMessages_t1 <| .hole 0 <| .lit encodeMessages_t2 .nil)) (by kernel_rfl) ?_
  lex_by (stmts [encMessage [.hole 0]]) [0]
  holes hn

end GoText
