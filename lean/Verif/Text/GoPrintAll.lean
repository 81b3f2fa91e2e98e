import Verif.Text.GoPrintMap

/-!
# What the templates print, IV: the whole file
-/

namespace GoText

open Utils Text GoAst Tmpl GoTempl
open Gen (PKind)
open Package (EnumD qualify)

variable {lib : Lib}

/-! ## decode.templ 10-93 -/

def decodeHead [Lib] (t : Ident) : List Tok := (decodeFunc t false false [] [] []).toks.take 28

theorem decodeFunc_toks (t : Ident) (he hs : Bool) (values slices messages : List Stmt) :
    (decodeFunc t he hs values slices messages).toks = decodeHead t ++ ((if he then stmts [.var go!"err" terror] else []) ++ (stmts values ++
      ((if hs then stmts [.var go!"sliceSize" tuint32] else []) ++ (stmts slices ++ (stmts messages ++
        [.word go!"return", .word go!"nil", semi, .op go!"}", semi]))))) := by
  rw [decodeFunc, Decl.toks, toks_block]
  simp only [stmts_append]
  cases he <;> cases hs <;>
  simp [decodeFunc, decodeHead, Decl.toks, Stmt.toks, Ty.toks, GoAst.Expr.toks, params, vd, vnil, terror, tdecoder, tuint32, stmts, block]

theorem partition {o : Bytes} {f : FieldD} (_hf : FieldOk o f) : f.isValue = true ∨ f.isSlice = true ∨ f.isMessage = true := by
  obtain ⟨n, s, k, t⟩ := f
  cases s <;> simp [FieldD.isValue, FieldD.isSlice, FieldD.isMessage]
  by_cases h : k = .message <;> simp [h]

theorem any_filter {α : Type} (l : List α) (p : α → Bool) : l.any p = !(l.filter p).isEmpty := by
  induction l with
  | nil => rfl
  | cons x l ih =>
    simp only [List.any_cons, List.filter_cons]
    cases hx : p x <;> simp [ih]

theorem shows_internalDecode (fuel : Nat) (s n : Bytes) (e : Bool) (fs : List FieldD) (es : List EnumD) (ms : List MsgD) (hn : IsName (camelCase (qualify s n)))
    (h : ∀ f ∈ fs, FieldOk (qualify s n) f) :
    Shows (Tmpl.run lang defs (fuel + 1) id!"internalDecode" (.message s (.mk n e fs es ms))) false (decodeDecl (qualify s n) fs).toks false := by
  rw [run_call (b := internalDecodeBody) rfl]
  have hE := decodingFields fs h
  rw [decodeDecl, decodeFunc_toks]
  have herr : (!fs.isEmpty) = truth (if truth (.fieldList (qualify s n) (fs.filter FieldD.isValue)) then .fieldList (qualify s n) (fs.filter FieldD.isValue)
      else if truth (.fieldList (qualify s n) (fs.filter FieldD.isSlice)) then .fieldList (qualify s n) (fs.filter FieldD.isSlice)
      else .fieldList (qualify s n) (fs.filter FieldD.isMessage)) := by
    have ht : ∀ l, truth (.fieldList (qualify s n) l) = !l.isEmpty := by intro l; cases l <;> rfl
    rw [ht, ht]
    cases fs with
    | nil => rfl
    | cons f fs =>
      by_cases h1 : (List.filter FieldD.isValue (f :: fs)).isEmpty
      · by_cases h2 : (List.filter FieldD.isSlice (f :: fs)).isEmpty
        · rw [if_neg (by simp [h1]), if_neg (by simp [h2]), ht]
          have h3 := partition (h f (List.mem_cons_self ..))
          simp only [List.isEmpty_iff, List.filter_eq_nil_iff, Bool.not_eq_true] at h1 h2
          have h4 : f.isMessage = true := by
            rcases h3 with h3 | h3 | h3
            · rw [h1 f (List.mem_cons_self ..)] at h3; cases h3
            · rw [h2 f (List.mem_cons_self ..)] at h3; cases h3
            · exact h3
          simp [h4]
        · rw [if_neg (by simp [h1]), if_pos (by simp [h2]), ht]; simp [h2]
      · rw [if_pos (by simp [h1]), ht]; simp [h1]
  have hsl : fs.any FieldD.isSlice = truth (.fieldList (qualify s n) (fs.filter FieldD.isSlice)) := by
    rw [any_filter]
    cases fs.filter FieldD.isSlice <;> rfl
  rw [herr, hsl]
  generalize hV : fs.filter FieldD.isValue = V at hE
  generalize hS : fs.filter FieldD.isSlice = S at hE
  generalize hM : fs.filter FieldD.isMessage = M at hE
  refine shows_take 3 (env' := [(0, .message s (.mk n e fs es ms))])
    (t := render (names [camelCase (qualify s n)]) (.lit internalDecode_t0 <| .hole 0 <| .lit internalDecode_t1 .nil)) (b := false) (by kernel_rfl) ?_ ?_
  · by_lib
      lex_by (decodeHead [.hole 0]) [0]
      holes hn
  refine shows_assign id!"decoding" _ (x := .decoding (qualify s n) ⟨M, S, V⟩) ?_ ?_
  · rw [eval1_call (as := [.fields (qualify s n) fs]) rfl]
    show (GetDecodingFields fs).map _ = _
    rw [hE]; rfl
  refine shows_assign id!"customDecode" _ (x := .str []) rfl ?_
  refine shows_ite (b := false) _ (x := if truth (.fieldList (qualify s n) V) then .fieldList (qualify s n) V
      else if truth (.fieldList (qualify s n) S) then .fieldList (qualify s n) S else .fieldList (qualify s n) M) rfl ?_ ?_
  · show Shows (if truth _ then _ else _) _ _ _
    generalize truth _ = b
    cases b
    · exact ⟨_, rfl, rfl⟩
    · exact ⟨internalDecode_t2 ++ [], rfl, by decide +kernel⟩
  refine Shows.cast (ts := [] ++ _) ?_ (List.nil_append _)
  refine shows_take 2 (env' := [(id!"customDecode", .str []), (id!"decoding", .decoding (qualify s n) ⟨M, S, V⟩), (0, .message s (.mk n e fs es ms))])
    (t := [] ++ (internalDecode_t3 ++ [])) (b := false) (by kernel_rfl) (by decide +kernel) ?_
  rw [stmts_flatMap, stmts_flatMap, stmts_flatMap]
  refine shows_list id!"field" _ V (.field (qualify s n)) (x := .fieldList (qualify s n) V) rfl rfl
    (fun f => stmts (decValue (camel f.name) f.kind (camel f.type))) ?_ ?_
  · intro f hf
    rw [← hV, List.mem_filter] at hf
    obtain ⟨n, r, k, t, rfl, hk, hg⟩ := isValue_kind (h f hf.1) hf.2
    exact shows_value _ _ _ n t r k hk hg (h _ hf.1).name fun hk => (h _ hf.1).type (.inr hk)
  refine shows_ite (b := false) _ (x := .fieldList (qualify s n) S) rfl ?_ ?_
  · show Shows (if truth (.fieldList (qualify s n) S) then _ else _) _ _ _
    generalize truth _ = b
    cases b
    · exact ⟨_, rfl, rfl⟩
    · exact ⟨internalDecode_t19 ++ [], rfl, by decide +kernel⟩
  refine shows_list id!"field" _ S (.field (qualify s n)) (x := .fieldList (qualify s n) S) rfl rfl
    (fun f => stmts (decSlice (camel f.name) f.kind (manyTy f.kind f.type) (camel f.type))) ?_ ?_
  · intro f hf
    rw [← hS, List.mem_filter] at hf
    obtain ⟨n, k, t, rfl⟩ := isSlice_shape hf.2
    exact shows_slice _ _ _ n t k (h _ hf.1).kind (h _ hf.1).name (fun hk => (h _ hf.1).type (.inl hk)) fun hk => (h _ hf.1).elem rfl hk
  refine shows_list id!"field" _ M (.field (qualify s n)) (x := .fieldList (qualify s n) M) rfl rfl
    (fun f => stmts (decMessageField (qualify s n) f)) ?_ ?_
  · intro f hf
    rw [← hM, List.mem_filter] at hf
    obtain ⟨n', r, t, rfl⟩ | ⟨n', kk, k, t, rfl⟩ := isMessage_shape hf.2
    · exact shows_decMessage _ _ _ n' t r (h _ hf.1).name ((h _ hf.1).type (.inl rfl))
    · exact shows_decMap _ _ _ n' t kk k ((h _ hf.1).key kk rfl).1 (h _ hf.1).kind (h _ hf.1).name ((h _ hf.1).key kk rfl).2
  exact ⟨internalDecode_t47 ++ [], rfl, by decide +kernel⟩


/-! ## enums.templ -/

theorem toDigits_isDigit (n : Nat) : ∀ x ∈ decimal n, isDigit x = true := by
  intro x hx
  simp only [decimal, List.mem_map] at hx
  obtain ⟨c, hc, rfl⟩ := hx
  have hd := Nat.isDigit_of_mem_toDigits (by decide) (by decide) hc
  simp only [Char.isDigit, Bool.and_eq_true, decide_eq_true_eq] at hd
  have h1 : 48 ≤ c.toNat := hd.1
  have h2 : c.toNat ≤ 57 := hd.2
  simp only [isDigit, BitVec.toNat_ofNat, Bool.and_eq_true, decide_eq_true_eq]
  omega

theorem decimal_ne_nil (n : Nat) : decimal n ≠ [] := by
  simp [decimal, Nat.toDigits_ne_nil]

theorem digit_range {b : Byte} (h : isDigit b = true) : 0x30 ≤ b.toNat ∧ b.toNat ≤ 0x39 := by
  simpa [isDigit] using h

theorem start_digit (a : Bool) {b : Byte} (h : isDigit b = true) : start a (.byte b) = ([], ⟨a, .num [.byte b]⟩) := by
  have hr := digit_range h
  have hl : isLetter b = false := by
    cases hl : isLetter b
    · rfl
    · have := letter_range hl; omega
  simp [start, hl, h]

theorem run_digits (a : Bool) (s : Frag) (b : Bytes) (h : ∀ x ∈ b, isDigit x = true) : Text.run ⟨a, .num s⟩ (ofBytes b) = ([], ⟨a, .num (s ++ ofBytes b)⟩) := by
  induction b generalizing s with
  | nil => simp [ofBytes, Text.run]
  | cons c cs ih =>
    have h1 : step ⟨a, .num s⟩ (.byte c) = ([], ⟨a, .num (s ++ [.byte c])⟩) := by simp [step, h c (List.mem_cons_self ..)]
    show emit (step ⟨a, .num s⟩ (.byte c)).1 (Text.run (step ⟨a, .num s⟩ (.byte c)).2 (ofBytes cs)) = _
    rw [h1, emit_nil, ih _ fun x hx => h x (List.mem_cons_of_mem _ hx)]
    simp [ofBytes]

theorem run_number (a : Bool) (n : Nat) : Text.run ⟨a, .none⟩ (ofBytes (decimal n ++ enum_t5)) = ([.num (ofBytes (decimal n)), .op go!")", semi], ⟨false, .none⟩) := by
  have hd := toDigits_isDigit n
  rw [ofBytes_append]
  cases hb : decimal n with
  | nil => exact absurd hb (decimal_ne_nil n)
  | cons c cs =>
    rw [hb] at hd
    have h1 : Text.run ⟨a, .none⟩ (ofBytes (c :: cs)) = ([], ⟨a, .num (ofBytes (c :: cs))⟩) := by
      show emit (start a (.byte c)).1 (Text.run (start a (.byte c)).2 (ofBytes cs)) = _
      rw [start_digit a (hd c (List.mem_cons_self ..)), emit_nil, run_digits _ _ _ fun x hx => hd x (List.mem_cons_of_mem _ hx)]
      rfl
    rw [run_append, h1]
    rfl

theorem shows_enum (fuel : Nat) (s : Bytes) (e : EnumD) (h : EnumOk s e) :
    Shows (Tmpl.run lang defs (fuel + 1) id!"enum" (.enum s e)) false (file (enumDecls s e)) false := by
  rw [run_call (b := enumBody) rfl]
  refine Shows.cast (ts := ((GoAst.Decl.type (camel (qualify s e.name)) tuint32).toks ++ [.word go!"const", .op go!"("]) ++
    ((e.values.mapIdx fun i v => [.word (camel (qualify s v)), .op go!"=", .word (camel (qualify s e.name)), .op go!"("] ++
      [.num (ofBytes (decimal i)), .op go!")", semi]).flatten ++ [.op go!")", semi])) ?_ ?_
  · refine shows_take 5 (env' := [(id!"enumName", .str (camelCase (qualify s e.name))), (0, .enum s e)])
      (t := render (names [camelCase (qualify s e.name)]) (.lit enum_t0 <| .lit enum_t1 <| .hole 0 <| .lit enum_t2 .nil)) (b := false) (by kernel_rfl) ?_ ?_
    · lex_by ((GoAst.Decl.type [.hole 0] tuint32).toks ++ [.word go!"const", .op go!"("]) [0]
      holes h.name
    refine shows_count id!"i" id!"v" _ e.values rfl _ ?_ ?_
    · intro j v hv
      refine shows_assign id!"val" _ (x := .enumValue s v) ?_ ?_
      · rw [eval1_var (x := .enum s e) (as := [.int j]) rfl rfl]
        show (e.values[j]?).map _ = _
        rw [hv]; rfl
      · refine ⟨render (names [camelCase (qualify s v), camelCase (qualify s e.name)]) (.hole 0 <| .lit enum_t3 <| .hole 1 <| .lit enum_t4 .nil) ++ (decimal j ++ enum_t5), ?_, ?_⟩
        · show some (camelCase (qualify s v) ++ (enum_t3 ++ (camelCase (qualify s e.name) ++ (enum_t4 ++ (decimal j ++ (enum_t5 ++ [])))))) = _
          simp [render, names]
        · rw [ofBytes_append]
          refine run_seq (m1 := ⟨false, .none⟩) ?_ (run_number false j)
          lex_by [.word [.hole 0], .op go!"=", .word [.hole 1], .op go!"("] [0, 1]
          holes ⟨h.values v (List.mem_of_getElem? hv), h.name⟩
    · exact ⟨enum_t6 ++ [], rfl, by decide +kernel⟩
  · simp only [file, enumDecls, List.flatMap_cons, List.flatMap_nil, List.append_nil, Decl.toks, List.append_assoc, List.cons_append, List.nil_append]
    congr 5
    rw [List.flatMap_def]
    congr 3
    exact List.ext_getElem (by simp) fun j h1 h2 => by simp [GoAst.Expr.toks]

/-! ## structs.templ -/

/-- How deep messages are nested. -/
def MsgD.depth : MsgD → Nat
  | .mk _ _ _ _ ms => depths ms + 1
where depths : List MsgD → Nat
  | [] => 0
  | m :: ms => max m.depth (depths ms)

theorem depth_le {m : MsgD} {ms : List MsgD} (h : m ∈ ms) : m.depth ≤ MsgD.depth.depths ms := by
  induction ms with
  | nil => cases h
  | cons x ms ih =>
    rw [MsgD.depth.depths]
    rcases List.mem_cons.mp h with rfl | h
    · omega
    · have := ih h; omega

/-- structs.templ 27-31: one field of the struct. -/
def cOne (k : PKind) : Chunks := .hole 0 <| .lit structs_t25 <| cValueTy k 1 <| .lit structs_t26 .nil

def cMany (k : PKind) : Chunks :=
  .hole 0 <| .lit structs_t25 <| (fun rest => match k with
    | .message => .lit str!"[]*" <| .hole 1 rest
    | .enum => .lit str!"[]" <| .hole 2 rest
    | k => .lit (Slice ++ (typeLUT k).getD []) rest) <| .lit structs_t26 .nil

def cMapField : Chunks := .hole 0 <| .lit structs_t25 <| .hole 3 <| .lit str!"Map" <| .lit structs_t26 .nil

def cField (f : FieldD) : Chunks :=
  match f.shape with
  | .one _ => cOne f.kind
  | .many => cMany f.kind
  | .map _ => cMapField

/-- The text of the type of a field. -/
def tyText (owner : Bytes) (f : FieldD) : Bytes := (FindValue (qualify owner f.name) f).getD []

theorem camelCase_mapSuffix (s : Bytes) : camelCase (s ++ MapSuffix) = camelCase s ++ MapSuffix := by
  have h : MapSuffix = ascii "Map" := by decide +kernel
  rw [h]; exact Package.camelCase_map s

theorem findValue {o : Bytes} {f : FieldD} (h : FieldOk o f) : FindValue (qualify o f.name) f = some (tyText o f) := by
  have : (FindValue (qualify o f.name) f).isSome = true := by
    obtain ⟨n, s, k, t⟩ := f
    have hk : k ≠ .group := h.kind
    cases s <;> cases k <;> first | contradiction | rfl
  rw [tyText]
  cases hv : FindValue (qualify o f.name) f <;> simp_all

theorem field_text {o : Bytes} {f : FieldD} (h : FieldOk o f) :
    camelCase f.name ++ (structs_t25 ++ (tyText o f ++ (structs_t26 ++ []))) =
      render (names [camelCase f.name, camelCase f.type, elemName f.type, camelCase (qualify o f.name)]) (cField f) := by
  obtain ⟨n, s, k, t⟩ := f
  have hk : k ≠ .group := h.kind
  cases s with
  | one r => cases k <;> first | contradiction | kernel_rfl
  | many =>
    by_cases he : k = .enum
    · subst he
      have : tyText o ⟨n, .many, .enum, t⟩ = camelCase (Slice ++ t) := rfl
      rw [this, camelCase_slice]
      kernel_rfl
    · cases k <;> first | contradiction | kernel_rfl
  | map kk =>
    have : tyText o ⟨n, .map kk, k, t⟩ = camelCase (qualify o n ++ MapSuffix) := rfl
    rw [this, camelCase_mapSuffix]
    simp [cField, cMapField, render, names, MapSuffix]

theorem lex_field {o : Bytes} {f : FieldD} (h : FieldOk o f) :
    Text.run ⟨false, .none⟩ (ofBytes (camelCase f.name ++ (structs_t25 ++ (tyText o f ++ (structs_t26 ++ []))))) =
      (.word (camel f.name) :: (fieldTy o f).toks ++ [semi], ⟨false, .none⟩) := by
  rw [field_text h]
  obtain ⟨n, s, k, t⟩ := f
  have hk : k ≠ .group := h.kind
  have hn : IsName (camelCase n) := h.name
  cases s with
  | one r =>
    show Text.run _ (ofBytes (render _ (cOne k))) = _
    lex_cases k (.word [.hole 0] :: (elemTy k [.hole 1]).toks ++ [semi]) (if k = .message ∨ k = .enum then [0, 1] else [0])
    split
    · holes ⟨hn, h.type ‹_›⟩
    · holes hn
  | many =>
    have hm : fieldTy o ⟨n, .many, k, t⟩ = .slice (match k with | .enum => .name (ofBytes (elemName t)) | k => elemTy k (camel t)) := by
      cases k <;> first | rfl | (simp only [fieldTy, manyTy]; rw [repeatedEnum_eq])
    rw [hm]
    show Text.run _ (ofBytes (render _ (cMany k))) = _
    lex_cases k (.word [.hole 0] :: (Ty.slice (holeTy k)).toks ++ [semi]) (if k = .enum then [0, 2] else if k = .message then [0, 1] else [0])
    split
    · holes ⟨hn, h.elem rfl ‹_›⟩
    · split
      · holes ⟨hn, h.type (.inl ‹_›)⟩
      · holes hn
  | map kk =>
    show Text.run _ (ofBytes (render _ cMapField)) = _
    lex_by (.word [.hole 0] :: [.word go!"#3Map"] ++ [semi]) [0, 3]
    holes ⟨hn, (h.key kk rfl).2⟩

end GoText
