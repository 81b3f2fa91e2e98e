import Verif.Text.RustPrintAll

/-!
# What the templates of the Rust generator print, III: enums, structs and the file
-/

namespace RustText

open Utils Tmpl RustAst RustTempl
open Text (Frag Sym ofBytes ofBytes_append isLetter isWordChar letter_range)
open RustLex (Tok Cur IsWord run_seq run_comment)
open GoText (Chunks render flat ofBytes_render names uses FieldD MsgD FileD decimal IsKey eval1_var eval1_call isSlice_shape isMessage_shape depth_le
  toDigits_isDigit decimal_ne_nil digit_range)
open Gen (PKind)
open Package (EnumD qualify)

variable (privacy : Bytes)

theorem file_append (a b : List Item) : file (a ++ b) = file a ++ file b := by simp [file]

theorem file_flatMap {α : Type} (l : List α) (f : α → List Item) : file (l.flatMap f) = l.flatMap fun x => file (f x) := by
  simp [file, List.flatMap_assoc]

theorem file_map {α : Type} (l : List α) (f : α → Item) : file (l.map f) = l.flatMap fun x => (f x).toks := by
  simp [file, List.flatMap_map]

theorem structItemsAll_eq (s : Bytes) (ms : List MsgD) : structItemsAll privacy s ms = ms.flatMap fun m => if m.isEntry then [] else structItems privacy s m := by
  induction ms with
  | nil => rfl
  | cons m ms ih => obtain ⟨n, e, fs, es, ms'⟩ := m; rw [structItemsAll, ih]; rfl

/-! ## enums.templ -/

theorem start_digit {b : Byte} (h : isDigit b = true) : RustLex.start (.byte b) = ([], .num [.byte b]) := by
  have hr := digit_range h
  have hl : isLetter b = false := by
    cases hl : isLetter b
    · rfl
    · have := letter_range hl; omega
  simp [RustLex.start, hl, h]

theorem run_digits (s : Frag) (b : Bytes) (h : ∀ x ∈ b, isDigit x = true) : RustLex.run (.num s) (ofBytes b) = ([], .num (s ++ ofBytes b)) := by
  induction b generalizing s with
  | nil => simp [ofBytes, RustLex.run]
  | cons c cs ih =>
    have h1 : RustLex.step (.num s) (.byte c) = ([], .num (s ++ [.byte c])) := by simp [RustLex.step, h c (List.mem_cons_self ..)]
    show RustLex.emit (RustLex.step (.num s) (.byte c)).1 (RustLex.run (RustLex.step (.num s) (.byte c)).2 (ofBytes cs)) = _
    rw [h1, RustLex.emit_nil, ih _ fun x hx => h x (List.mem_cons_of_mem _ hx)]
    simp [ofBytes]

theorem run_number (n : Nat) : RustLex.run .none (ofBytes (decimal n ++ enum_t4)) = ([.num (ofBytes (decimal n)), .op go!","], .none) := by
  have hd := toDigits_isDigit n
  rw [ofBytes_append]
  cases hb : decimal n with
  | nil => exact absurd hb (decimal_ne_nil n)
  | cons c cs =>
    rw [hb] at hd
    have h1 : RustLex.run .none (ofBytes (c :: cs)) = ([], .num (ofBytes (c :: cs))) := by
      show RustLex.emit (RustLex.start (.byte c)).1 (RustLex.run (RustLex.start (.byte c)).2 (ofBytes cs)) = _
      rw [start_digit (hd c (List.mem_cons_self ..)), RustLex.emit_nil, run_digits _ _ fun x hx => hd x (List.mem_cons_of_mem _ hx)]
      rfl
    rw [RustLex.run_append, h1]
    rfl

theorem shows_enum (fuel : Nat) (s : Bytes) (e : EnumD) (h : EnumOk s e) :
    Shows (Tmpl.run (lang privacy) defs (fuel + 1) id!"enum" (.enum s e)) .none (enumItem s e).toks .none := by
  rw [run_call (b := enumBody) rfl]
  refine Shows.cast (ts := (enumItem s ⟨e.name, []⟩).toks.dropLast ++
    ((e.values.mapIdx fun i v => [.word (ofBytes v), .op go!"="] ++ [.num (ofBytes (decimal i)), .op go!","]).flatten ++ [.op go!"}"])) ?_ ?_
  · refine shows_take 5 (env' := [(id!"enumName", .str (camelCase (qualify s e.name))), (0, .enum s e)])
      (t := render (names [camelCase (qualify s e.name)]) (.lit enum_t0 <| .lit enum_t1 <| .hole 0 <| .lit enum_t2 .nil)) (b := .none) (by kernel_rfl) ?_ ?_
    · rlex_by (Item.toks (.enum [(go!"derive", [go!"Debug", go!"Eq", go!"PartialEq", go!"TryFromPrimitive", go!"Copy", go!"Clone"]), (go!"repr", [go!"u32"])]
        [.hole 0] [])).dropLast [0]
      holes h.name
    refine shows_count id!"i" id!"v" _ e.values rfl _ ?_ ?_
    · intro j v hv
      refine shows_assign id!"val" _ (x := .enumValue v) ?_ ?_
      · rw [eval1_var (x := .enum s e) (as := [.int j]) rfl rfl]
        show (e.values[j]?).map _ = _
        rw [hv]; rfl
      · refine ⟨render (names [v]) (.hole 0 <| .lit enum_t3 .nil) ++ (decimal j ++ enum_t4), ?_, ?_⟩
        · show some (v ++ (enum_t3 ++ (decimal j ++ (enum_t4 ++ [])))) = _
          simp [render, names]
        · rw [ofBytes_append]
          refine run_seq ?_ (run_number j)
          rlex_by [.word [.hole 0], .op go!"="] [0]
          holes (h.values v (List.mem_of_getElem? hv))
    · exact ⟨enum_t5 ++ [], rfl, by decide +kernel⟩
  · simp only [enumItem, Item.toks, List.mapIdx_nil, List.flatMap_nil]
    rw [List.flatMap_def (l := List.mapIdx _ _)]
    have : (e.values.mapIdx fun i v => ([.word (ofBytes v), .op go!"="] ++ [.num (ofBytes (decimal i)), .op go!","] : List Tok)) =
        List.map (fun v : Ident × Frag => [.word v.1, .op go!"=", .num v.2, .op go!","]) (e.values.mapIdx fun i v => (ofBytes v, ofBytes (decimal i))) :=
      List.ext_getElem (by simp) fun j h1 h2 => by simp
    rw [this]
    generalize List.flatten _ = x
    simp [List.dropLast]

/-! ## structs.templ -/

theorem findValue_eq {f : FieldD} (h : FieldOk f) : findValue f = some (tyText f) := by
  have : (findValue f).isSome = true := by
    obtain ⟨n, s, k, t⟩ := f
    have hk : k ≠ .group := h.kind
    cases s with
    | one r => cases k <;> first | contradiction | rfl
    | many => cases k <;> first | contradiction | rfl
    | map kk =>
      have hkk := h.key kk rfl
      cases kk <;> first | exact absurd hkk (by decide) | (cases k <;> first | contradiction | rfl)
  rw [tyText]
  cases hv : findValue f <;> simp_all

/-- What stands before a field, and the text after its name. -/
def visText (v : Vis) : Bytes :=
  match v with
  | .priv => []
  | .pub => structs_t10
  | .crate => structs_t13

def cStructField (v : Vis) (f : FieldD) : Chunks := .lit (visText v) <| .hole 0 <| .lit structs_t8 <| cTy f <| .lit structs_t9 .nil

/-- The names for the holes. -/
def keyType (f : FieldD) : Bytes :=
  match f.shape with
  | .map kk => typeName kk
  | _ => []

theorem field_text {v : Vis} {f : FieldD} (h : FieldOk f) :
    visText v ++ (snakeBytes f.name ++ (structs_t8 ++ (tyText f ++ (structs_t9 ++ [])))) =
      render (names [snakeBytes f.name, camelCase f.type, [], [], keyType f]) (cStructField v f) := by
  obtain ⟨n, s, k, t⟩ := f
  have hk : k ≠ .group := h.kind
  cases s with
  | one r => cases k <;> first | contradiction | (simp [cStructField, cTy, cElem, render, names, tyText, findValue, findElem, typeLUT])
  | many => cases k <;> first | contradiction | (simp [cStructField, cTy, cElem, render, names, tyText, findValue, findElem, typeLUT])
  | map kk =>
    have hkk := h.key kk rfl
    cases kk <;> first
      | exact absurd hkk (by decide)
      | (cases k <;> first | contradiction | (simp [cStructField, cTy, cElem, render, names, tyText, findValue, findElem, typeLUT, keyType, typeName]))

/-- The tokens of one field of a struct. -/
def structFieldToks (f : Vis × Ident × Ty) : List Tok := f.1.toks ++ .word f.2.1 :: .op go!":" :: f.2.2.toks ++ [.op go!","]

theorem lex_field {v : Vis} {f : FieldD} (h : FieldOk f) :
    RustLex.run .none (ofBytes (visText v ++ (snakeBytes f.name ++ (structs_t8 ++ (tyText f ++ (structs_t9 ++ [])))))) =
      (structFieldToks (v, snake f.name, fieldTy f), .none) := by
  rw [field_text h]
  obtain ⟨n, s, k, t⟩ := f
  have hk : k ≠ .group := h.kind
  have hn : IsWord (snakeBytes n) := h.name
  have ht : k = .message ∨ k = .enum → IsWord (camelCase t) := h.type
  cases s with
  | one r =>
    show RustLex.run .none (ofBytes (render (names [snakeBytes n, camelCase t, [], [], []]) (.lit (visText v) <| .hole 0 <| .lit structs_t8 <| cElem k <| .lit structs_t9 .nil))) =
      (structFieldToks (v, snake n, elemTy k (camel t)), .none)
    refine run_render (structFieldToks (v, [.hole 0], elemTy k [.hole 1])) ?_ (elemHoles k) ?_ ?_ (elem_words hn ht)
    · cases v <;> cases k <;> first | contradiction | decide +kernel
    · cases v <;> cases k <;> first | contradiction | decide +kernel
    · cases v <;> cases k <;> first | contradiction | kernel_rfl
  | many =>
    show RustLex.run .none (ofBytes (render (names [snakeBytes n, camelCase t, [], [], []]) (.lit (visText v) <| .hole 0 <| .lit structs_t8 <| .lit str!"Vec<" <| cElem k <| .lit str!">" <| .lit structs_t9 .nil))) =
      (structFieldToks (v, snake n, .app1 go!"Vec" (elemTy k (camel t))), .none)
    refine run_render (structFieldToks (v, [.hole 0], .app1 go!"Vec" (elemTy k [.hole 1]))) ?_ (elemHoles k) ?_ ?_ (elem_words hn ht)
    · cases v <;> cases k <;> first | contradiction | decide +kernel
    · cases v <;> cases k <;> first | contradiction | decide +kernel
    · cases v <;> cases k <;> first | contradiction | kernel_rfl
  | map kk =>
    have hkk := h.key kk rfl
    show RustLex.run .none (ofBytes (render (names [snakeBytes n, camelCase t, [], [], typeName kk]) (.lit (visText v) <| .hole 0 <| .lit structs_t8 <| .lit str!"HashMap<" <| .hole 4 <|
      .lit str!", " <| cElem k <| .lit str!">" <| .lit structs_t9 .nil))) =
      (structFieldToks (v, snake n, .app2 go!"HashMap" (scalarTy kk) (elemTy k (camel t))), .none)
    refine run_render (structFieldToks (v, [.hole 0], .app2 go!"HashMap" (tname [.hole 4]) (elemTy k [.hole 1]))) ?_
      (if k = .message ∨ k = .enum then [0, 1, 4] else [0, 4]) ?_ ?_ ?_
    · cases v <;> cases k <;> first | contradiction | decide +kernel
    · cases v <;> cases k <;> first | contradiction | decide +kernel
    · cases kk <;> first | exact absurd hkk (by decide) | (cases v <;> cases k <;> first | contradiction | kernel_rfl)
    · have := key_words kk hkk
      split
      · holes ⟨hn, ht ‹_›, this.2.1⟩
      · holes ⟨hn, this.2.1⟩

theorem shows_structField (call : Nat → Val → Option Bytes) (env : Env Val) (f : FieldD) (h : FieldOk f) :
    Shows (exec (lang privacy) call (match structs_r1 with | .assign _ _ r => r | _ => .nil) ((id!"field", .field f) :: env) .unit)
      .none (structFieldToks (visOf privacy, snake f.name, fieldTy f)) .none := by
  refine shows_assign id!"value" _ (x := .str (tyText f)) ?_ ?_
  · rw [eval1_call (as := [.field f]) rfl]
    show (findValue f).map _ = _
    rw [findValue_eq h]; rfl
  refine shows_assign id!"privacy" _ (x := .privacy privacy) rfl ?_
  refine Shows.cast (ts := _ ++ []) (shows_ite (b := .none) _ (x := .bool (privacy = str!"private")) rfl ?_ shows_nil) (List.append_nil _)
  rw [visOf]
  by_cases h1 : privacy = str!"private"
  · rw [if_pos (show (lang privacy).truth (.bool (privacy = str!"private")) = true from decide_eq_true h1), if_pos h1]
    exact ⟨_, rfl, lex_field (v := .priv) h⟩
  · rw [if_neg (show ¬ (lang privacy).truth (.bool (privacy = str!"private")) = true from fun hc => h1 (of_decide_eq_true hc)), if_neg h1]
    refine Shows.cast (ts := _ ++ []) (shows_ite (b := .none) _ (x := .bool (privacy = str!"public")) rfl ?_ shows_nil) (List.append_nil _)
    by_cases h2 : privacy = str!"public"
    · rw [if_pos (show (lang privacy).truth (.bool (privacy = str!"public")) = true from decide_eq_true h2), if_pos h2]
      exact ⟨_, rfl, lex_field (v := .pub) h⟩
    · rw [if_neg (show ¬ (lang privacy).truth (.bool (privacy = str!"public")) = true from fun hc => h2 (of_decide_eq_true hc)), if_neg h2]
      exact ⟨_, rfl, lex_field (v := .crate) h⟩

theorem shows_structs (fuel : Nat) : ∀ (m : MsgD) (s : Bytes), MsgOk s m → m.depth ≤ fuel →
    Shows (Tmpl.run (lang privacy) defs (fuel + 2) id!"structs" (.message s m)) .none (file (structItems privacy s m)) .none := by
  induction fuel with
  | zero => intro m s _ hd; obtain ⟨n, e, fs, es, ms⟩ := m; rw [MsgD.depth] at hd; omega
  | succ fuel ih =>
    intro m s hm hd
    cases hm with
    | @mk _ n e fs es ms hn hf he hms =>
    rw [MsgD.depth] at hd
    rw [run_call (b := structsBody) rfl]
    refine Shows.cast (ts := (ms.flatMap fun m => file (if m.isEntry then [] else structItems privacy (qualify s n) m)) ++
      ([.word go!"pub", .word go!"struct", .word (camel (qualify s n)), .op go!"{"] ++
       ((fs.flatMap fun f => structFieldToks (visOf privacy, snake f.name, fieldTy f)) ++ ([.op go!"}"] ++
        ((encodeImpl (qualify s n) fs).toks ++ ((decodeImpl (qualify s n) fs).toks ++ [])))))) ?_ ?_
    · refine shows_space privacy _ (by decide +kernel) ?_
      refine shows_index id!"i" id!"v" _ ms rfl _ ?_ ?_
      · intro j m hj
        have hmem := List.mem_of_getElem? hj
        refine shows_space privacy _ (by decide +kernel) ?_
        refine shows_assign id!"message" _ (x := .message (qualify s n) m) ?_ ?_
        · rw [eval1_var (x := .message s (.mk n e fs es ms)) (as := [.int j]) rfl rfl]
          show (ms[j]?).map _ = _
          rw [hj]; rfl
        refine shows_space privacy _ (by decide +kernel) ?_
        obtain ⟨n', e', fs', es', ms'⟩ := m
        refine Shows.cast (ts := _ ++ []) (shows_ite _ (b := .none) (x := .bool !e') rfl ?_ (shows_end privacy _ (by decide +kernel))) (List.append_nil _)
        cases e' with
        | true => exact ⟨_, rfl, rfl⟩
        | false =>
          show Shows (exec (lang privacy) _ _ _ _) _ (file (structItems privacy (qualify s n) (.mk n' false fs' es' ms'))) _
          refine shows_space privacy _ (by decide +kernel) ?_
          refine Shows.cast (ts := _ ++ []) (shows_template id!"structs" _ (b := .none) (x := .message (qualify s n) (.mk n' false fs' es' ms')) rfl ?_
            (shows_end privacy _ (by decide +kernel))) (List.append_nil _)
          exact ih _ _ (hms _ hmem) (by have := depth_le hmem; omega)
      refine shows_take 3 (env' := [(0, .message s (.mk n e fs es ms))])
        (t := render (names [camelCase (qualify s n)]) (.lit structs_t6 <| .hole 0 <| .lit structs_t7 .nil)) (b := .none) (by kernel_rfl) ?_ ?_
      · rlex_by [.word go!"pub", .word go!"struct", .word [.hole 0], .op go!"{"] [0]
        holes hn
      refine shows_index id!"i" id!"v" _ fs rfl _ ?_ ?_
      · intro j f hj
        have hok := hf f (List.mem_of_getElem? hj)
        refine shows_assign id!"field" _ (x := .field f) ?_ (shows_structField privacy _ _ f hok)
        rw [eval1_var (x := .message s (.mk n e fs es ms)) (as := [.int j]) rfl rfl]
        show (fs[j]?).map _ = _
        rw [hj]; rfl
      refine shows_text _ (b := .none) (by decide +kernel) ?_
      refine shows_template id!"encode" _ (b := .none) (x := .message s (.mk n e fs es ms)) rfl (shows_encode privacy fuel s n e fs es ms hn hf) (shows_space privacy _ (by decide +kernel) ?_)
      exact shows_template id!"decode" _ (b := .none) (x := .message s (.mk n e fs es ms)) rfl (shows_decode privacy fuel s n e fs es ms hn hf) (shows_end privacy _ (by decide +kernel))
    · rw [structItems, structItemsAll_eq, file_append, file_flatMap]
      simp [file, Item.toks, List.flatMap_map, structFieldToks]

/-! ## messages.templ, enums.templ, headers.templ, imports.templ, base.templ -/

theorem shows_messages (fuel : Nat) (d : Data) (h : ∀ m ∈ d.messages, MsgOk d.scope m) (hd : MsgD.depth.depths d.messages ≤ fuel) :
    Shows (Tmpl.run (lang privacy) defs (fuel + 3) id!"messages" (.data d)) .none (file (traitItems ++ d.messages.flatMap (messageItems privacy d.scope))) .none := by
  rw [run_call (b := messagesBody) rfl, file_append, file_flatMap]
  refine shows_text _ (b := .none) (by decide +kernel) ?_
  refine Shows.cast (ts := _ ++ []) (shows_index id!"i" id!"e" _ d.messages rfl _ ?_ (shows_end privacy _ (by decide +kernel))) (List.append_nil _)
  intro j m hj
  have hmem := List.mem_of_getElem? hj
  have hok := h m hmem
  refine shows_assign id!"message" _ (x := .message d.scope m) ?_ ?_
  · rw [eval1_var (x := .data d) (as := [.int j]) rfl rfl]
    show (d.messages[j]?).map _ = _
    rw [hj]; rfl
  refine shows_space privacy _ (by decide +kernel) ?_
  obtain ⟨n, e, fs, es, ms⟩ := m
  rw [messageItems, file_append, file_map]
  refine shows_index id!"i" id!"e" _ es rfl _ ?_ ?_
  · intro i x hi
    refine shows_assign id!"enum" _ (x := .enum (qualify d.scope n) x) ?_ ?_
    · rw [eval1_var (x := .message d.scope (.mk n e fs es ms)) (as := [.int i]) rfl rfl]
      show (es[i]?).map _ = _
      rw [hi]; rfl
    refine shows_space privacy _ (by decide +kernel) ?_
    refine Shows.cast (ts := _ ++ []) (shows_template id!"enum" _ (b := .none) (x := .enum (qualify d.scope n) x) rfl (shows_enum privacy _ _ x ?_)
      (shows_end privacy _ (by decide +kernel))) (List.append_nil _)
    cases hok with | mk _ _ he _ => exact he x (List.mem_of_getElem? hi)
  refine shows_space privacy _ (by decide +kernel) ?_
  exact Shows.cast (ts := _ ++ []) (shows_template id!"structs" _ (b := .none) (x := .message d.scope (.mk n e fs es ms)) rfl
    (shows_structs privacy fuel _ _ hok (Nat.le_trans (depth_le hmem) hd)) (shows_end privacy _ (by decide +kernel))) (List.append_nil _)

theorem shows_enums (fuel : Nat) (d : Data) (h : ∀ x ∈ d.enums, EnumOk d.scope x) :
    Shows (Tmpl.run (lang privacy) defs (fuel + 2) id!"enums" (.data d)) .none (file (d.enums.map (enumItem d.scope))) .none := by
  rw [run_call (b := enumsBody) rfl, file_map]
  refine shows_space privacy _ (by decide +kernel) ?_
  refine Shows.cast (ts := _ ++ []) (shows_index id!"i" id!"e" _ d.enums rfl _ ?_ shows_nil) (List.append_nil _)
  intro j x hj
  refine shows_assign id!"enum" _ (x := .enum d.scope x) ?_ ?_
  · rw [eval1_var (x := .data d) (as := [.int j]) rfl rfl]
    show (d.enums[j]?).map _ = _
    rw [hj]; rfl
  exact Shows.cast (ts := _ ++ []) (shows_template id!"enum" _ (b := .none) (x := .enum d.scope x) rfl (shows_enum privacy _ _ x (h x (List.mem_of_getElem? hj)))
    (shows_end privacy _ (by decide +kernel))) (List.append_nil _)

theorem shows_imports (fuel : Nat) (d : Data) :
    Shows (Tmpl.run (lang privacy) defs (fuel + 1) id!"imports" (.data d)) .none (file (importItems d.dependencies)) .none := by
  rw [run_call (b := importsBody) rfl, importItems, file_append, file_append, List.append_assoc]
  refine shows_text _ (b := .none) (by decide +kernel) ?_
  refine shows_ite (b := .none) _ (x := .bool d.dependencies.Enums) rfl ?_ ?_
  · show Shows (if d.dependencies.Enums = true then _ else _) _ _ _
    cases d.dependencies.Enums
    · exact ⟨[], rfl, rfl⟩
    · exact ⟨imports_t1 ++ [], rfl, by decide +kernel⟩
  refine Shows.cast (ts := _ ++ []) (shows_ite (b := .none) _ (x := .bool d.dependencies.Maps) rfl ?_ shows_nil) (List.append_nil _)
  show Shows (if d.dependencies.Maps = true then _ else _) _ _ _
  cases d.dependencies.Maps
  · exact ⟨[], rfl, rfl⟩
  · exact ⟨imports_t2 ++ [], rfl, by decide +kernel⟩

/-- The header is a comment if the version and the path have no newline. -/
theorem shows_headers (fuel : Nat) (d : Data) (hv : ∀ c ∈ d.pluginVersion, c.toNat ≠ 0x0A) (hp : ∀ c ∈ d.sourcePath, c.toNat ≠ 0x0A) :
    Shows (Tmpl.run (lang privacy) defs (fuel + 1) id!"headers" (.data d)) .none [] .none := by
  rw [run_call (b := headersBody) rfl]
  refine ⟨headers_t0 ++ (d.pluginVersion ++ (headers_t1 ++ (d.sourcePath ++ (headers_t2 ++ [])))), rfl, ?_⟩
  simp only [ofBytes_append]
  have h1 : RustLex.run .none (ofBytes headers_t0) = ([], .comment) := by decide +kernel
  have h2 : RustLex.run .comment (ofBytes headers_t1) = ([], .comment) := by decide +kernel
  have h3 : RustLex.run .comment (ofBytes headers_t2 ++ ofBytes []) = ([], .none) := by decide +kernel
  exact run_seq h1 (run_seq (run_comment _ hv) (run_seq h2 (run_seq (run_comment _ hp) h3)))

/-- The header with a version that ends with a newline, as the shipped one does: the rest of the first line is no comment. -/
theorem shows_headers_newline (fuel : Nat) (d : Data) (v : Bytes) (hd : d.pluginVersion = v ++ [0x0A]) (hv : ∀ c ∈ v, c.toNat ≠ 0x0A)
    (hp : ∀ c ∈ d.sourcePath, c.toNat ≠ 0x0A) :
    Shows (Tmpl.run (lang privacy) defs (fuel + 1) id!"headers" (.data d)) .none
      [.op go!",", .word go!"DO", .word go!"NOT", .word go!"EDIT", .op go!"."] .none := by
  rw [run_call (b := headersBody) rfl]
  refine ⟨headers_t0 ++ (d.pluginVersion ++ (headers_t1 ++ (d.sourcePath ++ (headers_t2 ++ [])))), rfl, ?_⟩
  rw [hd]
  simp only [ofBytes_append, List.append_assoc]
  have h1 : RustLex.run .none (ofBytes headers_t0) = ([], .comment) := by decide +kernel
  have h2 : RustLex.run .comment (ofBytes [0x0A]) = ([], .none) := by decide +kernel
  have h3 : RustLex.run .none (ofBytes headers_t1) =
      ([.op go!",", .word go!"DO", .word go!"NOT", .word go!"EDIT", .op go!"."], .comment) := by decide +kernel
  have h4 : RustLex.run .comment (ofBytes headers_t2 ++ ofBytes []) = ([], .none) := by decide +kernel
  have := run_seq h1 (run_seq (run_comment _ hv) (run_seq h2 (run_seq h3 (run_seq (run_comment _ hp) h4))))
  simpa using this

/-- The file, given the tokens of its header. -/
theorem shows_rest (version : Bytes) (deps : Package.Rust.Dependencies) (f : FileD) (fuel : Nat) (hf : f.depth ≤ fuel) (h : FileOk f) {ts : List Tok}
    (hh : Shows (Tmpl.run (lang privacy) defs fuel id!"headers" (.data (data version deps f))) .none ts .none) :
    Shows (generate privacy version deps fuel f) .none (ts ++ file (program privacy deps f)) .none := by
  obtain ⟨k, rfl⟩ : ∃ k, fuel = k + 3 := ⟨fuel - 3, by simp only [FileD.depth] at hf; omega⟩
  simp only [FileD.depth] at hf
  rw [generate, baseBody]
  refine Shows.cast (ts := ts ++ (file (importItems deps) ++ (file (f.enums.map (enumItem f.package)) ++
    (file (traitItems ++ f.messages.flatMap (messageItems privacy f.package)) ++ [])))) ?_ (by simp [file, program])
  refine shows_template id!"headers" _ (b := .none) (x := .data (data version deps f)) rfl hh (shows_space privacy _ (by decide +kernel) ?_)
  refine shows_template id!"imports" _ (b := .none) (x := .data (data version deps f)) rfl (shows_imports privacy _ _) (shows_space privacy _ (by decide +kernel) ?_)
  refine shows_template id!"enums" _ (b := .none) (x := .data (data version deps f)) rfl (shows_enums privacy _ _ h.enums) (shows_space privacy _ (by decide +kernel) ?_)
  exact shows_template id!"messages" _ (b := .none) (x := .data (data version deps f)) rfl (shows_messages privacy k _ h.messages (Nat.le_of_add_le_add_right hf))
    (shows_end privacy _ (by decide +kernel))

theorem shows_file (version : Bytes) (deps : Package.Rust.Dependencies) (f : FileD) (fuel : Nat) (hf : f.depth ≤ fuel) (h : FileOk f)
    (hv : ∀ c ∈ version, c.toNat ≠ 0x0A) (hp : ∀ c ∈ f.path, c.toNat ≠ 0x0A) :
    Shows (generate privacy version deps fuel f) .none (file (program privacy deps f)) .none := by
  obtain ⟨k, rfl⟩ : ∃ k, fuel = k + 1 := ⟨fuel - 1, by simp only [FileD.depth] at hf; omega⟩
  exact shows_rest privacy version deps f _ hf h (shows_headers privacy _ _ hv hp)

theorem shows_file_newline (v : Bytes) (deps : Package.Rust.Dependencies) (f : FileD) (fuel : Nat) (hf : f.depth ≤ fuel) (h : FileOk f)
    (hv : ∀ c ∈ v, c.toNat ≠ 0x0A) (hp : ∀ c ∈ f.path, c.toNat ≠ 0x0A) :
    Shows (generate privacy (v ++ [0x0A]) deps fuel f) .none
      ([.op go!",", .word go!"DO", .word go!"NOT", .word go!"EDIT", .op go!"."] ++ file (program privacy deps f)) .none := by
  obtain ⟨k, rfl⟩ : ∃ k, fuel = k + 1 := ⟨fuel - 1, by simp only [FileD.depth] at hf; omega⟩
  exact shows_rest privacy (v ++ [0x0A]) deps f _ hf h (shows_headers_newline privacy _ _ v rfl hv hp)

end RustText
