import Verif.Text.TsPrintTop

/-!
# What the templates of the TypeScript generator print, IV: classes and the file
-/

namespace TsText

open Utils Tmpl TsAst TsTempl
open Text (Frag Sym ofBytes ofBytes_append isLetter isWordChar letter_range)
open TsLex (Tok Mode run_seq run_comment)
open RustLex (IsWord)
open GoText (Chunks render flat ofBytes_render names uses FieldD MsgD FileD decimal IsKey eval1_var eval1_call isSlice_shape isMessage_shape depth_le)
open Gen (PKind)
open Package (EnumD qualify)

/-- Between two tokens, where line breaks are white space. -/
local notation "btw" => Mode.between

theorem shows_param (call : Nat → Val → Option Bytes) (env : Env Val) (f : FieldD) (h : FieldOk f) :
    Shows (exec lang call (match structs_r1 with | .assign _ _ r => r | _ => .nil) ((id!"field", .field f) :: env) .unit)
      btw (paramTok (lower f.name) (fieldTy f)) btw := by
  refine shows_assign id!"value" _ (x := .str (tyText f)) ?_ ?_
  · rw [eval1_call (as := [.field f]) rfl]
    show (findValue f).map _ = _
    rw [findValue_eq h]; rfl
  refine ⟨_, ?_, lex_param h⟩
  rw [cParam, render, ]
  simp only [render, ty_text h]
  rfl

theorem shows_property (call : Nat → Val → Option Bytes) (env : Env Val) (f : FieldD) (h : FieldOk f) :
    Shows (exec lang call (match structs_r3 with | .assign _ _ r => r | _ => .nil) ((id!"field", .field f) :: env) .unit)
      btw (propertyToks (lower f.name) (fieldTy f)) btw := by
  refine shows_assign id!"value" _ (x := .str (tyText f)) ?_ ?_
  · rw [eval1_call (as := [.field f]) rfl]
    show (findValue f).map _ = _
    rw [findValue_eq h]; rfl
  refine ⟨_, ?_, lex_property h⟩
  rw [cProperty]
  simp only [render, ty_text h]
  rfl

theorem shows_structs (fuel : Nat) : ∀ (m : MsgD) (s : Bytes), MsgOk s m → m.depth ≤ fuel →
    Shows (Tmpl.run lang defs (fuel + 2) id!"structs" (.message s m)) btw (file (structItems s m)) btw := by
  induction fuel with
  | zero => intro m s _ hd; obtain ⟨n, e, fs, es, ms⟩ := m; rw [MsgD.depth] at hd; omega
  | succ fuel ih =>
    intro m s hm hd
    cases hm with
    | @mk _ n e fs es ms hn hf he hms =>
    rw [MsgD.depth] at hd
    rw [run_call (b := structsBody) rfl]
    have hfield : ∀ (j : Nat) (f : FieldD) (env : Env Val) (dot : Val), fs[j]? = some f →
        eval1 lang ((id!"v", Val.unit) :: (id!"i", .int j) :: (0, .message s (.mk n e fs es ms)) :: env) dot (.path (some 0) [id!"Fields", id!"Get"] (.cons (.path (some id!"i") [] .nil) .nil)) =
          some (.field f) := by
      intro j f env dot hj
      rw [eval1_var (x := .message s (.mk n e fs es ms)) (as := [.int j]) rfl rfl]
      show (fs[j]?).map _ = _
      rw [hj]; rfl
    refine Shows.cast (ts := (ms.flatMap fun m => file (if m.isEntry then [] else structItems (qualify s n) m)) ++
      ([.word go!"export", .word go!"class", .word (camel (qualify s n)), .op go!"{", .word go!"constructor", .op go!"("] ++
       ((fs.flatMap fun f => paramTok (lower f.name) (fieldTy f)) ++ ([.op go!")", .op go!"{"] ++
        ((fs.flatMap fun f => stmts [setField (lower f.name)]) ++ ([.op go!"}", .nl] ++
         ((fs.flatMap fun f => propertyToks (lower f.name) (fieldTy f)) ++
        ((encodeMethod fs).toks ++ ((decodeMethod (qualify s n) fs).toks ++ [.op go!"}", .nl]))))))))) ?_ ?_
    · refine shows_space _ (by decide +kernel) ?_
      refine shows_index id!"i" id!"v" _ ms rfl _ ?_ ?_
      · intro j m hj
        have hmem := List.mem_of_getElem? hj
        refine shows_space _ (by decide +kernel) ?_
        refine shows_assign id!"message" _ (x := .message (qualify s n) m) ?_ ?_
        · rw [eval1_var (x := .message s (.mk n e fs es ms)) (as := [.int j]) rfl rfl]
          show (ms[j]?).map _ = _
          rw [hj]; rfl
        refine shows_space _ (by decide +kernel) ?_
        obtain ⟨n', e', fs', es', ms'⟩ := m
        refine Shows.cast (ts := _ ++ []) (shows_ite _ (b := btw) (x := .bool !e') rfl ?_ (shows_end _ (by decide +kernel))) (List.append_nil _)
        cases e' with
        | true => exact ⟨_, rfl, rfl⟩
        | false =>
          show Shows (exec lang _ _ _ _) _ (file (structItems (qualify s n) (.mk n' false fs' es' ms'))) _
          refine shows_space _ (by decide +kernel) ?_
          refine Shows.cast (ts := _ ++ []) (shows_template id!"structs" _ (b := btw) (x := .message (qualify s n) (.mk n' false fs' es' ms')) rfl ?_
            (shows_end _ (by decide +kernel))) (List.append_nil _)
          exact ih _ _ (hms _ hmem) (by have := depth_le hmem; omega)
      refine shows_take 3 (env' := [(0, .message s (.mk n e fs es ms))])
        (t := render (names [camelCase (qualify s n)]) (.lit structs_t6 <| .hole 0 <| .lit structs_t7 .nil)) (b := btw) (by kernel_rfl) ?_ ?_
      · tlex_by [.word go!"export", .word go!"class", .word [.hole 0], .op go!"{", .word go!"constructor", .op go!"("] [0]
        holes hn
      refine shows_index id!"i" id!"v" _ fs rfl _ ?_ ?_
      · intro j f hj
        exact shows_assign id!"field" _ (x := .field f) (hfield j f _ _ hj) (shows_param _ _ f (hf f (List.mem_of_getElem? hj)))
      refine shows_text _ (b := btw) (by decide +kernel) ?_
      refine shows_index id!"i" id!"v" _ fs rfl _ ?_ ?_
      · intro j f hj
        refine shows_assign id!"field" _ (x := .field f) (hfield j f _ _ hj) ⟨_, ?_, lex_set (hf f (List.mem_of_getElem? hj))⟩
        simp only [render, names]
        rfl
      refine shows_text _ (b := btw) (by decide +kernel) ?_
      refine shows_index id!"i" id!"v" _ fs rfl _ ?_ ?_
      · intro j f hj
        exact shows_assign id!"field" _ (x := .field f) (hfield j f _ _ hj) (shows_property _ _ f (hf f (List.mem_of_getElem? hj)))
      refine shows_template id!"encode" _ (b := btw) (x := .message s (.mk n e fs es ms)) rfl (shows_encode fuel s n e fs es ms hf) (shows_space _ (by decide +kernel) ?_)
      refine shows_template id!"decode" _ (b := btw) (x := .message s (.mk n e fs es ms)) rfl (shows_decode fuel s n e fs es ms hn hf) ?_
      exact ⟨structs_t27 ++ [], rfl, by decide +kernel⟩
    · rw [structItems, structItemsAll_eq, file_append, file_flatMap]
      simp [file, classItem, Item.toks, Member.toks, List.flatMap_map, List.flatMap_assoc, toks_block, stmts_map, paramToks, paramTok, propertyToks]

/-! ## messages.templ, enums.templ, headers.templ, imports.templ, body.templ, head.templ -/

theorem shows_messages (fuel : Nat) (d : Data) (h : ∀ m ∈ d.messages, MsgOk d.scope m) (hd : MsgD.depth.depths d.messages ≤ fuel) :
    Shows (Tmpl.run lang defs (fuel + 3) id!"messages" (.data d)) btw (file (d.messages.flatMap (messageItems d.scope))) btw := by
  rw [run_call (b := messagesBody) rfl, file_flatMap]
  refine shows_space _ (by decide +kernel) ?_
  refine Shows.cast (ts := _ ++ []) (shows_index id!"i" id!"e" _ d.messages rfl _ ?_ (shows_end _ (by decide +kernel))) (List.append_nil _)
  intro j m hj
  have hmem := List.mem_of_getElem? hj
  have hok := h m hmem
  refine shows_assign id!"message" _ (x := .message d.scope m) ?_ ?_
  · rw [eval1_var (x := .data d) (as := [.int j]) rfl rfl]
    show (d.messages[j]?).map _ = _
    rw [hj]; rfl
  refine shows_space _ (by decide +kernel) ?_
  obtain ⟨n, e, fs, es, ms⟩ := m
  rw [messageItems, file_append, file_map]
  refine shows_index id!"i" id!"e" _ es rfl _ ?_ ?_
  · intro i x hi
    refine shows_assign id!"enum" _ (x := .enum (qualify d.scope n) x) ?_ ?_
    · rw [eval1_var (x := .message d.scope (.mk n e fs es ms)) (as := [.int i]) rfl rfl]
      show (es[i]?).map _ = _
      rw [hi]; rfl
    refine shows_space _ (by decide +kernel) ?_
    refine Shows.cast (ts := _ ++ []) (shows_template id!"enum" _ (b := btw) (x := .enum (qualify d.scope n) x) rfl (shows_enum _ _ x ?_)
      (shows_end _ (by decide +kernel))) (List.append_nil _)
    cases hok with | mk _ _ he _ => exact he x (List.mem_of_getElem? hi)
  refine shows_space _ (by decide +kernel) ?_
  exact Shows.cast (ts := _ ++ []) (shows_template id!"structs" _ (b := btw) (x := .message d.scope (.mk n e fs es ms)) rfl
    (shows_structs fuel _ _ hok (Nat.le_trans (depth_le hmem) hd)) (shows_end _ (by decide +kernel))) (List.append_nil _)

theorem shows_enums (fuel : Nat) (d : Data) (h : ∀ x ∈ d.enums, EnumOk d.scope x) :
    Shows (Tmpl.run lang defs (fuel + 2) id!"enums" (.data d)) btw (file (d.enums.map (enumItem d.scope))) btw := by
  rw [run_call (b := enumsBody) rfl, file_map]
  refine shows_space _ (by decide +kernel) ?_
  refine Shows.cast (ts := _ ++ []) (shows_index id!"i" id!"e" _ d.enums rfl _ ?_ shows_nil) (List.append_nil _)
  intro j x hj
  refine shows_assign id!"enum" _ (x := .enum d.scope x) ?_ ?_
  · rw [eval1_var (x := .data d) (as := [.int j]) rfl rfl]
    show (d.enums[j]?).map _ = _
    rw [hj]; rfl
  exact Shows.cast (ts := _ ++ []) (shows_template id!"enum" _ (b := btw) (x := .enum d.scope x) rfl (shows_enum _ _ x (h x (List.mem_of_getElem? hj)))
    (shows_end _ (by decide +kernel))) (List.append_nil _)

theorem shows_imports (fuel : Nat) (d : Data) (h : ∀ s ∈ d.dependencies, IsWord s) :
    Shows (Tmpl.run lang defs (fuel + 1) id!"imports" (.data d)) btw (Item.import1 (d.dependencies.map ofBytes) go!"polyglot").toks btw := by
  rw [run_call (b := importsBody) rfl]
  refine Shows.cast (ts := [.word go!"import", .op go!"{"] ++ ((d.dependencies.map fun s => (Val.str s, Val.unit)).flatMap (fun y => match y.1 with
    | .str s => [.word (ofBytes s), .op go!","] | _ => []) ++ [.op go!"}", .word go!"from", .str go!"polyglot", .nl])) ?_ ?_
  · refine shows_text _ (b := btw) (by decide +kernel) ?_
    refine shows_range (some id!"key") id!"_" _ (x := .set d.dependencies) rfl rfl _ ?_ ⟨imports_t2 ++ [], rfl, by decide +kernel⟩
    intro y hy
    obtain ⟨s, hs, rfl⟩ := List.mem_map.mp hy
    refine ⟨render (names [s]) (.hole 0 <| .lit imports_t1 .nil), ?_, ?_⟩
    · simp only [render, names]; rfl
    · tlex_by [.word [.hole 0], .op go!","] [0]
      holes (h s hs)
  · simp [Item.toks, List.flatMap_map]

/-- The header is a comment if the version and the path have no newline. -/
theorem shows_headers (fuel : Nat) (d : Data) (hv : ∀ c ∈ d.pluginVersion, c.toNat ≠ 0x0A) (hp : ∀ c ∈ d.sourcePath, c.toNat ≠ 0x0A) :
    Shows (Tmpl.run lang defs (fuel + 1) id!"headers" (.data d)) btw [] btw := by
  rw [run_call (b := headersBody) rfl]
  refine ⟨headers_t0 ++ (d.pluginVersion ++ (headers_t1 ++ (d.sourcePath ++ (headers_t2 ++ [])))), rfl, ?_⟩
  simp only [ofBytes_append]
  have h1 : TsLex.run btw (ofBytes headers_t0) = ([], ⟨false, .comment⟩) := by decide +kernel
  have h2 : TsLex.run ⟨false, .comment⟩ (ofBytes headers_t1) = ([], ⟨false, .comment⟩) := by decide +kernel
  have h3 : TsLex.run ⟨false, .comment⟩ (ofBytes headers_t2 ++ ofBytes []) = ([], btw) := by decide +kernel
  exact run_seq h1 (run_seq (run_comment _ _ hv) (run_seq h2 (run_seq (run_comment _ _ hp) h3)))

/-- What a newline at the end of the version leaves of the first line of the file. -/
def stray : List Tok := [.op go!",", .word go!"DO", .word go!"NOT", .word go!"EDIT", .op go!"."]

/-- The header with a version that ends with a newline, as the shipped one does: the rest of the first line is no comment. -/
theorem shows_headers_newline (fuel : Nat) (d : Data) (v : Bytes) (hd : d.pluginVersion = v ++ [0x0A]) (hv : ∀ c ∈ v, c.toNat ≠ 0x0A)
    (hp : ∀ c ∈ d.sourcePath, c.toNat ≠ 0x0A) :
    Shows (Tmpl.run lang defs (fuel + 1) id!"headers" (.data d)) btw stray btw := by
  rw [run_call (b := headersBody) rfl]
  refine ⟨headers_t0 ++ (d.pluginVersion ++ (headers_t1 ++ (d.sourcePath ++ (headers_t2 ++ [])))), rfl, ?_⟩
  rw [hd]
  simp only [ofBytes_append, List.append_assoc]
  have h1 : TsLex.run btw (ofBytes headers_t0) = ([], ⟨false, .comment⟩) := by decide +kernel
  have h2 : TsLex.run ⟨false, .comment⟩ (ofBytes [0x0A]) = ([], btw) := by decide +kernel
  have h3 : TsLex.run btw (ofBytes headers_t1) = (stray, ⟨false, .comment⟩) := by decide +kernel
  have h4 : TsLex.run ⟨false, .comment⟩ (ofBytes headers_t2 ++ ofBytes []) = ([], btw) := by decide +kernel
  have := run_seq h1 (run_seq (run_comment _ _ hv) (run_seq h2 (run_seq h3 (run_seq (run_comment _ _ hp) h4))))
  simpa using this

/-- The file, given the tokens of its header. -/
theorem shows_rest (version : Bytes) (deps : List Bytes) (f : FileD) (fuel : Nat) (hf : f.depth ≤ fuel) (h : FileOk f) (hd : ∀ s ∈ deps, IsWord s) {ts : List Tok}
    (hh : Shows (Tmpl.run lang defs fuel id!"headers" (.data (data version deps f))) btw ts btw) :
    Shows (generate version deps fuel f) btw (ts ++ file (program deps f)) btw := by
  obtain ⟨k, rfl⟩ : ∃ k, fuel = k + 3 := ⟨fuel - 3, by simp only [FileD.depth] at hf; omega⟩
  simp only [FileD.depth] at hf
  have hbody : Shows (exec lang (Tmpl.run lang defs (k + 3)) bodyBody [(0, .data (data version deps f))] (.data (data version deps f))) btw
      (file (f.enums.map (enumItem f.package)) ++ (file (f.messages.flatMap (messageItems f.package)) ++ [])) btw := by
    refine shows_template id!"enums" _ (b := btw) (x := .data (data version deps f)) rfl (shows_enums _ _ h.enums) (shows_space _ (by decide +kernel) ?_)
    exact shows_template id!"messages" _ (b := btw) (x := .data (data version deps f)) rfl (shows_messages k _ h.messages (Nat.le_of_add_le_add_right hf))
      (shows_end _ (by decide +kernel))
  have hhead : Shows (exec lang (Tmpl.run lang defs (k + 3)) headBody [(0, .data (data version deps f))] (.data (data version deps f))) btw
      (ts ++ ((Item.import1 (deps.map ofBytes) go!"polyglot").toks ++ [])) btw := by
    refine shows_template id!"headers" _ (b := btw) (x := .data (data version deps f)) rfl hh (shows_space _ (by decide +kernel) ?_)
    exact shows_template id!"imports" _ (b := btw) (x := .data (data version deps f)) rfl (shows_imports _ _ hd) shows_nil
  obtain ⟨x, hx, hu⟩ := hbody
  obtain ⟨y, hy, hv⟩ := hhead
  refine ⟨y ++ x, by simp only [generate, hx, hy, Option.bind_eq_bind, Option.bind_some], ?_⟩
  rw [ofBytes_append, run_seq hv hu]
  simp [program, file]

theorem shows_file (version : Bytes) (deps : List Bytes) (f : FileD) (fuel : Nat) (hf : f.depth ≤ fuel) (h : FileOk f) (hd : ∀ s ∈ deps, IsWord s)
    (hv : ∀ c ∈ version, c.toNat ≠ 0x0A) (hp : ∀ c ∈ f.path, c.toNat ≠ 0x0A) :
    Shows (generate version deps fuel f) btw (file (program deps f)) btw := by
  obtain ⟨k, rfl⟩ : ∃ k, fuel = k + 1 := ⟨fuel - 1, by simp only [FileD.depth] at hf; omega⟩
  exact shows_rest version deps f _ hf h hd (shows_headers _ _ hv hp)

theorem shows_file_newline (v : Bytes) (deps : List Bytes) (f : FileD) (fuel : Nat) (hf : f.depth ≤ fuel) (h : FileOk f) (hd : ∀ s ∈ deps, IsWord s)
    (hv : ∀ c ∈ v, c.toNat ≠ 0x0A) (hp : ∀ c ∈ f.path, c.toNat ≠ 0x0A) :
    Shows (generate (v ++ [0x0A]) deps fuel f) btw (stray ++ file (program deps f)) btw := by
  obtain ⟨k, rfl⟩ : ∃ k, fuel = k + 1 := ⟨fuel - 1, by simp only [FileD.depth] at hf; omega⟩
  exact shows_rest (v ++ [0x0A]) deps f _ hf h hd (shows_headers_newline _ _ v rfl hv hp)

end TsText
