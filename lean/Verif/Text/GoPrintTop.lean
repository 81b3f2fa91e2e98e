import Verif.Text.GoPrintAll

/-!
# What the templates print, V: messages and the file
-/

namespace GoText

open Utils Text GoAst Tmpl GoTempl
open Gen (PKind)
open Package (EnumD qualify)

variable {lib : Lib}

theorem file_append (a b : List Decl) : file (a ++ b) = file a ++ file b := by simp [file]

theorem file_flatMap {α : Type} (l : List α) (f : α → List Decl) : file (l.flatMap f) = l.flatMap fun x => file (f x) := by
  simp [file, List.flatMap_assoc]

def MsgD.isEntry : MsgD → Bool
  | .mk _ e _ _ _ => e

theorem structDeclsAll_eq (s : Bytes) (ms : List MsgD) : structDeclsAll s ms = ms.flatMap fun m => if m.isEntry then [] else structDecls s m := by
  induction ms with
  | nil => rfl
  | cons m ms ih => obtain ⟨n, e, fs, es, ms'⟩ := m; rw [structDeclsAll, ih]; rfl

/-- White space. -/
theorem shows_space {call : Nat → Val → Option Bytes} {env : Env Val} {dot : Val} {us : List Tok} {c : Bool} (s : Bytes) {rest : Body}
    (h : Text.run ⟨false, .none⟩ (ofBytes s) = ([], ⟨false, .none⟩)) (hr : Shows (exec lang call rest env dot) false us c) :
    Shows (exec lang call (.text s rest) env dot) false us c :=
  (shows_text s h hr).cast (List.nil_append _)

theorem shows_end {call : Nat → Val → Option Bytes} {env : Env Val} {dot : Val} (s : Bytes)
    (h : Text.run ⟨false, .none⟩ (ofBytes s) = ([], ⟨false, .none⟩)) : Shows (exec lang call (.text s .nil) env dot) false [] false :=
  shows_space s h shows_nil

/-- The declarations for one map field. -/
theorem shows_mapField (fuel : Nat) (o n t : Bytes) (kk k : PKind) (env : Env Val) (h : FieldOk o ⟨n, .map kk, k, t⟩) :
    Shows (exec lang (Tmpl.run lang defs (fuel + 1)) (match structs_r1 with | .assign _ _ (.text _ (.ite _ t _ _)) => t | _ => .nil)
      ((id!"field", .field o ⟨n, .map kk, k, t⟩) :: env) .unit) false (file (mapFieldDecls o ⟨n, .map kk, k, t⟩)) false := by
  have hkk := (h.key kk rfl).1
  have hk : k ≠ .group := h.kind
  have ho : IsName (camelCase (qualify o n)) := (h.key kk rfl).2
  refine Shows.cast (ts := file (mapDecls (mapName o ⟨n, .map kk, k, t⟩) (scalarTy kk) (elemTy k (camel t))) ++
    ((encodeMapFunc (mapName o ⟨n, .map kk, k, t⟩) kk k).toks ++ ((decodeMapFunc (mapName o ⟨n, .map kk, k, t⟩) kk k (camel t)).toks ++ []))) ?_ ?_
  · refine shows_take 21 (env' := (id!"mapValueValue", .str ((FindValue [] (FieldD.mapValue ⟨n, .map kk, k, t⟩)).getD [])) ::
      (id!"mapKeyValue", .str (typeName kk)) :: (id!"field", .field o ⟨n, .map kk, k, t⟩) :: env)
      (t := render (names [camelCase (qualify o n), typeName kk, camelCase t]) (cMapDecls k)) (b := false) ?_
      (lex_mapDecls o n t kk k hkk hk ho h.type) ?_
    · cases kk <;> first | exact absurd hkk (by decide) | (cases k <;> first | contradiction | kernel_rfl)
    refine shows_template id!"encodeMap" _ (b := false) (x := .field o ⟨n, .map kk, k, t⟩) rfl ?_ ?_
    · rw [run_call (b := encodeMapBody) rfl]
      exact shows_encodeMap _ _ o n t kk k hkk hk ho
    refine shows_space _ (by decide +kernel) ?_
    refine shows_template id!"decodeMap" _ (b := false) (x := .field o ⟨n, .map kk, k, t⟩) rfl ?_ (shows_end _ (by decide +kernel))
    rw [run_call (b := decodeMapBody) rfl]
    exact shows_decodeMap _ _ o n t kk k hkk hk ho h.type
  · simp [mapFieldDecls, file]

theorem shows_structs (fuel : Nat) : ∀ (m : MsgD) (s : Bytes), MsgOk s m → m.depth ≤ fuel →
    Shows (Tmpl.run lang defs (fuel + 2) id!"structs" (.message s m)) false (file (structDecls s m)) false := by
  induction fuel with
  | zero => intro m s _ hd; obtain ⟨n, e, fs, es, ms⟩ := m; rw [MsgD.depth] at hd; omega
  | succ fuel ih =>
    intro m s hm hd
    cases hm with
    | @mk _ n e fs es ms hn hf he hms =>
    rw [MsgD.depth] at hd
    rw [run_call (b := structsBody) rfl]
    refine Shows.cast (ts := (ms.flatMap fun m => file (if m.isEntry then [] else structDecls (qualify s n) m)) ++
      ((fs.flatMap fun f => file (mapFieldDecls (qualify s n) f)) ++
      ([.word go!"type", .word (camel (qualify s n)), .word go!"struct", .op go!"{"] ++
       ((fs.flatMap fun f => .word (camel f.name) :: (fieldTy (qualify s n) f).toks ++ [semi]) ++ ([.op go!"}", semi] ++
        ((newFunc (camel (qualify s n)) (newElements fs)).toks ++ ((errorFunc (camel (qualify s n))).toks ++ ((encodeDecl (qualify s n) fs).toks ++
          ((decodeApi (camel (qualify s n))).toks ++ ((decodeDecl (qualify s n) fs).toks ++ [])))))))))) ?_ ?_
    · refine shows_space _ (by decide +kernel) ?_
      refine shows_index id!"i" id!"v" _ ms rfl _ ?_ ?_
      · intro j m hj
        have hmem := List.mem_of_getElem? hj
        refine shows_space _ (by decide +kernel) ?_
        refine shows_assign id!"message" _ (x := .message (qualify s n) m) ?_ ?_
        · rw [eval1_var (x := .message s (.mk n e fs es ms)) (as := [.int j]) rfl rfl]
          show (ms[j]?).map _ = _
          rw [hj]; rfl
        refine shows_space _ (by decide +kernel) ?_
        obtain ⟨n', e', fs', es', ms'⟩ := m
        refine Shows.cast (ts := _ ++ []) (shows_ite _ (b := false) (x := .bool !e') rfl ?_ (shows_end _ (by decide +kernel))) (List.append_nil _)
        cases e' with
        | true => exact ⟨_, rfl, rfl⟩
        | false =>
          show Shows (exec lang _ _ _ _) _ (file (structDecls (qualify s n) (.mk n' false fs' es' ms'))) _
          refine shows_space _ (by decide +kernel) ?_
          refine Shows.cast (ts := _ ++ []) (shows_template id!"structs" _ (b := false) (x := .message (qualify s n) (.mk n' false fs' es' ms')) rfl ?_
            (shows_end _ (by decide +kernel))) (List.append_nil _)
          exact ih _ _ (hms _ hmem) (by have := depth_le hmem; omega)
      refine shows_space _ (by decide +kernel) ?_
      refine shows_index id!"i" id!"v" _ fs rfl _ ?_ ?_
      · intro j f hj
        have hok := hf f (List.mem_of_getElem? hj)
        refine shows_assign id!"field" _ (x := .field (qualify s n) f) ?_ ?_
        · rw [eval1_var (x := .message s (.mk n e fs es ms)) (as := [.int j]) rfl rfl]
          show (fs[j]?).map _ = _
          rw [hj]; rfl
        refine shows_space _ (by decide +kernel) ?_
        refine Shows.cast (ts := _ ++ []) (shows_ite _ (b := false) (x := .bool f.IsMap) rfl ?_ (shows_end _ (by decide +kernel))) (List.append_nil _)
        obtain ⟨n', sh, k, t⟩ := f
        cases sh with
        | one r => exact ⟨_, rfl, rfl⟩
        | many => exact ⟨_, rfl, rfl⟩
        | map kk => exact shows_mapField (fuel + 1) _ n' t kk k _ hok
      refine shows_take 5 (env' := [(0, .message s (.mk n e fs es ms))])
        (t := render (names [camelCase (qualify s n)]) (.lit structs_t22 <| .hole 0 <| .lit structs_t23 <| .lit [] <| .lit structs_t24 .nil)) (b := false) (by kernel_rfl) ?_ ?_
      · lex_by [.word go!"type", .word [.hole 0], .word go!"struct", .op go!"{"] [0]
        holes hn
      refine shows_index id!"i" id!"v" _ fs rfl _ ?_ ?_
      · intro j f hj
        have hok := hf f (List.mem_of_getElem? hj)
        refine shows_assign id!"field" _ (x := .field (qualify s n) f) ?_ ?_
        · rw [eval1_var (x := .message s (.mk n e fs es ms)) (as := [.int j]) rfl rfl]
          show (fs[j]?).map _ = _
          rw [hj]; rfl
        refine shows_assign id!"value" _ (x := .str (tyText (qualify s n) f)) ?_ ?_
        · rw [eval1_call (as := [.field (qualify s n) f]) rfl]
          show (FindValue (qualify (qualify s n) f.name) f).map _ = _
          rw [findValue hok]; rfl
        exact ⟨_, rfl, lex_field hok⟩
      refine shows_text _ (b := false) (by decide +kernel) ?_
      refine shows_template id!"getFunc" _ (b := false) (x := .message s (.mk n e fs es ms)) rfl ?_ (shows_space _ (by decide +kernel) ?_)
      · rw [run_call (b := getFuncBody) rfl]; exact shows_getFunc _ s n e fs es ms hn hf
      refine shows_template id!"error" _ (b := false) (x := .message s (.mk n e fs es ms)) rfl ?_ (shows_space _ (by decide +kernel) ?_)
      · rw [run_call (b := errorBody) rfl]; exact shows_error _ _ s n e fs es ms hn
      refine shows_template id!"encode" _ (b := false) (x := .message s (.mk n e fs es ms)) rfl (shows_encode fuel s n e fs es ms hn hf) (shows_space _ (by decide +kernel) ?_)
      refine shows_template id!"decode" _ (b := false) (x := .message s (.mk n e fs es ms)) rfl ?_ (shows_space _ (by decide +kernel) ?_)
      · rw [run_call (b := decodeBody) rfl]; exact shows_decode _ _ s n e fs es ms hn
      exact shows_template id!"internalDecode" _ (b := false) (x := .message s (.mk n e fs es ms)) rfl (shows_internalDecode _ s n e fs es ms hn hf) (shows_end _ (by decide +kernel))
    · rw [structDecls, structDeclsAll_eq, file_append, file_append, file_flatMap, file_flatMap]
      simp [file, Decl.toks, List.flatMap_map]


/-! ## messages.templ, enums.templ, headers.templ, imports.templ, base.templ -/

theorem shows_messages (fuel : Nat) (d : Data) (h : ∀ m ∈ d.messages, MsgOk d.scope m) (hd : MsgD.depth.depths d.messages ≤ fuel) :
    Shows (Tmpl.run lang defs (fuel + 3) id!"messages" (.data d)) false (file (d.messages.flatMap (messageDecls d.scope))) false := by
  rw [run_call (b := messagesBody) rfl, file_flatMap]
  refine shows_space _ (by decide +kernel) ?_
  refine Shows.cast (ts := _ ++ []) (shows_index id!"i" id!"e" _ d.messages rfl _ ?_ (shows_end _ (by decide +kernel))) (List.append_nil _)
  intro j m hj
  have hmem := List.mem_of_getElem? hj
  have hok := h m hmem
  refine shows_assign id!"message" _ (x := .message d.scope m) ?_ ?_
  · rw [eval1_var (x := .data d) (as := [.int j]) rfl rfl]
    show (d.messages[j]?).map _ = _
    rw [hj]; rfl
  refine shows_space _ (by decide +kernel) ?_
  obtain ⟨n, e, fs, es, ms⟩ := m
  rw [messageDecls, file_append, file_flatMap]
  refine shows_index id!"i" id!"e" _ es rfl _ ?_ ?_
  · intro i x hi
    refine shows_assign id!"enum" _ (x := .enum (qualify d.scope n) x) ?_ ?_
    · rw [eval1_var (x := .message d.scope (.mk n e fs es ms)) (as := [.int i]) rfl rfl]
      show (es[i]?).map _ = _
      rw [hi]; rfl
    refine shows_space _ (by decide +kernel) ?_
    refine Shows.cast (ts := _ ++ []) (shows_template id!"enum" _ (b := false) (x := .enum (qualify d.scope n) x) rfl (shows_enum _ _ x ?_)
      (shows_end _ (by decide +kernel))) (List.append_nil _)
    cases hok with | mk _ _ he _ => exact he x (List.mem_of_getElem? hi)
  refine shows_space _ (by decide +kernel) ?_
  exact Shows.cast (ts := _ ++ []) (shows_template id!"structs" _ (b := false) (x := .message d.scope (.mk n e fs es ms)) rfl
    (shows_structs fuel _ _ hok (Nat.le_trans (depth_le hmem) hd)) (shows_end _ (by decide +kernel))) (List.append_nil _)

theorem shows_enums (fuel : Nat) (d : Data) (h : ∀ x ∈ d.enums, EnumOk d.scope x) :
    Shows (Tmpl.run lang defs (fuel + 2) id!"enums" (.data d)) false (file (d.enums.flatMap (enumDecls d.scope))) false := by
  rw [run_call (b := enumsBody) rfl, file_flatMap]
  refine shows_space _ (by decide +kernel) ?_
  refine Shows.cast (ts := _ ++ []) (shows_index id!"i" id!"e" _ d.enums rfl _ ?_ shows_nil) (List.append_nil _)
  intro j x hj
  refine shows_assign id!"enum" _ (x := .enum d.scope x) ?_ ?_
  · rw [eval1_var (x := .data d) (as := [.int j]) rfl rfl]
    show (d.enums[j]?).map _ = _
    rw [hj]; rfl
  refine shows_space _ (by decide +kernel) ?_
  exact Shows.cast (ts := _ ++ []) (shows_template id!"enum" _ (b := false) (x := .enum d.scope x) rfl (shows_enum _ _ x (h x (List.mem_of_getElem? hj)))
    (shows_end _ (by decide +kernel))) (List.append_nil _)

/-- The header is a comment if the version and the path have no newline. -/
theorem shows_headers (fuel : Nat) (d : Data) (hv : ∀ c ∈ d.pluginVersion, c.toNat ≠ 0x0A) (hp : ∀ c ∈ d.sourcePath, c.toNat ≠ 0x0A) (hn : IsName d.package) :
    Shows (Tmpl.run lang defs (fuel + 1) id!"headers" (.data d)) false (GoAst.Decl.package (ofBytes d.package)).toks false := by
  rw [run_call (b := headersBody) rfl]
  refine ⟨headers_t0 ++ (d.pluginVersion ++ (headers_t1 ++ (d.sourcePath ++ (headers_t2 ++ (d.package ++ (headers_t3 ++ [])))))), rfl, ?_⟩
  simp only [ofBytes_append]
  have h1 : Text.run ⟨false, .none⟩ (ofBytes headers_t0) = ([], ⟨false, .comment⟩) := by decide +kernel
  have h2 : Text.run ⟨false, .comment⟩ (ofBytes headers_t1) = ([], ⟨false, .comment⟩) := by decide +kernel
  have h3 : ofBytes headers_t2 = go!"\n" ++ go!"\npackage " := by decide +kernel
  have h4 : Text.run ⟨false, .comment⟩ go!"\n" = ([], ⟨false, .none⟩) := by decide +kernel
  have h5 : Text.run ⟨false, .none⟩ (go!"\npackage " ++ (ofBytes d.package ++ (ofBytes headers_t3 ++ ofBytes []))) =
      ((GoAst.Decl.package (ofBytes d.package)).toks, ⟨false, .none⟩) := by
    have : go!"\npackage " ++ (ofBytes d.package ++ (ofBytes headers_t3 ++ ofBytes [])) =
        ofBytes (render (names [d.package]) (.lit str!"\npackage " <| .hole 0 <| .lit headers_t3 .nil)) := by
      simp [render, names, ofBytes]
    rw [this]
    lex_by (GoAst.Decl.package [.hole 0]).toks [0]
    holes hn
  rw [h3, List.append_assoc]
  exact run_seq (a := []) h1 (run_seq (a := []) (run_comment _ _ hv) (run_seq (a := []) h2 (run_seq (a := []) (run_comment _ _ hp) (run_seq (a := []) h4 h5))))

theorem shows_imports (fuel : Nat) (version : Bytes) (f : FileD) :
    Shows (Tmpl.run lang defs (fuel + 1) id!"imports" (.data (data version f))) false (GoAst.Decl.imports (RequiredImports.map ofBytes)).toks false := by
  rw [run_call (b := importsBody) rfl]
  cases lib
  refine ⟨imports_t0 ++ ((imports_t1 ++ (str!"github.com/loopholelabs/polyglot" ++ (imports_t2 ++ [])) ++ (imports_t1 ++ (str!"errors" ++ (imports_t2 ++ [])) ++ [])) ++
    (imports_t3 ++ [])), by kernel_rfl, by decide +kernel⟩
  refine ⟨imports_t0 ++ ((imports_t1 ++ (str!"github.com/loopholelabs/polyglot/v2" ++ (imports_t2 ++ [])) ++ (imports_t1 ++ (str!"errors" ++ (imports_t2 ++ [])) ++ [])) ++
    (imports_t3 ++ [])), by kernel_rfl, by decide +kernel⟩

/-- How deep template calls go. -/
def FileD.depth (f : FileD) : Nat := MsgD.depth.depths f.messages + 3

/-- The file, given the tokens of its header. -/
theorem shows_rest (version : Bytes) (f : FileD) (fuel : Nat) (hf : f.depth ≤ fuel) (h : FileOk f) {ts : List Tok}
    (hh : Shows (Tmpl.run lang defs fuel id!"headers" (.data (data version f))) false ts false) :
    Shows (generate version fuel f) false (ts ++ file (program f).tail) false := by
  obtain ⟨k, rfl⟩ : ∃ k, fuel = k + 3 := ⟨fuel - 3, by simp only [FileD.depth] at hf; omega⟩
  simp only [FileD.depth] at hf
  rw [generate, baseBody]
  refine Shows.cast (ts := (ts ++ ((GoAst.Decl.imports (RequiredImports.map ofBytes)).toks ++ [])) ++
    (errorsDecl.toks ++ (file (f.enums.flatMap (enumDecls f.package)) ++ (file (f.messages.flatMap (messageDecls f.package)) ++ [])))) ?_ (by simp [file, program])
  refine shows_ite _ (b := false) (x := .bool true) rfl ?_ ?_
  · show Shows (exec lang _ _ _ _) _ _ _
    refine shows_template id!"headers" _ (b := false) (x := .data (data version f)) rfl hh ?_
    refine shows_space _ (by decide +kernel) ?_
    exact shows_template id!"imports" _ (b := false) (x := .data (data version f)) rfl (shows_imports _ _ f) (shows_end _ (by decide +kernel))
  refine shows_template id!"errors" _ (b := false) (x := .data (data version f)) rfl ?_ (shows_space _ (by decide +kernel) ?_)
  · rw [run_call (b := errorsBody) rfl]; exact shows_errors _ _ _
  refine shows_template id!"enums" _ (b := false) (x := .data (data version f)) rfl (shows_enums _ _ h.enums) (shows_space _ (by decide +kernel) ?_)
  exact shows_template id!"messages" _ (b := false) (x := .data (data version f)) rfl (shows_messages k _ h.messages (Nat.le_of_add_le_add_right hf)) (shows_end _ (by decide +kernel))

theorem shows_file (version : Bytes) (f : FileD) (fuel : Nat) (hf : f.depth ≤ fuel) (h : FileOk f) (hv : ∀ c ∈ version, c.toNat ≠ 0x0A)
    (hp : ∀ c ∈ f.path, c.toNat ≠ 0x0A) : Shows (generate version fuel f) false (file (program f)) false := by
  obtain ⟨k, rfl⟩ : ∃ k, fuel = k + 1 := ⟨fuel - 1, by simp only [FileD.depth] at hf; omega⟩
  exact shows_rest version f _ hf h (shows_headers _ _ hv hp h.package)

/-- The header with a version that ends with a newline, as the shipped one does: the rest of the first line is no comment. -/
theorem shows_headers_newline (fuel : Nat) (d : Data) (v : Bytes) (hd : d.pluginVersion = v ++ [0x0A]) (hv : ∀ c ∈ v, c.toNat ≠ 0x0A)
    (hp : ∀ c ∈ d.sourcePath, c.toNat ≠ 0x0A) (hn : IsName d.package) :
    Shows (Tmpl.run lang defs (fuel + 1) id!"headers" (.data d)) false
      ([.op go!",", .word go!"DO", .word go!"NOT", .word go!"EDIT", .op go!"."] ++ (GoAst.Decl.package (ofBytes d.package)).toks) false := by
  rw [run_call (b := headersBody) rfl]
  refine ⟨headers_t0 ++ (d.pluginVersion ++ (headers_t1 ++ (d.sourcePath ++ (headers_t2 ++ (d.package ++ (headers_t3 ++ [])))))), rfl, ?_⟩
  rw [hd]
  simp only [ofBytes_append, List.append_assoc]
  have h1 : Text.run ⟨false, .none⟩ (ofBytes headers_t0) = ([], ⟨false, .comment⟩) := by decide +kernel
  have h2 : Text.run ⟨false, .comment⟩ (ofBytes [0x0A]) = ([], ⟨false, .none⟩) := by decide +kernel
  have h3 : Text.run ⟨false, .none⟩ (ofBytes headers_t1) =
      ([.op go!",", .word go!"DO", .word go!"NOT", .word go!"EDIT", .op go!"."], ⟨false, .comment⟩) := by decide +kernel
  have h4 : ofBytes headers_t2 = go!"\n" ++ go!"\npackage " := by decide +kernel
  have h5 : Text.run ⟨false, .comment⟩ go!"\n" = ([], ⟨false, .none⟩) := by decide +kernel
  have h6 : Text.run ⟨false, .none⟩ (go!"\npackage " ++ (ofBytes d.package ++ (ofBytes headers_t3 ++ ofBytes []))) =
      ((GoAst.Decl.package (ofBytes d.package)).toks, ⟨false, .none⟩) := by
    have : go!"\npackage " ++ (ofBytes d.package ++ (ofBytes headers_t3 ++ ofBytes [])) =
        ofBytes (render (names [d.package]) (.lit str!"\npackage " <| .hole 0 <| .lit headers_t3 .nil)) := by
      simp [render, names, ofBytes]
    rw [this]
    lex_by (GoAst.Decl.package [.hole 0]).toks [0]
    holes hn
  rw [h4, List.append_assoc]
  exact run_seq (a := []) h1 (run_seq (a := []) (run_comment _ _ hv) (run_seq (a := []) h2 (run_seq h3
    (run_seq (a := []) (run_comment _ _ hp) (run_seq (a := []) h5 h6)))))

theorem shows_file_newline (v : Bytes) (f : FileD) (fuel : Nat) (hf : f.depth ≤ fuel) (h : FileOk f) (hv : ∀ c ∈ v, c.toNat ≠ 0x0A)
    (hp : ∀ c ∈ f.path, c.toNat ≠ 0x0A) : Shows (generate (v ++ [0x0A]) fuel f) false
      ([.op go!",", .word go!"DO", .word go!"NOT", .word go!"EDIT", .op go!"."] ++ file (program f)) false := by
  obtain ⟨k, rfl⟩ : ∃ k, fuel = k + 1 := ⟨fuel - 1, by simp only [FileD.depth] at hf; omega⟩
  exact (shows_rest (v ++ [0x0A]) f _ hf h (shows_headers_newline _ _ v rfl hv hp h.package)).cast (List.append_assoc ..)

end GoText
