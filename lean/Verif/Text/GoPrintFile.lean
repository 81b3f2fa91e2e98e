import Verif.Text.GoPrint

/-!
# What the templates print, II: loops
-/

namespace GoText

open Utils Text GoAst Tmpl GoTempl
open Gen (PKind)
open Package (EnumD qualify)

/-! ## Evaluation of expressions -/

theorem eval1_call {V : Type} {L : Lang V} {env : Env V} {dot : V} {f : Nat} {e : Tmpl.Expr} {as : List V} (h : eval L env dot e = some as) :
    eval1 L env dot (.call f e) = L.func f as := by
  simp only [eval1, eval, h, Option.bind_eq_bind, Option.bind_some]
  cases L.func f as <;> rfl

theorem eval1_dot {V : Type} {L : Lang V} {env : Env V} {dot : V} {fs : List Nat} {e : Tmpl.Expr} {as : List V} (h : eval L env dot e = some as) :
    eval1 L env dot (.path none fs e) = follow L dot fs as := by
  simp only [eval1, eval, h, Option.bind_eq_bind, Option.bind_some]
  cases follow L dot fs as <;> rfl

theorem eval1_var {V : Type} {L : Lang V} {env : Env V} {dot : V} {v : Nat} {x : V} {fs : List Nat} {e : Tmpl.Expr} {as : List V} (hv : env.lookup v = some x)
    (h : eval L env dot e = some as) :
    eval1 L env dot (.path (some v) fs e) = follow L x fs as := by
  simp only [eval1, eval, h, hv, Option.bind_eq_bind, Option.bind_some]
  cases follow L x fs as <;> rfl

theorem run_call {L : Lang Val} {defs : List (Nat × Body)} {n : Nat} {b : Body} (h : defs.lookup n = some b) (fuel : Nat) (v : Val) :
    Tmpl.run L defs (fuel + 1) n v = exec L (Tmpl.run L defs fuel) b [(0, v)] v := by
  simp [Tmpl.run, h]

variable {lib : Lib}

/-! ## Loops -/

section
variable {call : Nat → Val → Option Bytes} {env : Env Val} {dot : Val} {a c : Bool} {us : List Tok}

theorem flatten_mapIdx {α β : Type} (l : List α) (f : Nat → α → List β) (g : α → List β) (h : ∀ i x, f i x = g x) : (l.mapIdx f).flatten = l.flatMap g := by
  have : f = fun _ x => g x := by funext i x; exact h i x
  rw [this, List.flatMap_def]
  congr 1
  exact List.ext_getElem (by simp) fun j h1 h2 => by simp

/-- `range $i, $v := MakeIterable n` -/
theorem shows_count {α : Type} (i v : Nat) (e : Tmpl.Expr) {body rest : Body} (l : List α) (he : eval1 lang env dot e = some (.units l.length))
    (g : Nat → α → List Tok) (hb : ∀ j x, l[j]? = some x → Shows (exec lang call body ((v, .unit) :: (i, .int j) :: env) .unit) a (g j x) a)
    (hr : Shows (exec lang call rest env dot) a us c) :
    Shows (exec lang call (.range (some i) v e body rest) env dot) a ((l.mapIdx g).flatten ++ us) c := by
  have key := shows_range (L := lang) (call := call) (some i) v e (body := body) (rest := rest) he rfl
    (fun y => match y.1 with | .int j => (match l[j]? with | some x => g j x | none => []) | _ => []) (a := a) ?_ hr
  · refine key.cast ?_
    congr 1
    rw [List.flatMap_def, List.map_map]
    congr 1
    refine List.ext_getElem (by simp) fun j h1 h2 => ?_
    simp only [List.length_map, List.length_range, List.length_mapIdx] at h1 h2
    simp [h2]
  · intro y hy
    simp only [List.mem_map, List.mem_range] at hy
    obtain ⟨j, hj, rfl⟩ := hy
    have := hb j l[j] (by simp [hj])
    simpa [hj, round] using this

/-- The same when the text does not depend on the index. -/
theorem shows_index {α : Type} (i v : Nat) (e : Tmpl.Expr) {body rest : Body} (l : List α) (he : eval1 lang env dot e = some (.units l.length))
    (g : α → List Tok) (hb : ∀ j x, l[j]? = some x → Shows (exec lang call body ((v, .unit) :: (i, .int j) :: env) .unit) a (g x) a)
    (hr : Shows (exec lang call rest env dot) a us c) :
    Shows (exec lang call (.range (some i) v e body rest) env dot) a (l.flatMap g ++ us) c :=
  (shows_count i v e l he (fun _ => g) hb hr).cast (by rw [flatten_mapIdx l _ g fun _ _ => rfl])

/-- `range $v := list` -/
theorem shows_list {α : Type} (v : Nat) (e : Tmpl.Expr) {body rest : Body} (l : List α) (h : α → Val) {x : Val} (he : eval1 lang env dot e = some x)
    (hi : iter x = some (l.mapIdx fun i y => (.int i, h y)))
    (g : α → List Tok) (hb : ∀ x ∈ l, Shows (exec lang call body ((v, h x) :: env) (h x)) a (g x) a)
    (hr : Shows (exec lang call rest env dot) a us c) :
    Shows (exec lang call (.range none v e body rest) env dot) a (l.flatMap g ++ us) c := by
  have key := shows_range (L := lang) (call := call) none v e (body := body) (rest := rest) he hi
    (fun y => match y.1 with | .int j => (match l[j]? with | some x => g x | none => []) | _ => []) (a := a) ?_ hr
  · refine key.cast ?_
    congr 1
    rw [List.flatMap_def, List.flatMap_def]
    congr 1
    refine List.ext_getElem (by simp) fun j h1 h2 => ?_
    simp only [List.length_map, List.length_mapIdx] at h1 h2
    simp [h2]
  · intro y hy
    obtain ⟨j, hj, rfl⟩ := List.mem_mapIdx.mp hy
    have := hb l[j] (List.getElem_mem hj)
    simpa [hj, round] using this

end

/-! ## Conditions on names -/

/-- A field whose names are identifiers, of a kind that the generator supports. -/
structure FieldOk (owner : Bytes) (f : FieldD) : Prop where
  name : IsName (camelCase f.name)
  kind : f.kind ≠ .group
  type : (f.kind = .message ∨ f.kind = .enum) → IsName (camelCase f.type)
  elem : f.shape = .many → f.kind = .enum → IsName (elemName f.type)
  key : ∀ kk, f.shape = .map kk → IsKey kk ∧ IsName (camelCase (qualify owner f.name))

structure EnumOk (scope : Bytes) (e : EnumD) : Prop where
  name : IsName (camelCase (qualify scope e.name))
  values : ∀ v ∈ e.values, IsName (camelCase (qualify scope v))

/-- A message and everything inside. -/
inductive MsgOk : Bytes → MsgD → Prop where
  | mk {scope name : Bytes} {e : Bool} {fs : List FieldD} {es : List EnumD} {ms : List MsgD}
    (name_ok : IsName (camelCase (qualify scope name)))
    (fields : ∀ f ∈ fs, FieldOk (qualify scope name) f)
    (enums : ∀ x ∈ es, EnumOk (qualify scope name) x)
    (messages : ∀ m ∈ ms, MsgOk (qualify scope name) m) : MsgOk scope (.mk name e fs es ms)

structure FileOk (f : FileD) : Prop where
  package : IsName (packageName f)
  enums : ∀ x ∈ f.enums, EnumOk f.package x
  messages : ∀ m ∈ f.messages, MsgOk f.package m

/-! ## encode.templ -/

theorem encodingFields {o : Bytes} (fs : List FieldD) (h : ∀ f ∈ fs, FieldOk o f) :
    GetEncodingFields fs = some ⟨fs.filter FieldD.isMessage, fs.filter FieldD.isSlice, (fs.filter FieldD.isValue).map encText⟩ := by
  induction fs with
  | nil => rfl
  | cons f fs ih =>
    have hf := h f (List.mem_cons_self ..)
    rw [GetEncodingFields, ih fun g hg => h g (List.mem_cons_of_mem _ hg)]
    obtain ⟨n, s, k, t⟩ := f
    have hk : k ≠ .group := hf.kind
    cases s with
    | many => rfl
    | map kk => rfl
    | one r => cases k <;> first | contradiction | rfl

theorem decodingFields {o : Bytes} (fs : List FieldD) (h : ∀ f ∈ fs, FieldOk o f) :
    GetDecodingFields fs = some ⟨fs.filter FieldD.isMessage, fs.filter FieldD.isSlice, fs.filter FieldD.isValue⟩ := by
  induction fs with
  | nil => rfl
  | cons f fs ih =>
    have hf := h f (List.mem_cons_self ..)
    rw [GetDecodingFields, ih fun g hg => h g (List.mem_cons_of_mem _ hg)]
    obtain ⟨n, s, k, t⟩ := f
    have hk : k ≠ .group := hf.kind
    cases s with
    | many => rfl
    | map kk => rfl
    | one r => cases k <;> first | contradiction | rfl


/-- The tokens of `Encode` before and after the statements of its second branch. -/
def encodeHead (t : Ident) : List Tok := (encodeFunc t [] false).toks.take 34
def braces : List Tok := [.op go!"}", semi, .op go!"}", semi]

theorem encodeFunc_toks (t : Ident) (body : List Stmt) (tight : Bool) :
    (encodeFunc t body tight).toks = encodeHead t ++ ((block body).toks tight ++ braces) := by
  simp [encodeFunc, encodeHead, braces, Decl.toks, block, Stmt.toks, Ty.toks, GoAst.Expr.toks, params, vx, vnil, encoder, polyglot, vb]

theorem stmts_append (l m : List Stmt) : stmts (l ++ m) = stmts l ++ stmts m := by simp [stmts]

theorem stmts_flatMap {α : Type} (l : List α) (f : α → List Stmt) : stmts (l.flatMap f) = l.flatMap fun x => stmts (f x) := by
  simp [stmts, List.flatMap_assoc]

theorem stmts_map {α : Type} (l : List α) (f : α → Stmt) : stmts (l.map f) = l.flatMap fun x => stmts [f x] := by
  simp [stmts, List.flatMap_map]

/-- A newline where one is a semicolon. -/
def sep (a : Bool) : List Tok := if a then [semi] else []

theorem isValue_kind {o : Bytes} {f : FieldD} (hf : FieldOk o f) (h : f.isValue = true) : ∃ n r k t, f = ⟨n, .one r, k, t⟩ ∧ k ≠ .message ∧ k ≠ .group := by
  obtain ⟨n, s, k, t⟩ := f
  cases s <;> simp [FieldD.isValue] at h
  exact ⟨n, _, k, t, rfl, h, hf.kind⟩

theorem isSlice_shape {f : FieldD} (h : f.isSlice = true) : ∃ n k t, f = ⟨n, .many, k, t⟩ := by
  obtain ⟨n, s, k, t⟩ := f
  cases s <;> simp [FieldD.isSlice] at h
  exact ⟨n, k, t, rfl⟩

theorem isMessage_shape {f : FieldD} (h : f.isMessage = true) : (∃ n r t, f = ⟨n, .one r, .message, t⟩) ∨ ∃ n kk k t, f = ⟨n, .map kk, k, t⟩ := by
  obtain ⟨n, s, k, t⟩ := f
  cases s <;> simp [FieldD.isMessage] at h
  · subst h; exact .inl ⟨n, _, t, rfl⟩
  · exact .inr ⟨n, _, k, t, rfl⟩

theorem shows_encodeSlices (fuel : Nat) (o : Bytes) (e : EncodingFields) (a : Bool) (h : ∀ f ∈ e.SliceFields, FieldOk o f ∧ f.isSlice = true) :
    Shows (Tmpl.run lang defs (fuel + 1) id!"encodeSlices" (.encoding o e)) a
      (sep a ++ stmts (e.SliceFields.flatMap fun f => encSlice (camel f.name) f.kind)) false := by
  rw [run_call (b := encodeSlicesBody) rfl]
  refine shows_text (b := false) _ ?_ ?_
  · cases a <;> decide +kernel
  · refine (shows_list id!"field" _ e.SliceFields (.field o) (x := .fieldList o e.SliceFields) rfl rfl (fun f => stmts (encSlice (camel f.name) f.kind)) ?_ shows_nil).cast ?_
    · intro f hf
      obtain ⟨hok, hs⟩ := h f hf
      obtain ⟨n, k, t, rfl⟩ := isSlice_shape hs
      exact shows_encSlice _ _ o n t k hok.kind hok.name
    · rw [stmts_flatMap, List.append_nil]

theorem shows_encodeMessages (fuel : Nat) (o : Bytes) (e : EncodingFields) (a : Bool) (h : ∀ f ∈ e.MessageFields, FieldOk o f) :
    Shows (Tmpl.run lang defs (fuel + 1) id!"encodeMessages" (.encoding o e)) a
      (sep a ++ stmts (e.MessageFields.map fun f => encMessage (camel f.name))) false := by
  rw [run_call (b := encodeMessagesBody) rfl]
  refine shows_text (b := false) _ ?_ ?_
  · cases a <;> decide +kernel
  · refine (shows_list id!"field" _ e.MessageFields (.field o) (x := .fieldList o e.MessageFields) rfl rfl (fun f => stmts [encMessage (camel f.name)]) ?_ shows_nil).cast ?_
    · intro f hf
      exact shows_encMessage _ _ o f (h f hf).name
    · rw [stmts_map, List.append_nil]

/-- The chain of calls. -/
theorem chain_toks (l : List FieldD) (e : GoAst.Expr) :
    (l.foldl (fun e f => encValue (camel f.name) f.kind e) e).toks = e.toks ++ l.flatMap encToks := by
  induction l generalizing e with
  | nil => simp
  | cons f l ih => rw [List.foldl_cons, ih, List.flatMap_cons]; simp [encValue, GoAst.Expr.toks, encToks]

theorem shows_encode (fuel : Nat) (s n : Bytes) (e : Bool) (fs : List FieldD) (es : List EnumD) (ms : List MsgD) (hn : IsName (camelCase (qualify s n)))
    (h : ∀ f ∈ fs, FieldOk (qualify s n) f) :
    Shows (Tmpl.run lang defs (fuel + 2) id!"encode" (.message s (.mk n e fs es ms))) false (encodeDecl (qualify s n) fs).toks false := by
  rw [run_call (b := encodeBody) rfl]
  have hE := encodingFields fs h
  generalize hV : fs.filter FieldD.isValue = V at hE
  generalize hS : fs.filter FieldD.isSlice = S at hE
  generalize hM : fs.filter FieldD.isMessage = M at hE
  have hVok : ∀ f ∈ V, Text.run ⟨true, .none⟩ (ofBytes (encText f)) = (encToks f, ⟨true, .none⟩) := by
    intro f hf
    rw [← hV, List.mem_filter] at hf
    obtain ⟨n, r, k, t, rfl, hk, hg⟩ := isValue_kind (h f hf.1) hf.2
    exact lex_encValue _ hk hg (h _ hf.1).name
  have hSok : ∀ f ∈ S, FieldOk (qualify s n) f ∧ f.isSlice = true := by
    intro f hf; rw [← hS, List.mem_filter] at hf; exact ⟨h f hf.1, hf.2⟩
  have hMok : ∀ f ∈ M, FieldOk (qualify s n) f := by
    intro f hf; rw [← hM, List.mem_filter] at hf; exact h f hf.1
  -- the head
  refine Shows.cast (ts := encodeHead (camel (qualify s n)) ++ ((if V = [] then [] else (V.foldl (fun e f => encValue (camel f.name) f.kind e) encoder).toks) ++
    ((if S = [] then [] else sep (V ≠ []) ++ stmts (S.flatMap fun f => encSlice (camel f.name) f.kind)) ++
     ((if M = [] then [] else sep (V ≠ [] ∧ S = []) ++ stmts (M.map fun f => encMessage (camel f.name))) ++ braces)))) ?_ ?_
  · refine shows_take 5 (env' := [(0, .message s (.mk n e fs es ms))]) (t := render (names [camelCase (qualify s n)]) (.lit encode_t0 <| .hole 0 <| .lit encode_t1 <| .lit [] <| .lit encode_t2 .nil)) (b := false) (by kernel_rfl) ?_ ?_
    · lex_by (encodeHead [.hole 0]) [0]
      holes hn
    · refine shows_assign id!"encoding" _ (x := .encoding (qualify s n) ⟨M, S, V.map encText⟩) ?_ ?_
      · rw [eval1_call (as := [.fields (qualify s n) fs]) rfl]
        show (GetEncodingFields fs).map _ = _
        rw [hE]; rfl
      · -- the values
        refine shows_ite (b := V ≠ []) _ (x := .strs (V.map encText)) rfl ?_ ?_
        · cases V with
          | nil => exact ⟨[], rfl, rfl⟩
          | cons f V =>
            refine Shows.cast (ts := encoder.toks ++ (((f :: V).flatMap encToks) ++ [])) ?_ ?_
            · refine shows_text _ (b := true) (by decide +kernel) ?_
              refine shows_list id!"val" _ (f :: V) (fun f => .str (encText f)) (x := .strs ((f :: V).map encText)) rfl ?_ encToks ?_ shows_nil
              · exact congrArg some (List.ext_getElem (by simp) fun j h1 h2 => by rw [List.getElem_mapIdx, List.getElem_mapIdx, List.getElem_map])
              · intro x hx
                exact ⟨encText x ++ [], rfl, by rw [List.append_nil]; exact hVok x hx⟩
            · rw [if_neg (by simp), chain_toks]; simp
        · -- the slices
          refine shows_ite (b := V ≠ [] ∧ S = []) _ (x := .fieldList (qualify s n) S) rfl ?_ ?_
          · cases S with
            | nil => refine ⟨[], rfl, by simp [ofBytes, Text.run]⟩
            | cons f S =>
              refine Shows.cast (ts := (sep (V ≠ []) ++ stmts ((f :: S).flatMap fun f => encSlice (camel f.name) f.kind)) ++ []) ?_ (by rw [if_neg (by simp), List.append_nil])
              refine shows_template _ _ (b := false) (x := Val.encoding (qualify s n) ⟨M, f :: S, V.map encText⟩) rfl
                (shows_encodeSlices fuel (qualify s n) ⟨M, f :: S, V.map encText⟩ _ hSok) ?_
              simpa using shows_nil
          · -- the messages
            refine shows_ite (b := V ≠ [] ∧ S = [] ∧ M = []) _ (x := .fieldList (qualify s n) M) rfl ?_ ?_
            · cases M with
              | nil => refine ⟨[], rfl, by simp [ofBytes, Text.run]⟩
              | cons f M =>
                refine Shows.cast (ts := (sep (V ≠ [] ∧ S = []) ++ stmts ((f :: M).map fun f => encMessage (camel f.name))) ++ []) ?_ (by rw [if_neg (by simp), List.append_nil])
                refine shows_template _ _ (b := false) (x := Val.encoding (qualify s n) ⟨f :: M, S, V.map encText⟩) rfl
                  (shows_encodeMessages fuel (qualify s n) ⟨f :: M, S, V.map encText⟩ _ hMok) ?_
                simpa using shows_nil
            · generalize decide (V ≠ [] ∧ S = [] ∧ M = []) = x
              refine Shows.cast (ts := braces ++ []) (shows_text _ (b := false) ?_ shows_nil) (by simp)
              cases x <;> decide +kernel
  · rw [encodeDecl, encodeFunc_toks, hV, hS, hM]
    congr 1
    rw [← List.append_assoc, ← List.append_assoc]
    congr 1
    cases V with
    | nil =>
      simp only [List.isEmpty_nil, Bool.not_true, Bool.false_and, if_true, List.nil_append, toks_block, stmts_append]
      cases S <;> cases M <;> simp [sep, stmts]
    | cons f V =>
      cases S with
      | nil =>
        cases M with
        | nil => simp [block, Stmt.toks]
        | cons g M => 
          simp only [toks_block, sep, List.isEmpty_cons, List.isEmpty_nil, Bool.and_false, List.flatMap_nil, stmts]
          simp [Stmt.toks]
      | cons g S =>
        simp only [toks_block, sep, List.isEmpty_cons, Bool.and_false, Bool.false_and, stmts]
        cases M <;> simp [Stmt.toks]

end GoText
