import Verif.Text.TsPrint
import Verif.Text.GoPrintTop

/-!
# What the templates of the TypeScript generator print, II: loops and methods
-/

namespace TsText

open Utils Tmpl TsAst TsTempl
open Text (Frag Sym ofBytes ofBytes_append isLetter isWordChar letter_range)
open TsLex (Tok Mode run_seq)
open RustLex (IsWord)
open GoText (Chunks render flat ofBytes_render names uses FieldD MsgD FileD decimal IsKey eval1_var eval1_call isSlice_shape isMessage_shape depth_le)
open Gen (PKind)
open Package (EnumD qualify)

/-- Between two tokens, where line breaks are white space. -/
local notation "btw" => Mode.between

/-! ## Fields -/

theorem encodingFields (fs : List FieldD) (h : ∀ f ∈ fs, FieldOk f) :
    getEncodingFields fs = some ⟨fs.filter FieldD.isMessage, fs.filter FieldD.isSlice, (fs.filter FieldD.isValue).map encText⟩ := by
  induction fs with
  | nil => rfl
  | cons f fs ih =>
    have hf := h f (List.mem_cons_self ..)
    rw [getEncodingFields, ih fun g hg => h g (List.mem_cons_of_mem _ hg)]
    obtain ⟨n, s, k, t⟩ := f
    have hk : k ≠ .group := hf.kind
    cases s with
    | many => rfl
    | map kk => rfl
    | one r => cases k <;> first | contradiction | rfl

theorem decodingFields (fs : List FieldD) (h : ∀ f ∈ fs, FieldOk f) :
    getDecodingFields fs = some ⟨fs.filter FieldD.isMessage, fs.filter FieldD.isSlice, fs.filter FieldD.isValue⟩ := by
  induction fs with
  | nil => rfl
  | cons f fs ih =>
    have hf := h f (List.mem_cons_self ..)
    rw [getDecodingFields, ih fun g hg => h g (List.mem_cons_of_mem _ hg)]
    obtain ⟨n, s, k, t⟩ := f
    have hk : k ≠ .group := hf.kind
    cases s with
    | many => rfl
    | map kk => rfl
    | one r => cases k <;> first | contradiction | rfl

theorem isValue_kind {f : FieldD} (hf : FieldOk f) (h : f.isValue = true) : ∃ n r k t, f = ⟨n, .one r, k, t⟩ ∧ k ≠ .message ∧ k ≠ .group := by
  obtain ⟨n, s, k, t⟩ := f
  cases s <;> simp [FieldD.isValue] at h
  exact ⟨n, _, k, t, rfl, h, hf.kind⟩

/-- White space. -/
theorem shows_space {call : Nat → Val → Option Bytes} {env : Env Val} {dot : Val} {us : List Tok} {c : Mode} (s : Bytes) {rest : Body}
    (h : TsLex.run btw (ofBytes s) = ([], btw)) (hr : Shows (exec lang call rest env dot) btw us c) :
    Shows (exec lang call (.text s rest) env dot) btw us c :=
  (shows_text s h hr).cast (List.nil_append _)

theorem shows_end {call : Nat → Val → Option Bytes} {env : Env Val} {dot : Val} (s : Bytes)
    (h : TsLex.run btw (ofBytes s) = ([], btw)) : Shows (exec lang call (.text s .nil) env dot) btw [] btw :=
  shows_space s h shows_nil

/-! ## encode.templ -/

theorem shows_encodeSlices (fuel : Nat) (e : EncodingFields) (h : ∀ f ∈ e.SliceFields, FieldOk f ∧ f.isSlice = true) :
    Shows (Tmpl.run lang defs (fuel + 1) id!"encodeSlices" (.encoding e)) btw
      (stmts (e.SliceFields.flatMap fun f => encSlice (lower f.name) f.kind)) btw := by
  rw [run_call (b := encodeSlicesBody) rfl]
  refine shows_space _ (by decide +kernel) ?_
  refine (shows_list id!"field" _ e.SliceFields .field (x := .fieldList e.SliceFields) rfl rfl (fun f => stmts (encSlice (lower f.name) f.kind)) ?_ shows_nil).cast ?_
  · intro f hf
    obtain ⟨hok, hs⟩ := h f hf
    obtain ⟨n, k, t, rfl⟩ := isSlice_shape hs
    exact shows_encSlice _ _ n t k hok.kind hok.name
  · rw [stmts_flatMap, List.append_nil]

theorem shows_encodeMessages (fuel : Nat) (e : EncodingFields) (h : ∀ f ∈ e.MessageFields, FieldOk f ∧ f.isMessage = true) :
    Shows (Tmpl.run lang defs (fuel + 1) id!"encodeMessages" (.encoding e)) btw
      (stmts (e.MessageFields.flatMap encMessageField)) btw := by
  rw [run_call (b := encodeMessagesBody) rfl]
  refine shows_space _ (by decide +kernel) ?_
  refine (shows_list id!"field" _ e.MessageFields .field (x := .fieldList e.MessageFields) rfl rfl (fun f => stmts (encMessageField f)) ?_ shows_nil).cast ?_
  · intro f hf
    obtain ⟨hok, hs⟩ := h f hf
    obtain ⟨n', r, t, rfl⟩ | ⟨n', kk, k, t, rfl⟩ := isMessage_shape hs
    · exact shows_encMessage _ _ n' t r hok.name
    · exact shows_encMap _ _ n' t kk k (hok.key kk rfl) hok.kind hok.name
  · rw [stmts_flatMap, List.append_nil]

theorem concat_some {α : Type} (l : List α) (f : α → Bytes) : concat (l.map fun x => some (f x)) = some (l.flatMap f) := by
  induction l with
  | nil => rfl
  | cons x l ih => simp [concat, ih]

/-- The line breaks between the statements, counted differently. -/
theorem values_text (l : List Bytes) : l.flatMap (fun v => encode_t1 ++ v) ++ encode_t2 =
    str!"\n" ++ (l.flatMap (fun v => encode_t1.drop 1 ++ (v ++ str!"\n")) ++ str!"\n        ") := by
  induction l with
  | nil => rfl
  | cons v l ih =>
    rw [List.flatMap_cons, List.flatMap_cons, List.append_assoc, ih, show (encode_t1 : Bytes) = str!"\n" ++ encode_t1.drop 1 from rfl]
    simp

/-- The statements for the values. -/
theorem lex_values (V : List FieldD) (h : ∀ f ∈ V, FieldOk f ∧ f.isValue = true) :
    TsLex.run btw (ofBytes ((V.map encText).flatMap (fun v => encode_t1 ++ v) ++ encode_t2)) = (stmts (V.map fun f => encValue (lower f.name) f.kind), btw) := by
  rw [values_text, ofBytes_append, ofBytes_append]
  have h1 : TsLex.run btw (ofBytes str!"\n") = ([], btw) := by decide +kernel
  have h2 : TsLex.run btw (ofBytes str!"\n        ") = ([], btw) := by decide +kernel
  have h3 : TsLex.run btw (ofBytes ((V.map encText).flatMap (fun v => encode_t1.drop 1 ++ (v ++ str!"\n")))) = (stmts (V.map fun f => encValue (lower f.name) f.kind), btw) := by
    clear h1 h2
    induction V with
    | nil => rfl
    | cons f V ih =>
      have hf := h f (List.mem_cons_self ..)
      have ⟨hk, hg⟩ : f.kind ≠ .message ∧ f.kind ≠ .group := by
        obtain ⟨n, r, k, t, rfl, hk, hg⟩ := isValue_kind hf.1 hf.2
        exact ⟨hk, hg⟩
      rw [List.map_cons, List.flatMap_cons, ofBytes_append, List.map_cons]
      have := run_seq (lex_encValue f hk hg hf.1.name) (ih fun x hx => h x (List.mem_cons_of_mem _ hx))
      rw [this]
      simp [stmts]
  have := run_seq h1 (run_seq h3 h2)
  simpa using this

/-- A method before its body. -/
def methodHead (static : Bool) (n x : Ident) (t u : Ty) : List Tok :=
  (if static then [.word go!"static"] else []) ++ .word n :: .op go!"(" :: .word x :: .op go!":" :: t.toks ++ .op go!")" :: .op go!":" :: u.toks ++ [.op go!"{"]

theorem method_toks (static : Bool) (n x : Ident) (t u : Ty) (b : Stmt) :
    (Member.method static n x t u b).toks = methodHead static n x t u ++ (b.toks ++ [.op go!"}", .nl]) := by
  simp [Member.toks, methodHead]

theorem exec_values (call : Nat → Val → Option Bytes) (s : Val) (e : EncodingFields) (rest : Body) (t : Bytes)
    (hr : exec lang call rest [(id!"encoding", .encoding e), (0, s)] s = some t) :
    exec lang call (.range none id!"val" (.path (some id!"encoding") [id!"Values"] .nil) encode_r0 <| .text encode_t2 <| rest)
      [(id!"encoding", .encoding e), (0, s)] s = some (e.Values.flatMap (fun v => encode_t1 ++ v) ++ (encode_t2 ++ t)) := by
  simp only [exec]
  have h1 : eval1 lang [(id!"encoding", .encoding e), (0, s)] s (.path (some id!"encoding") [id!"Values"] .nil) = some (.strs e.Values) := rfl
  have h2 : lang.iter (.strs e.Values) = some (e.Values.mapIdx fun i s => (.int i, .str s)) := rfl
  rw [h1]
  simp only [Option.bind_eq_bind, Option.bind_some, h2]
  have h3 : concat ((e.Values.mapIdx fun i s => (Val.int i, Val.str s)).map fun x =>
      exec lang call encode_r0 (round none id!"val" x [(id!"encoding", .encoding e), (0, s)]) x.2) =
      some (e.Values.flatMap fun v => encode_t1 ++ v) := by
    rw [← concat_some]
    congr 1
    refine List.ext_getElem (by simp) fun j h1 h2 => ?_
    simp only [List.getElem_map, List.getElem_mapIdx]
    show some (encode_t1 ++ (_ ++ [])) = _
    rw [List.append_nil]
  rw [h3, hr]
  rfl

theorem shows_encode (fuel : Nat) (s n : Bytes) (e : Bool) (fs : List FieldD) (es : List EnumD) (ms : List MsgD)
    (h : ∀ f ∈ fs, FieldOk f) :
    Shows (Tmpl.run lang defs (fuel + 2) id!"encode" (.message s (.mk n e fs es ms))) btw (encodeMethod fs).toks btw := by
  rw [run_call (b := encodeBody) rfl]
  have hE := encodingFields fs h
  simp only [encodeMethod]
  generalize hV : fs.filter FieldD.isValue = V at hE ⊢
  generalize hS : fs.filter FieldD.isSlice = S at hE ⊢
  generalize hM : fs.filter FieldD.isMessage = M at hE ⊢
  have hVok : ∀ f ∈ V, FieldOk f ∧ f.isValue = true := by
    intro f hf; rw [← hV, List.mem_filter] at hf; exact ⟨h f hf.1, hf.2⟩
  have hSok : ∀ f ∈ S, FieldOk f ∧ f.isSlice = true := by
    intro f hf; rw [← hS, List.mem_filter] at hf; exact ⟨h f hf.1, hf.2⟩
  have hMok : ∀ f ∈ M, FieldOk f ∧ f.isMessage = true := by
    intro f hf; rw [← hM, List.mem_filter] at hf; exact ⟨h f hf.1, hf.2⟩
  refine Shows.cast (ts := (methodHead false go!"encode" go!"buf" tbuf tbuf ++ stmts [.let1 go!"encoded" (.var go!"buf")]) ++
    (stmts (V.map fun f => encValue (lower f.name) f.kind) ++ (stmts (S.flatMap fun f => encSlice (lower f.name) f.kind) ++
      (stmts (M.flatMap encMessageField) ++ (stmts [.ret encoded] ++ [.op go!"}", .nl]))))) ?_ ?_
  · refine shows_text _ (b := btw) (by decide +kernel) ?_
    refine shows_assign id!"encoding" _ (x := .encoding ⟨M, S, V.map encText⟩) ?_ ?_
    · rw [eval1_call (as := [.fields fs]) rfl]
      show (getEncodingFields fs).map _ = _
      rw [hE]; rfl
    have hrest : Shows (exec lang (Tmpl.run lang defs (fuel + 1)) (match encodeBody with | .text _ (.assign _ _ (.range _ _ _ _ (.text _ r))) => r | _ => .nil)
        [(id!"encoding", .encoding ⟨M, S, V.map encText⟩), (0, .message s (.mk n e fs es ms))] (.message s (.mk n e fs es ms))) btw
        (stmts (S.flatMap fun f => encSlice (lower f.name) f.kind) ++ (stmts (M.flatMap encMessageField) ++ (stmts [.ret encoded] ++ [.op go!"}", .nl]))) btw := by
      refine shows_ite (b := btw) _ (x := .fieldList S) rfl ?_ ?_
      · cases S with
        | nil => exact ⟨[], rfl, rfl⟩
        | cons f S =>
          exact Shows.cast (ts := _ ++ []) (shows_template id!"encodeSlices" _ (b := btw) (x := Val.encoding ⟨M, f :: S, V.map encText⟩) rfl
            (shows_encodeSlices fuel ⟨M, f :: S, V.map encText⟩ hSok) shows_nil) (List.append_nil _)
      refine shows_ite (b := btw) _ (x := .fieldList M) rfl ?_ ?_
      · cases M with
        | nil => exact ⟨[], rfl, rfl⟩
        | cons f M =>
          exact Shows.cast (ts := _ ++ []) (shows_template id!"encodeMessages" _ (b := btw) (x := Val.encoding ⟨f :: M, S, V.map encText⟩) rfl
            (shows_encodeMessages fuel ⟨f :: M, S, V.map encText⟩ hMok) shows_nil) (List.append_nil _)
      exact ⟨encode_t3 ++ [], rfl, by decide +kernel⟩
    obtain ⟨t, ht, hl⟩ := hrest
    refine ⟨_, exec_values _ _ _ _ t ht, ?_⟩
    rw [← List.append_assoc, ofBytes_append]
    exact run_seq (lex_values V hVok) hl
  · rw [method_toks, toks_block, stmts_append, stmts_append, stmts_append, stmts_append]
    simp

/-! ## decode.templ -/

theorem shows_decode (fuel : Nat) (s n : Bytes) (e : Bool) (fs : List FieldD) (es : List EnumD) (ms : List MsgD) (hn : IsWord (camelCase (qualify s n)))
    (h : ∀ f ∈ fs, FieldOk f) :
    Shows (Tmpl.run lang defs (fuel + 2) id!"decode" (.message s (.mk n e fs es ms))) btw (decodeMethod (qualify s n) fs).toks btw := by
  rw [run_call (b := decodeBody) rfl]
  have hE := decodingFields fs h
  rw [decodeMethod, method_toks, toks_block]
  generalize hV : fs.filter FieldD.isValue = V at hE ⊢
  generalize hS : fs.filter FieldD.isSlice = S at hE ⊢
  generalize hM : fs.filter FieldD.isMessage = M at hE ⊢
  refine Shows.cast (ts := (methodHead true go!"decode" go!"buf" tbuf (.obj2 go!"buf" tbuf go!"value" (.name (camel (qualify s n)))) ++
      stmts [.let1 go!"decoded" (.var go!"buf")]) ++ ((S.flatMap fun f => stmts (decSlice (lower f.name) f.kind (camel f.type))) ++
    ((M.flatMap fun f => stmts (decMessageField f)) ++ ((V.flatMap fun f => stmts (decOther (lower f.name) f.kind (camel f.type))) ++
    ([.word go!"return", .op go!"{", .word go!"buf", .op go!":", .word go!"decoded", .op go!",", .word go!"value", .op go!":", .word go!"new",
      .word (camel (qualify s n)), .op go!"("] ++
    ((V.flatMap argToks) ++ ((S.flatMap argToks) ++ ((M.flatMap argToks) ++ [.op go!")", .op go!"}", .nl, .op go!"}", .nl])))))))) ?_ ?_
  · refine shows_take 3 (env' := [(0, .message s (.mk n e fs es ms))]) (t := render (names [camelCase (qualify s n)]) (.lit decode_t0 <| .hole 0 <| .lit decode_t1 .nil))
      (b := btw) (by kernel_rfl) ?_ ?_
    · tlex_by (methodHead true go!"decode" go!"buf" tbuf (.obj2 go!"buf" tbuf go!"value" (.name [.hole 0])) ++ stmts [.let1 go!"decoded" (.var go!"buf")]) [0]
      holes hn
    refine shows_assign id!"decoding" _ (x := .decoding ⟨M, S, V⟩) ?_ ?_
    · rw [eval1_call (as := [.fields fs]) rfl]
      show (getDecodingFields fs).map _ = _
      rw [hE]; rfl
    refine shows_list id!"field" _ S .field (x := .fieldList S) rfl rfl _ ?_ ?_
    · intro f hf
      rw [← hS, List.mem_filter] at hf
      obtain ⟨n', k, t, rfl⟩ := isSlice_shape hf.2
      exact shows_decSlice _ _ n' t k (h _ hf.1).kind (h _ hf.1).name (h _ hf.1).type
    refine shows_list id!"field" _ M .field (x := .fieldList M) rfl rfl _ ?_ ?_
    · intro f hf
      rw [← hM, List.mem_filter] at hf
      obtain ⟨n', r, t, rfl⟩ | ⟨n', kk, k, t, rfl⟩ := isMessage_shape hf.2
      · exact shows_decMessage _ _ n' t r (h _ hf.1).name ((h _ hf.1).type (.inl rfl))
      · have hv : ∃ v, findValue ⟨n', .map kk, k, t⟩ = some v := by
          have hkk := (h _ hf.1).key kk rfl
          have hkg : k ≠ .group := (h _ hf.1).kind
          cases kk <;> first | exact absurd hkk (by decide) | (cases k <;> first | contradiction | exact ⟨_, rfl⟩)
        obtain ⟨v, hv⟩ := hv
        refine shows_assign id!"val" _ (x := .str v) ?_ ?_
        · rw [eval1_call (as := [.field ⟨n', .map kk, k, t⟩]) rfl]
          show (findValue _).map _ = _
          rw [hv]; rfl
        refine shows_space _ (by decide +kernel) ?_
        refine Shows.cast (ts := (_ ++ []) ++ []) (shows_ite (b := btw) _ (x := .bool true) rfl ?_ shows_nil) ((List.append_nil _).trans (List.append_nil _))
        refine shows_template id!"decodeMap" _ (b := btw) (x := Val.field ⟨n', .map kk, k, t⟩) rfl ?_ shows_nil
        rw [run_call (b := decodeMapBody) rfl]
        exact shows_decodeMap _ _ n' t kk k ((h _ hf.1).key kk rfl) (h _ hf.1).kind (h _ hf.1).name (h _ hf.1).type
    refine shows_list id!"field" _ V .field (x := .fieldList V) rfl rfl _ ?_ ?_
    · intro f hf
      rw [← hV, List.mem_filter] at hf
      obtain ⟨n', r, k, t, rfl, hk, hg⟩ := isValue_kind (h f hf.1) hf.2
      exact shows_decOther _ _ n' t r k hk hg (h _ hf.1).name (h _ hf.1).type
    refine shows_take 3 (env' := [(id!"decoding", .decoding ⟨M, S, V⟩), (0, .message s (.mk n e fs es ms))]) (t := render (names [camelCase (qualify s n)])
      (.lit decode_t35 <| .hole 0 <| .lit decode_t36 .nil)) (b := btw) (by kernel_rfl) ?_ ?_
    · tlex_by [.word go!"return", .op go!"{", .word go!"buf", .op go!":", .word go!"decoded", .op go!",", .word go!"value", .op go!":", .word go!"new",
        .word [.hole 0], .op go!"("] [0]
      holes hn
    refine shows_list id!"field" _ V .field (x := .fieldList V) rfl rfl _ ?_ ?_
    · intro f hf
      rw [← hV, List.mem_filter] at hf
      exact shows_arg _ _ _ f (by show some (_ ++ (_ ++ [])) = _; rw [List.append_nil]) (h f hf.1).name
    refine shows_list id!"field" _ S .field (x := .fieldList S) rfl rfl _ ?_ ?_
    · intro f hf
      rw [← hS, List.mem_filter] at hf
      exact shows_arg _ _ _ f (by show some (_ ++ (_ ++ [])) = _; rw [List.append_nil]; rfl) (h f hf.1).name
    refine shows_list id!"field" _ M .field (x := .fieldList M) rfl rfl _ ?_ ?_
    · intro f hf
      rw [← hM, List.mem_filter] at hf
      exact shows_arg _ _ _ f (by show some (_ ++ (_ ++ [])) = _; rw [List.append_nil]; rfl) (h f hf.1).name
    exact ⟨decode_t40 ++ [], rfl, by decide +kernel⟩
  · rw [stmts_append, stmts_append, stmts_append, stmts_append, stmts_flatMap, stmts_flatMap, stmts_flatMap]
    have h1 : stmts [.ret (.obj2 go!"buf" decoded go!"value" (.new (camel (qualify s n)) true (argsOf (V.map argOf ++ S.map argOf ++ M.map argOf))))] =
        [.word go!"return", .op go!"{", .word go!"buf", .op go!":", .word go!"decoded", .op go!",", .word go!"value", .op go!":", .word go!"new",
          .word (camel (qualify s n)), .op go!"("] ++
        ((V.flatMap argToks) ++ ((S.flatMap argToks) ++ ((M.flatMap argToks) ++ [.op go!")", .op go!"}", .nl]))) := by
      simp only [stmts, List.flatMap_cons, List.flatMap_nil, List.append_nil, Stmt.toks, TsAst.Expr.toks, decoded, TsAst.Expr.toksWith]
      rw [toks_argsOf]
      simp only [List.flatMap_append, List.flatMap_map]
      simp only [TsAst.Expr.toks, List.cons_append, List.nil_append, List.append_assoc]
      rfl
    rw [h1]
    simp

end TsText
