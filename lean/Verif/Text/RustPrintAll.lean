import Verif.Text.RustPrint
import Verif.Text.GoPrintTop

/-!
# What the templates of the Rust generator print, II: loops and the whole file
-/

namespace RustText

open Utils Tmpl RustAst RustTempl
open Text (Frag Sym ofBytes ofBytes_append isLetter isWordChar letter_range)
open RustLex (Tok Cur IsWord run_seq)
open GoText (Chunks render flat ofBytes_render names uses FieldD MsgD FileD decimal IsKey eval1_var eval1_call isSlice_shape isMessage_shape depth_le)
open Gen (PKind)
open Package (EnumD qualify)

variable (privacy : Bytes)

/-! ## Fields -/

theorem encodingFields (fs : List FieldD) (h : ∀ f ∈ fs, FieldOk f) :
    getEncodingFields fs = some ⟨fs.filter FieldD.isMessage, fs.filter FieldD.isSlice, (fs.filter FieldD.isValue).map encText⟩ := by
  induction fs with
  | nil => rfl
  | cons f fs ih =>
    have hf := h f (List.mem_cons_self ..)
    rw [getEncodingFields, ih fun g hg => h g (List.mem_cons_of_mem _ hg)]
    obtain ⟨n, s, k, t⟩ := f
    have hk : k ≠ .group := hf.kind
    cases s with
    | many => rfl
    | map kk => rfl
    | one r => cases k <;> first | contradiction | rfl

theorem decodingFields (fs : List FieldD) (h : ∀ f ∈ fs, FieldOk f) :
    getDecodingFields fs = some ⟨fs.filter FieldD.isMessage, fs.filter FieldD.isSlice, fs.filter FieldD.isValue⟩ := by
  induction fs with
  | nil => rfl
  | cons f fs ih =>
    have hf := h f (List.mem_cons_self ..)
    rw [getDecodingFields, ih fun g hg => h g (List.mem_cons_of_mem _ hg)]
    obtain ⟨n, s, k, t⟩ := f
    have hk : k ≠ .group := hf.kind
    cases s with
    | many => rfl
    | map kk => rfl
    | one r => cases k <;> first | contradiction | rfl

theorem isValue_kind {f : FieldD} (hf : FieldOk f) (h : f.isValue = true) : ∃ n r k t, f = ⟨n, .one r, k, t⟩ ∧ k ≠ .message ∧ k ≠ .group := by
  obtain ⟨n, s, k, t⟩ := f
  cases s <;> simp [FieldD.isValue] at h
  exact ⟨n, _, k, t, rfl, h, hf.kind⟩

/-- White space. -/
theorem shows_space {call : Nat → Val → Option Bytes} {env : Env Val} {dot : Val} {us : List Tok} {c : Cur} (s : Bytes) {rest : Body}
    (h : RustLex.run .none (ofBytes s) = ([], .none)) (hr : Shows (exec (lang privacy) call rest env dot) .none us c) :
    Shows (exec (lang privacy) call (.text s rest) env dot) .none us c :=
  (shows_text s h hr).cast (List.nil_append _)

theorem shows_end {call : Nat → Val → Option Bytes} {env : Env Val} {dot : Val} (s : Bytes)
    (h : RustLex.run .none (ofBytes s) = ([], .none)) : Shows (exec (lang privacy) call (.text s .nil) env dot) .none [] .none :=
  shows_space privacy s h shows_nil

/-! ## encode.templ -/

theorem shows_encodeSlices (fuel : Nat) (e : EncodingFields) (h : ∀ f ∈ e.SliceFields, FieldOk f ∧ f.isSlice = true) :
    Shows (Tmpl.run (lang privacy) defs (fuel + 1) id!"encodeSlices" (.encoding e)) .none
      (stmts (e.SliceFields.flatMap fun f => encSlice (snake f.name) f.kind)) .none := by
  rw [run_call (b := encodeSlicesBody) rfl]
  refine shows_space privacy _ (by decide +kernel) ?_
  refine (shows_list id!"field" _ e.SliceFields .field (x := .fieldList e.SliceFields) rfl rfl (fun f => stmts (encSlice (snake f.name) f.kind)) ?_ shows_nil).cast ?_
  · intro f hf
    obtain ⟨hok, hs⟩ := h f hf
    obtain ⟨n, k, t, rfl⟩ := isSlice_shape hs
    exact shows_encSlice _ _ _ n t k hok.kind hok.name
  · rw [stmts_flatMap, List.append_nil]

theorem shows_encodeMessages (fuel : Nat) (e : EncodingFields) (h : ∀ f ∈ e.MessageFields, FieldOk f ∧ f.isMessage = true) :
    Shows (Tmpl.run (lang privacy) defs (fuel + 1) id!"encodeMessages" (.encoding e)) .none
      (stmts (e.MessageFields.flatMap encMessageField)) .none := by
  rw [run_call (b := encodeMessagesBody) rfl]
  refine shows_space privacy _ (by decide +kernel) ?_
  refine (shows_list id!"field" _ e.MessageFields .field (x := .fieldList e.MessageFields) rfl rfl (fun f => stmts (encMessageField f)) ?_ shows_nil).cast ?_
  · intro f hf
    obtain ⟨hok, hs⟩ := h f hf
    obtain ⟨n', r, t, rfl⟩ | ⟨n', kk, k, t, rfl⟩ := isMessage_shape hs
    · exact shows_encMessage _ _ _ n' t r hok.name
    · exact shows_encMap _ _ _ n' t kk k (hok.key kk rfl) hok.kind hok.name
  · rw [stmts_flatMap, List.append_nil]

/-- The chain of calls. -/
theorem chain_toks (l : List FieldD) (e : RustAst.Expr) :
    (l.foldl (fun e f => encValue (snake f.name) f.kind e) e).toks = e.toks ++ l.flatMap encToks := by
  induction l generalizing e with
  | nil => simp
  | cons f l ih => rw [List.foldl_cons, ih, List.flatMap_cons]; simp [encValue, RustAst.Expr.toks, encToks, args1]

theorem encText_dot (f : FieldD) (hk : f.kind ≠ .message) (hg : f.kind ≠ .group) : ∃ rest, encText f = 0x2E :: rest := by
  obtain ⟨n, s, k, t⟩ := f
  cases k <;> first | contradiction | exact ⟨_, rfl⟩

/-- A dot ends a word. -/
theorem run_word_dot (s : Frag) (b : Bytes) : RustLex.run (.word s) (ofBytes (0x2E :: b)) = RustLex.emit [.word s] (RustLex.run .none (ofBytes (0x2E :: b))) := rfl

theorem concat_some {α : Type} (l : List α) (f : α → Bytes) : concat (l.map fun x => some (f x)) = some (l.flatMap f) := by
  induction l with
  | nil => rfl
  | cons x l ih => simp [concat, ih]

/-- encode.templ 6 -/
theorem shows_chain (fuel : Nat) (s : Val) (e : EncodingFields) (f : FieldD) (V : List FieldD) (hV : e.Values = (f :: V).map encText)
    (h : ∀ g ∈ f :: V, FieldOk g ∧ g.isValue = true) :
    Shows (exec (lang privacy) (Tmpl.run (lang privacy) defs (fuel + 1)) (match encodeBody with | .text _ (.action _ (.text _ (.assign _ _ (.ite _ t _ _)))) => t | _ => .nil)
      [(id!"encoding", .encoding e), (0, s)] s) .none (stmts [.expr ((f :: V).foldl (fun e f => encValue (snake f.name) f.kind e) vb)]) .none := by
  have hi : iter (.strs e.Values) = some ((f :: V).mapIdx fun i f => (.int i, .str (encText f))) := by
    rw [hV]
    exact congrArg some (List.ext_getElem (by simp) fun j h1 h2 => by rw [List.getElem_mapIdx, List.getElem_mapIdx, List.getElem_map])
  have hrun : ∀ l : List FieldD, (∀ g ∈ l, FieldOk g ∧ g.isValue = true) →
      RustLex.run .none (ofBytes (l.flatMap fun g => encText g ++ encode_t3)) = (l.flatMap encToks, .none) := by
    intro l hl
    induction l with
    | nil => rfl
    | cons g l ih =>
      obtain ⟨n, r, k, t, rfl, hk, hg⟩ := isValue_kind (hl g (List.mem_cons_self ..)).1 (hl g (List.mem_cons_self ..)).2
      rw [List.flatMap_cons, ofBytes_append, List.flatMap_cons]
      exact run_seq (lex_encValue _ hk hg (hl _ (List.mem_cons_self ..)).1.name) (ih fun x hx => hl x (List.mem_cons_of_mem _ hx))
  refine ⟨encode_t2 ++ (((f :: V).flatMap fun g => encText g ++ encode_t3) ++ (encode_t4 ++ [])), ?_, ?_⟩
  · show exec _ _ (.text encode_t2 (.range none id!"val" _ encode_r0 (.text encode_t4 .nil))) _ _ = _
    simp only [exec]
    have h1 : eval1 (lang privacy) [(id!"encoding", .encoding e), (0, s)] s (.path (some id!"encoding") [id!"Values"] .nil) = some (.strs e.Values) := rfl
    have h2 : (lang privacy).iter (.strs e.Values) = some ((f :: V).mapIdx fun i f => (.int i, .str (encText f))) := hi
    rw [h1]
    simp only [Option.bind_eq_bind, Option.bind_some, h2]
    have h3 : concat (((f :: V).mapIdx fun i f => (Val.int i, Val.str (encText f))).map fun x =>
        exec (lang privacy) (Tmpl.run (lang privacy) defs (fuel + 1)) encode_r0 (round none id!"val" x [(id!"encoding", .encoding e), (0, s)]) x.2) =
        some ((f :: V).flatMap fun g => encText g ++ encode_t3) := by
      rw [← concat_some]
      congr 1
      refine List.ext_getElem (by simp) fun j h1 h2 => ?_
      simp only [List.getElem_map, List.getElem_mapIdx]
      show some (encText _ ++ (encode_t3 ++ [])) = _
      rw [List.append_nil]
    rw [h3]
    rfl
  · obtain ⟨n, r, k, t, rfl, hk, hg⟩ := isValue_kind (h f (List.mem_cons_self ..)).1 (h f (List.mem_cons_self ..)).2
    obtain ⟨rest, hrest⟩ := encText_dot ⟨n, .one r, k, t⟩ hk hg
    have h1 : RustLex.run .none (ofBytes encode_t2) = ([], .word go!"b") := by decide +kernel
    have h2 : RustLex.run (.word go!"b") (ofBytes (((⟨n, .one r, k, t⟩ :: V).flatMap fun g => encText g ++ encode_t3))) =
        (.word go!"b" :: (⟨n, .one r, k, t⟩ :: V).flatMap encToks, .none) := by
      have h3 := hrun _ h
      rw [List.flatMap_cons, hrest, List.cons_append, List.cons_append] at h3 ⊢
      rw [run_word_dot, h3]; rfl
    have h4 : RustLex.run .none (ofBytes (encode_t4 ++ [])) = ([.op go!";"], .none) := by decide +kernel
    rw [ofBytes_append, ofBytes_append]
    refine (run_seq h1 (run_seq h2 h4)).trans ?_
    have h5 : stmts [.expr ((⟨n, .one r, k, t⟩ :: V).foldl (fun e f => encValue (snake f.name) f.kind e) vb)] =
        (.word go!"b" :: (⟨n, .one r, k, t⟩ :: V).flatMap encToks) ++ [.op go!";"] := by
      rw [stmts, List.flatMap_cons, List.flatMap_nil, List.append_nil, Stmt.toks, chain_toks]; rfl
    rw [h5]; rfl

/-- `impl Encode` before and after the statements. -/
def encodeHead (t : Ident) : List Tok := (Item.impl go!"Encode" t encodeSig .skip).toks.dropLast.dropLast

theorem impl_toks (tr t : Ident) (sig : Sig) (body : Stmt) :
    (Item.impl tr t sig body).toks = (Item.impl tr t sig .skip).toks.dropLast.dropLast ++ (body.toks ++ [.op go!"}", .op go!"}"]) := by
  simp only [Item.toks, Stmt.toks, List.cons_append, List.append_assoc, List.nil_append]
  generalize sig.toks = x
  rw [show ∀ (a b c d e : Tok), (a :: b :: c :: d :: e :: (x ++ [Tok.op go!"{", .op go!"}", .op go!"}"])) = (a :: b :: c :: d :: e :: x ++ [.op go!"{"] ++ [.op go!"}"]) ++ [.op go!"}"] by simp,
    List.dropLast_concat, List.dropLast_concat]
  simp

theorem shows_encode (fuel : Nat) (s n : Bytes) (e : Bool) (fs : List FieldD) (es : List EnumD) (ms : List MsgD) (hn : IsWord (camelCase (qualify s n)))
    (h : ∀ f ∈ fs, FieldOk f) :
    Shows (Tmpl.run (lang privacy) defs (fuel + 2) id!"encode" (.message s (.mk n e fs es ms))) .none (encodeImpl (qualify s n) fs).toks .none := by
  rw [run_call (b := encodeBody) rfl]
  have hE := encodingFields fs h
  simp only [encodeImpl]
  generalize hV : fs.filter FieldD.isValue = V at hE ⊢
  generalize hS : fs.filter FieldD.isSlice = S at hE ⊢
  generalize hM : fs.filter FieldD.isMessage = M at hE ⊢
  have hVok : ∀ f ∈ V, FieldOk f ∧ f.isValue = true := by
    intro f hf; rw [← hV, List.mem_filter] at hf; exact ⟨h f hf.1, hf.2⟩
  have hSok : ∀ f ∈ S, FieldOk f ∧ f.isSlice = true := by
    intro f hf; rw [← hS, List.mem_filter] at hf; exact ⟨h f hf.1, hf.2⟩
  have hMok : ∀ f ∈ M, FieldOk f ∧ f.isMessage = true := by
    intro f hf; rw [← hM, List.mem_filter] at hf; exact ⟨h f hf.1, hf.2⟩
  rw [impl_toks, toks_block, stmts_append, stmts_append, stmts_append]
  simp only [List.append_assoc]
  refine shows_take 3 (env' := [(0, .message s (.mk n e fs es ms))]) (t := render (names [camelCase (qualify s n)]) (.lit encode_t0 <| .hole 0 <| .lit encode_t1 .nil))
    (b := .none) (by kernel_rfl) ?_ ?_
  · rlex_by (encodeHead [.hole 0]) [0]
    holes hn
  refine shows_assign id!"encoding" _ (x := .encoding ⟨M, S, V.map encText⟩) ?_ ?_
  · rw [eval1_call (as := [.fields fs]) rfl]
    show (getEncodingFields fs).map _ = _
    rw [hE]; rfl
  refine shows_ite (b := .none) _ (x := .strs (V.map encText)) rfl ?_ ?_
  · cases V with
    | nil => exact ⟨[], rfl, rfl⟩
    | cons f V => exact shows_chain privacy fuel _ ⟨M, S, (f :: V).map encText⟩ f V rfl hVok
  refine shows_ite (b := .none) _ (x := .fieldList S) rfl ?_ ?_
  · cases S with
    | nil => exact ⟨[], rfl, rfl⟩
    | cons f S =>
      exact Shows.cast (ts := _ ++ []) (shows_template id!"encodeSlices" _ (b := .none) (x := Val.encoding ⟨M, f :: S, V.map encText⟩) rfl
        (shows_encodeSlices privacy fuel ⟨M, f :: S, V.map encText⟩ hSok) shows_nil) (List.append_nil _)
  refine shows_ite (b := .none) _ (x := .fieldList M) rfl ?_ ?_
  · cases M with
    | nil => exact ⟨[], rfl, rfl⟩
    | cons f M =>
      exact Shows.cast (ts := _ ++ []) (shows_template id!"encodeMessages" _ (b := .none) (x := Val.encoding ⟨f :: M, S, V.map encText⟩) rfl
        (shows_encodeMessages privacy fuel ⟨f :: M, S, V.map encText⟩ hMok) shows_nil) (List.append_nil _)
  exact ⟨encode_t5 ++ [], rfl, by decide +kernel⟩

/-! ## decode.templ -/

/-- `impl Decode` before the functions. -/
def decodeHead (t : Ident) : List Tok :=
  (Item.impl go!"Decode" t (decodeSig go!"decode" (tname t) false) .skip).toks.dropLast.dropLast ++ stmts [noneCheck, errorCheck]

theorem shows_decode (fuel : Nat) (s n : Bytes) (e : Bool) (fs : List FieldD) (es : List EnumD) (ms : List MsgD) (hn : IsWord (camelCase (qualify s n)))
    (h : ∀ f ∈ fs, FieldOk f) :
    Shows (Tmpl.run (lang privacy) defs (fuel + 2) id!"decode" (.message s (.mk n e fs es ms))) .none (decodeImpl (qualify s n) fs).toks .none := by
  rw [run_call (b := decodeBody) rfl]
  have hE := decodingFields fs h
  rw [decodeImpl, impl_toks, toks_block]
  generalize hV : fs.filter FieldD.isValue = V at hE ⊢
  generalize hS : fs.filter FieldD.isSlice = S at hE ⊢
  generalize hM : fs.filter FieldD.isMessage = M at hE ⊢
  refine Shows.cast (ts := decodeHead (camel (qualify s n)) ++ ((S.flatMap fun f => stmts [sliceFn (snake f.name) f.kind (camel f.type)]) ++
    ((M.flatMap fun f => stmts (mapFns f)) ++ ([.word go!"Ok", .op go!"(", .word go!"Some", .op go!"(", .word (camel (qualify s n)), .op go!"{"] ++
    ((V.flatMap fun f => fieldToks (snake f.name, initValue f.kind (camel f.type))) ++
    ((S.flatMap fun f => fieldToks (snake f.name, initCall (snake f.name) go!"InvalidArray")) ++
    ((M.flatMap fun f => fieldToks (initMessageField f)) ++ [.op go!"}", .op go!")", .op go!")", .op go!"}", .op go!"}"]))))))) ?_ ?_
  · refine shows_take 5 (env' := [(0, .message s (.mk n e fs es ms))]) (t := render (names [camelCase (qualify s n)]) (.lit decode_t0 <| .hole 0 <| .lit decode_t1 <|
      .hole 0 <| .lit decode_t2 .nil)) (b := .none) (by kernel_rfl) ?_ ?_
    · rlex_by (decodeHead [.hole 0]) [0]
      holes hn
    refine shows_assign id!"decoding" _ (x := .decoding ⟨M, S, V⟩) ?_ ?_
    · rw [eval1_call (as := [.fields fs]) rfl]
      show (getDecodingFields fs).map _ = _
      rw [hE]; rfl
    refine shows_list id!"field" _ S .field (x := .fieldList S) rfl rfl _ ?_ ?_
    · intro f hf
      rw [← hS, List.mem_filter] at hf
      obtain ⟨n', k, t, rfl⟩ := isSlice_shape hf.2
      exact shows_decSlice _ _ _ n' t k (h _ hf.1).kind (h _ hf.1).name (h _ hf.1).type
    refine shows_list id!"field" _ M .field (x := .fieldList M) rfl rfl _ ?_ ?_
    · intro f hf
      rw [← hM, List.mem_filter] at hf
      obtain ⟨n', r, t, rfl⟩ | ⟨n', kk, k, t, rfl⟩ := isMessage_shape hf.2
      · exact ⟨[], rfl, rfl⟩
      · refine Shows.cast (ts := (_ ++ []) ++ []) (shows_ite (b := .none) _ (x := .bool true) rfl ?_ shows_nil) ((List.append_nil _).trans (List.append_nil _))
        refine shows_template id!"decodeMap" _ (b := .none) (x := Val.field ⟨n', .map kk, k, t⟩) rfl ?_ shows_nil
        rw [run_call (b := decodeMapBody) rfl]
        exact shows_decodeMap _ _ _ n' t kk k ((h _ hf.1).key kk rfl) (h _ hf.1).kind (h _ hf.1).name (h _ hf.1).type
    refine shows_take 3 (env' := [(id!"decoding", .decoding ⟨M, S, V⟩), (0, .message s (.mk n e fs es ms))]) (t := render (names [camelCase (qualify s n)])
      (.lit decode_t16 <| .hole 0 <| .lit decode_t17 .nil)) (b := .none) (by kernel_rfl) ?_ ?_
    · rlex_by [.word go!"Ok", .op go!"(", .word go!"Some", .op go!"(", .word [.hole 0], .op go!"{"] [0]
      holes hn
    refine shows_list id!"field" _ V .field (x := .fieldList V) rfl rfl _ ?_ ?_
    · intro f hf
      rw [← hV, List.mem_filter] at hf
      obtain ⟨n', r, k, t, rfl, hk, hg⟩ := isValue_kind (h f hf.1) hf.2
      exact shows_initValue _ _ _ n' t r k hk hg (h _ hf.1).name (h _ hf.1).type
    refine shows_list id!"field" _ S .field (x := .fieldList S) rfl rfl _ ?_ ?_
    · intro f hf
      rw [← hS, List.mem_filter] at hf
      obtain ⟨n', k, t, rfl⟩ := isSlice_shape hf.2
      exact shows_initSlice _ _ _ n' t k (h _ hf.1).name
    refine shows_list id!"field" _ M .field (x := .fieldList M) rfl rfl _ ?_ ?_
    · intro f hf
      rw [← hM, List.mem_filter] at hf
      obtain ⟨n', r, t, rfl⟩ | ⟨n', kk, k, t, rfl⟩ := isMessage_shape hf.2
      · exact shows_initMessage _ _ _ n' t r (h _ hf.1).name ((h _ hf.1).type (.inl rfl))
      · exact shows_initMap _ _ _ n' t kk k (h _ hf.1).name
    exact ⟨decode_t28 ++ [], rfl, by decide +kernel⟩
  · rw [stmts_append, stmts_append, stmts_append, stmts_map, stmts_flatMap, decodeHead]
    have h1 : stmts [.tail (okOf (someOf (.lit (camel (qualify s n)) (fieldsOf (V.map (fun f => (snake f.name, initValue f.kind (camel f.type))) ++
        S.map (fun f => (snake f.name, initCall (snake f.name) go!"InvalidArray")) ++ M.map initMessageField)))))] =
        [.word go!"Ok", .op go!"(", .word go!"Some", .op go!"(", .word (camel (qualify s n)), .op go!"{"] ++
        ((V.flatMap fun f => fieldToks (snake f.name, initValue f.kind (camel f.type))) ++
        ((S.flatMap fun f => fieldToks (snake f.name, initCall (snake f.name) go!"InvalidArray")) ++
        ((M.flatMap fun f => fieldToks (initMessageField f)) ++ [.op go!"}", .op go!")", .op go!")"]))) := by
      simp [stmts, Stmt.toks, okOf, someOf, RustAst.Expr.toks, args1, var, pathToks, toks_fieldsOf, List.flatMap_append, List.flatMap_map]
    rw [h1]
    simp

end RustText
