import Verif.Text.GoRunDecodeAll

/-!
# Running the generated `Decode`: the exported method
-/

namespace GoRun

open Utils Text GoAst GoText Gen Spec
open GoGen (AnyLaw Yields TypedCallees)
open GoV2 (Req)

/-- The variables of `Decode`. -/
def decodeVars (t : Bytes × List FieldD) (v : V) (b : Bytes) : List (Ident × TV) :=
  [(go!"x", ⟨.ptr (.name (camel t.1)), .data v⟩), (go!"b", ⟨tBytes, .data (.scalar (.bytes b))⟩)]

/-- `x.decode(d)` in `Decode`. -/
def decodeCall [Lib] (f : FileD) (rd : GoGen.Codec) (call : Callee) (t : Bytes × List FieldD) (fs : List V) : M (List TV) := fun s =>
  match call (decodeDecl t.1 t.2).fn (some (.data (.msg fs))) [.decoder] s with
  | .fail e => .fail e
  | .ok (none, _) _ => .fail .bad
  | .ok (some v, rs) s' => (do
      store (program f) rd call vx ⟨.ptr (.name (camel t.1)), v⟩
      pure rs : M _) s'

section
variable {lib : Lib} {f : FileD} {rd : GoGen.Codec} {call : Callee}

theorem decodeVars_base (h : f.Plain) (t : Bytes × List FieldD) (v : V) (b : Bytes) : Env f (decodeVars t v b) := by
  refine ((Env.nil (lib := lib) f).cons (n := go!"b") ?_ ?_ _).cons ?_ ?_ _
  all_goals first | decide | exact not_declared h.wf ⟨_, _, rfl, by decide⟩

theorem eval_decodeCall (h : f.Plain) {t : Bytes × List FieldD} (ht : t ∈ f.types) {fs : List V} {s s1 : St} {a : Expr}
    (hx : s.locals.lookup go!"x" = some ⟨.ptr (.name (camel t.1)), .data (.msg fs)⟩) (ha : eval (program f) rd call a s = .ok [⟨tDecoder, .decoder⟩] s1) :
    eval (program f) rd call (.call1 (.sel vx go!"decode") a) s = decodeCall f rd call t fs s1 := by
  rw [eval, vx, bind_ok (target_method (isPackage_false (by decide)) (eval_local hx)), bind_ok (one_ok ha)]
  have harg : arguments (program f) (decodeDecl t.1 t.2).fn.params [⟨tDecoder, .decoder⟩] = some [.decoder] := by cases lib <;> rfl
  have hfind : findMethod (program f) (camel t.1) go!"decode" = some (decodeDecl t.1 t.2).fn := find_decode h ht
  have hrecv : (decodeDecl t.1 t.2).fn.recv.map (·.2) = some (.ptr (.name (camel t.1))) := rfl
  simp only [apply, base, hfind, hrecv, harg, bind_apply, need_some, if_true, decodeCall]
  cases call (decodeDecl t.1 t.2).fn (some (.data (.msg fs))) [.decoder] s1 with
  | fail e => rfl
  | ok r s' =>
    obtain ⟨v, vs⟩ := r
    cases v with
    | none => rfl
    | some v => rfl

theorem eval_decoder (h : f.Plain) {t : Bytes × List FieldD} {v : V} {b : Bytes} {s : St} (hs : s.locals = decodeVars t v b) :
    eval (program f) rd call (.call1 (polyglot (Lib.pick go!"GetDecoder" go!"Decoder")) vb) s = .ok [⟨tDecoder, .decoder⟩] { s with inp := b } := by
  have hbase := (decodeVars_base (lib := lib) h t v b).base
  have hb : s.locals.lookup go!"b" = some ⟨tBytes, .data (.scalar (.bytes b))⟩ := by rw [hs, decodeVars, lookup_cons_ne (by decide), lookup_cons_self]
  refine eval_call1 (t := .lib (Lib.pick go!"GetDecoder" go!"Decoder")) (r := ([_], none)) ?_ (eval_local hb) ?_ (storeReceiver_none _ _)
  · have hp : s.locals.lookup go!"polyglot" = none := by rw [hs]; exact hbase _ (by simp [reserved])
    show target _ _ _ (.sel (.var go!"polyglot") _) s = _
    rw [target_sel]
    simp [isPackage, hp]
  · simp [apply]

/-- `if x == nil { … }` does nothing. -/
theorem exec_notNil (h : f.Plain) {t : Bytes × List FieldD} {fs : List V} {b : Bytes} {st : Stmt} {sts : List Stmt} (s : St) (hs : s.locals = decodeVars t (.msg fs) b) :
    exec (program f) rd call (block (.if1 (.eq vx vnil) st :: sts)) s = exec (program f) rd call (block sts) s := by
  have hx : s.locals.lookup go!"x" = some ⟨.ptr (.name (camel t.1)), .data (.msg fs)⟩ := by rw [hs]; exact lookup_cons_self ..
  have hnil := eval_isNil (lib := lib) (rd := rd) (call := call) (decodeVars_base h t (.msg fs) b).base h hs (e := vx) (eval_local hx) (b := false) rfl
  rw [exec_block_cons, exec, bind_ok (isTrue_ok hnil)]
  simp only [Bool.false_eq_true, if_false, pure_apply]

/-- `return e` -/
theorem exec_return {e : Expr} (s : St) : exec (program f) rd call (block [.ret1 e]) s = (do pure (.ret (← eval (program f) rd call e)) : M _) s := by
  rw [exec_block_cons, exec]
  cases (do pure (.ret (← eval (program f) rd call e)) : M Flow) s with
  | fail e => rfl
  | ok fl s' => cases fl with
    | next => exact exec_block_nil _
    | ret vs => rfl

/-- What `Decode` does after the check for nil. -/
theorem exec_decodeApi (h : f.Plain) {t : Bytes × List FieldD} (ht : t ∈ f.types) {fs : List V} (b : Bytes) :
    ∃ pre : List (Ident × TV), pre.lookup go!"x" = none ∧ ∀ s : St, s.locals = decodeVars t (.msg fs) b →
      exec (program f) rd call (decodeApi (camel t.1)).fn.body s =
        (do pure (.ret (← decodeCall f rd call t fs)) : M _) { s with locals := pre ++ s.locals, inp := b } := by
  have hdec : ∀ s : St, s.locals = decodeVars t (.msg fs) b →
      eval (program f) rd call (.call1 (polyglot (Lib.pick go!"GetDecoder" go!"Decoder")) vb) s = .ok [⟨tDecoder, .decoder⟩] { s with inp := b } := fun s hs => eval_decoder h hs
  have hxs : ∀ s : St, s.locals = decodeVars t (.msg fs) b → s.locals.lookup go!"x" = some ⟨.ptr (.name (camel t.1)), .data (.msg fs)⟩ := fun s hs => by
    rw [hs]; exact lookup_cons_self ..
  cases lib with
  | v1 =>
    refine ⟨[(go!"d", ⟨@tDecoder .v1, .decoder⟩)], rfl, fun s hs => ?_⟩
    simp only [decodeApi, Decl.fn, Lib.pick] at hdec ⊢
    rw [@exec_notNil .v1 _ _ _ h t fs b _ _ s hs]
    have hd : ∀ s' : St, @eval .v1 (@program .v1 f) rd call vd { s' with locals := (go!"d", ⟨@tDecoder .v1, .decoder⟩) :: s'.locals } =
        .ok [⟨@tDecoder .v1, .decoder⟩] { s' with locals := (go!"d", ⟨@tDecoder .v1, .decoder⟩) :: s'.locals } := fun s' => @eval_local .v1 _ _ _ _ _ _ (lookup_cons_self ..)
    have hdef : @exec .v1 (@program .v1 f) rd call (.define go!"d" (.call1 (polyglot go!"GetDecoder") vb)) s =
        .ok .next { s with locals := (go!"d", ⟨@tDecoder .v1, .decoder⟩) :: s.locals, inp := b } := by
      unfold exec
      rw [bind_ok (one_ok (hdec s hs))]
      rfl
    have hdf : @exec .v1 (@program .v1 f) rd call (.defer (.call0 (.sel vd go!"Return"))) { s with locals := (go!"d", ⟨@tDecoder .v1, .decoder⟩) :: s.locals, inp := b } =
        .ok .next { s with locals := (go!"d", ⟨@tDecoder .v1, .decoder⟩) :: s.locals, inp := b } := by
      unfold exec
      simp only
      rw [bind_ok (one_ok (hd { s with inp := b }))]
      rfl
    rw [@exec_block_cons .v1, hdef]
    simp only
    rw [@exec_block_cons .v1, hdf]
    simp only
    rw [@exec_return .v1, bind_apply, bind_apply, @eval_decodeCall .v1 _ _ _ h t ht fs _ _ vd (by
      show List.lookup _ ((go!"d", _) :: s.locals) = _
      rw [lookup_cons_ne (by decide)]; exact hxs s hs) (hd { s with inp := b })]
    rfl
  | v2 =>
    refine ⟨[], rfl, fun s hs => ?_⟩
    simp only [decodeApi, Decl.fn, Lib.pick] at hdec ⊢
    rw [@exec_notNil .v2 _ _ _ h t fs b _ _ s hs, @exec_return .v2, bind_apply, bind_apply, @eval_decodeCall .v2 _ _ _ h t ht fs _ _ _ (hxs s hs) (hdec s hs)]
    rfl

/-- `x.Decode(b)` for a message. -/
theorem run_Decode (h : f.Plain) (hu : f.Unhidden) (hl : AnyLaw ver rd) {n d : Nat} (hd : 2 * n ≤ d) {m : Nat} {t : Bytes × List FieldD} (ht : f.types[m]? = some t)
    {fs : List V} (ho : OfFields f.schema (f.schema.fields m) fs) (b : Bytes) (s : St) :
    match GoGen.decode ver rd f.schema n m fs b with
    | .ok r fs' => runFn (program f) rd (d + 1) (decodeApi (camel t.1)).fn (some (.data (.msg fs))) [.data (.scalar (.bytes b))] s =
        .ok (some (.data (.msg fs')), [noErr]) { s with inp := r }
    | .err e => ∃ w s', (IsStruct f m w ∧ s'.out = s.out) ∧ runFn (program f) rd (d + 1) (decodeApi (camel t.1)).fn (some (.data (.msg fs))) [.data (.scalar (.bytes b))] s = .ok (some (.data w), [errTV e]) s'
    | .panic => runFn (program f) rd (d + 1) (decodeApi (camel t.1)).fn (some (.data (.msg fs))) [.data (.scalar (.bytes b))] s = .fail .panic
    | _ => True := by
  have hmem := List.mem_of_getElem? ht
  have hcall := (run_callees h hu hl n d hd).decode m t fs ht ho
  obtain ⟨pre, hpre, hbody⟩ := exec_decodeApi (lib := lib) (rd := rd) (call := runFn (program f) rd d) h hmem (fs := fs) b
  have hx : (pre ++ decodeVars t (.msg fs) b).lookup go!"x" = some ⟨.ptr (.name (camel t.1)), .data (.msg fs)⟩ := by
    rw [List.lookup_append, hpre, Option.none_or]; exact lookup_cons_self ..
  have hc := cell_var (lib := lib) (f := f) (rd := rd) (call := runFn (program f) rd d) (n := go!"x") (by decide) hx
  have hframe : frame (decodeApi (camel t.1)).fn (some (.data (.msg fs))) [.data (.scalar (.bytes b))] = some (decodeVars t (.msg fs) b) := rfl
  have h1 := hcall { s with locals := pre ++ decodeVars t (.msg fs) b, inp := b }
  rw [dbind_apply] at h1
  rw [runFn]
  simp only [hframe]
  rw [hbody { s with locals := decodeVars t (.msg fs) b } rfl, bind_apply, decodeCall]
  simp only at h1 ⊢
  generalize pre ++ decodeVars t (.msg fs) b = l at *
  cases hG : GoGen.decode ver rd f.schema n m fs b with
  | ok r fs' =>
    rw [hG] at h1
    have h2 : runFn (program f) rd d (decodeDecl t.1 t.2).fn (some (.data (.msg fs))) [.decoder] ⟨l, s.out, b⟩ = .ok (some (.data (.msg fs')), [noErr]) ⟨l, s.out, r⟩ := h1
    rw [h2]
    simp only
    rw [vx, bind_ok (hc.stores (.msg fs) (.msg fs') ⟨l, s.out, r⟩ (setLocal_self hx).symm)]
    simp only [pure_apply]
    have hres : results (program f) (decodeApi (camel t.1)).fn.result (.ret [noErr]) = some [noErr] := rfl
    have hrc : receiver (decodeApi (camel t.1)).fn (setLocal go!"x" ⟨.ptr (.name (camel t.1)), .data (.msg fs')⟩ l) = some (.data (.msg fs')) := by
      show ((setLocal go!"x" _ l).lookup go!"x").map (·.val) = _
      rw [lookup_setLocal_self _ hx]; rfl
    simp only [hres, hrc]
  | err e =>
    rw [hG] at h1
    obtain ⟨w, s', hl', hw, h2⟩ := h1
    have h2 : runFn (program f) rd d (decodeDecl t.1 t.2).fn (some (.data (.msg fs))) [.decoder] ⟨l, s.out, b⟩ = .ok (some (.data w), [errTV e]) s' := h2
    rw [h2]
    simp only
    rw [vx, bind_ok (hc.stores (.msg fs) w s' (hl'.trans (setLocal_self hx).symm))]
    simp only [pure_apply]
    have hres : results (program f) (decodeApi (camel t.1)).fn.result (.ret [errTV e]) = some [errTV e] := by
      have ha : assignTo (program f) terror (errTV e) = some (errTV e).val := assignTo_same _ (errTV e)
      simp only [decodeApi, Decl.fn, results, ha]
      rfl
    have hrc : receiver (decodeApi (camel t.1)).fn (setLocal go!"x" ⟨.ptr (.name (camel t.1)), .data w⟩ l) = some (.data w) := by
      show ((setLocal go!"x" _ l).lookup go!"x").map (·.val) = _
      rw [lookup_setLocal_self _ hx]; rfl
    simp only [hres, hrc]
    exact ⟨w, { s' with locals := s.locals }, ⟨hw.1, hw.2⟩, rfl⟩
  | panic =>
    rw [hG] at h1
    have h2 : runFn (program f) rd d (decodeDecl t.1 t.2).fn (some (.data (.msg fs))) [.decoder] ⟨l, s.out, b⟩ = .fail .panic := h1
    rw [h2]
  | _ => trivial

/-- `x.Decode(b)` for a nil pointer. -/
theorem run_Decode_nil (h : f.Plain) (d : Nat) (t : Bytes × List FieldD) (b : Bytes) (s : St) :
    runFn (program f) rd (d + 1) (decodeApi (camel t.1)).fn (some (.data .nil)) [.data (.scalar (.bytes b))] s =
      .ok (some (.data .nil), [⟨tError, .err (some (.pkg errNil))⟩]) s := by
  have henv := decodeVars_base (lib := lib) h t .nil b
  have hframe : frame (decodeApi (camel t.1)).fn (some (.data .nil)) [.data (.scalar (.bytes b))] = some (decodeVars t .nil b) := rfl
  have hnil := eval_isNil (rd := rd) (call := runFn (program f) rd d) henv.base h (s := { s with locals := decodeVars t .nil b }) rfl (e := vx) (eval_local (lookup_cons_self ..)) (b := true) rfl
  have herr : exec (program f) rd (runFn (program f) rd d) (block [.ret1 (.var errNil)]) { s with locals := decodeVars t .nil b } =
      .ok (.ret [⟨tError, .err (some (.pkg errNil))⟩]) { s with locals := decodeVars t .nil b } := by
    rw [exec_block_cons, exec, bind_apply, eval, bind_apply]
    have : (decodeVars t .nil b).lookup errNil = none := by cases lib <;> rfl
    simp only [GoRun.get, this, find_errNil, if_true]
    rfl
  rw [runFn]
  simp only [hframe]
  have hbody : exec (program f) rd (runFn (program f) rd d) (decodeApi (camel t.1)).fn.body { s with locals := decodeVars t .nil b } =
      .ok (.ret [⟨tError, .err (some (.pkg errNil))⟩]) { s with locals := decodeVars t .nil b } := by
    simp only [decodeApi, Decl.fn]
    rw [exec_block_cons, exec, bind_ok (isTrue_ok hnil)]
    simp only [if_true]
    rw [inBlock_ok herr rfl]
  rw [hbody]
  rfl

end

end GoRun
