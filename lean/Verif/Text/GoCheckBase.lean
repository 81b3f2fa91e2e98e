import Verif.Text.GoCheck
import Verif.Text.GoRunEncodeMsg

/-!
# Facts about the checker

What the checker says of the pieces that the generated code is made of, in any program that declares none of the predeclared names
and imports `polyglot` and `errors`.
-/

namespace GoCheck

open Utils Text GoAst GoText
open Gen (PKind)
open GoRun (findStruct findType findFunc findMethod findErr base Func structOf fieldIndex kinds tBool tUint32 tInt tError tBytes tBuffer tEncoder tDecoder tKind
  lookup_cons_ne lookup_cons_self)

variable {lib : Lib}

/-- Names that no local variable may have. -/
def keep : List Ident := go!"polyglot" :: predeclared

theorem keep_lower : ∀ n ∈ keep, Lower n := by
  have : ∀ n ∈ keep, (match n with | .byte b :: _ => !isUpper b | _ => false) = true := by decide +kernel
  intro n hn
  have h := this n hn
  split at h
  · exact ⟨_, _, rfl, by simpa using h⟩
  · cases h

/-- The program declares none of these and imports the two packages. -/
structure Good [Lib] (P : List Decl) : Prop where
  names : ∀ n ∈ keep, n ∉ declared P
  imports : imported P = [go!"polyglot", go!"errors"]

/-- No local variable hides a predeclared name or `polyglot`. -/
def Open (Γ : Vars) : Prop := ∀ n ∈ keep, Γ.lookup n = none

theorem Open.nil : Open [] := fun _ _ => rfl

theorem Open.cons {Γ : Vars} (h : Open Γ) {n : Ident} (hn : n ∉ keep) (t : Ty) : Open ((n, t) :: Γ) := by
  intro m hm
  rw [lookup_cons_ne (by rintro rfl; exact hn hm)]
  exact h m hm

theorem not_keep_upper {n : Ident} (h : Upper n) : n ∉ keep := fun hn => upper_ne h (keep_lower n hn) rfl

section
variable {P : List Decl} {Γ : Vars} (hP : Good P) (hΓ : Open Γ)

theorem expr_var {n : Ident} {t : Ty} (h : Γ.lookup n = some t) : expr P Γ (.var n) = some (.vals [t]) := by
  simp only [expr, h]

theorem packageVar_none {n : Ident} (h : n ∉ declared P) : packageVar P n = none := by
  unfold packageVar
  rw [findErr_none h]
  simp only [Bool.false_eq_true, if_false]
  rw [List.findSome?_eq_none_iff]
  intro d hd
  split
  · rename_i ds
    rw [List.findSome?_eq_none_iff]
    rintro ⟨m, e⟩ hm
    split
    · rename_i h' 
      cases h'
      rw [if_neg]
      rintro rfl
      exact h (List.mem_flatMap.mpr ⟨_, hd, List.mem_map.mpr ⟨_, hm, rfl⟩⟩)
    · rfl
  · rfl

include hP in
theorem underlying_basic {n : Ident} (h : n ∈ keep) : underlying P (.name n) = .name n := by
  simp [underlying, findType_none (hP.names n h)]

theorem uint32_keep : go!"uint32" ∈ keep := by decide +kernel
theorem nil_keep : go!"nil" ∈ keep := by decide +kernel
theorem len_keep : go!"len" ∈ keep := by decide +kernel
theorem polyglot_keep : go!"polyglot" ∈ keep := by decide +kernel
theorem make_keep : go!"make" ∈ keep := by decide +kernel
theorem error_keep : go!"error" ∈ keep := by decide +kernel
theorem bool_keep : go!"bool" ∈ keep := by decide +kernel
theorem int_keep : go!"int" ∈ keep := by decide +kernel
theorem basic_keep : ∀ n ∈ basicTypes, n ∈ keep := by decide +kernel

include hP in
theorem integer_uint32 : integer P tUint32 = some (2 ^ 32) := by
  rw [integer, tUint32, underlying_basic hP uint32_keep]
  decide +kernel

include hP in
theorem integer_int : integer P tInt = some (2 ^ 63) := by
  rw [integer, tInt, underlying_basic hP int_keep]
  decide +kernel

include hP hΓ in
theorem expr_nil : expr P Γ vnil = some .nil := by
  simp only [vnil, expr, hΓ _ nil_keep, packageVar_none (hP.names _ nil_keep), if_true]

include hP hΓ in
theorem isPackage_polyglot : isPackage P Γ go!"polyglot" = true := by
  rw [isPackage, hΓ _ polyglot_keep, hP.imports]; decide +kernel

theorem isPackage_local {n : Ident} {t : Ty} (h : Γ.lookup n = some t) : isPackage P Γ n = false := by
  simp [isPackage, h]

include hP hΓ in
theorem expr_kind (k : PKind) : expr P Γ (kindConst k) = some (.vals [tKind]) := by
  have : ∀ n, (kinds.lookup n).isSome = true → expr P Γ (polyglot n) = some (.vals [tKind]) := by
    intro n hn
    simp only [polyglot, expr, isPackage_polyglot hP hΓ, if_true, hn, and_self]
  cases k <;> exact this _ (by decide +kernel)

theorem assignable_self (t : Ty) : assignable P t (.vals [t]) = true := by simp [assignable]

theorem fits_self (t : Ty) : fits P (some t) (some (.vals [t])) = true := assignable_self t

include hP in
theorem nilable_error : nilable P tError = true := by
  rw [nilable, tError, underlying_basic hP error_keep]; decide +kernel

theorem nilable_ptr (t : Ty) : nilable P (.ptr t) = true := rfl

theorem nilable_map {n : Ident} {k v : Ty} (h : findType P n = some (.map k v)) : nilable P (.name n) = true := by
  simp [nilable, underlying, h]

/-- `e.m` where `e` is not a package. -/
theorem callee_sel {e : Expr} (he : ∀ p, e = .var p → isPackage P Γ p = false) (m : Ident) : callee P Γ (.sel e m) = methodOf P m (expr P Γ e) := by
  unfold callee
  split
  · rw [he _ rfl]; rfl
  · rfl

theorem expr_sel {e : Expr} (he : ∀ p, e = .var p → isPackage P Γ p = false) (n : Ident) : expr P Γ (.sel e n) = fieldOf P n (expr P Γ e) := by
  cases e <;> first | rfl | (simp only [expr, he _ rfl]; rfl)

theorem left_sel {e : Expr} (he : ∀ p, e = .var p → isPackage P Γ p = false) {n : Ident} {t : Ty} (h : fieldOf P n (expr P Γ e) = some (.vals [t])) :
    left P Γ (.sel e n) = some t := by
  cases e <;> simp only [left, h] <;> simp only [he _ rfl] <;> rfl

theorem left_var (n : Ident) : left P Γ (.var n) = Γ.lookup n := rfl

theorem method_encoder (m : Ident) : methodOf P m (some (.vals [tEncoder])) = (encoderMethods.lookup m).map .func := by simp [methodOf]

theorem method_decoder (m : Ident) : methodOf P m (some (.vals [tDecoder])) = (decoderMethods.lookup m).map .func := by
  have : tDecoder ≠ tEncoder := by cases lib <;> decide +kernel
  simp [methodOf, this]

/-- A method of a type of the program. -/
theorem method_own {t : Ty} {n m : Ident} {fn : Func} (hb : base t = some n) (hf : findMethod P n m = some fn) (hr : fn.recv.map (·.2) = some t) :
    methodOf P m (some (.vals [t])) = some (.func (Func.sig fn)) := by
  have h1 : t ≠ tEncoder := by rintro rfl; simp [tEncoder, base] at hb
  have h2 : t ≠ tDecoder := by rintro rfl; simp [tDecoder, base] at hb
  simp [methodOf, h1, h2, hb, hf, hr]

include hP hΓ in
theorem expr_encoder (hb : Γ.lookup go!"b" = some tBuffer) : expr P Γ encoder = some (.vals [tEncoder]) := by
  have hc : callee P Γ (polyglot go!"Encoder") = some (.func ⟨[tBuffer], [tEncoder]⟩) := by
    simp only [polyglot, callee, isPackage_polyglot hP hΓ, if_true]
    cases lib <;> decide +kernel
  simp only [encoder, vb, expr, hb, hc, result, argsOk, assignable_self, Bool.and_self, if_true]

theorem encoder_ne (p : Ident) : encoder = .var p → isPackage P Γ p = false := by
  intro h; simp [encoder] at h

include hP hΓ in
theorem callee_uint32 : callee P Γ (.var go!"uint32") = some (.conv tUint32) := by
  have h : typeOk P Γ (.name go!"uint32") = true := by
    rw [typeOk, hΓ _ uint32_keep]
    simp
    exact .inr (by decide +kernel)
  simp only [callee, hΓ _ uint32_keep, findFunc_none (hP.names _ uint32_keep), h]
  rfl

include hP hΓ in
theorem expr_uint32 {e : Expr} {t : Ty} (h : expr P Γ e = some (.vals [t])) (hi : (integer P t).isSome = true) :
    expr P Γ (uint32 e) = some (.vals [tUint32]) := by
  simp only [uint32, expr, h, callee_uint32 hP hΓ, result, convertible, hi, integer_uint32 hP]
  simp

include hP hΓ in
theorem expr_zero : expr P Γ (uint32 (.num go!"0")) = some (.vals [tUint32]) := by
  have : decimalValue go!"0" = some 0 := by decide +kernel
  simp only [uint32, expr, this, Option.map_some, callee_uint32 hP hΓ, result, convertible, assignable, integer_uint32 hP]
  simp

include hP hΓ in
theorem expr_len {e : Expr} {t : Ty} (h : expr P Γ e = some (.vals [t])) (hs : (∃ u, underlying P t = .slice u) ∨ ∃ k v, underlying P t = .map k v) :
    expr P Γ (GoText.len e) = some (.vals [tInt]) := by
  have ht : typeOk P Γ (.name go!"len") = false := by
    have h1 := findType_none (hP.names _ len_keep)
    have h2 : findStruct P go!"len" = none := by
      rw [findStruct, List.findSome?_eq_none_iff]
      intro d hd
      split
      · rw [if_neg]
        rintro rfl
        exact hP.names _ len_keep (List.mem_flatMap.mpr ⟨_, hd, by simp [Decl.declared]⟩)
      · rfl
    rw [typeOk, hΓ _ len_keep, isDefined, h1, h2]
    decide +kernel
  have hc : callee P Γ (.var go!"len") = some .len := by
    simp only [callee, hΓ _ len_keep, findFunc_none (hP.names _ len_keep), ht]
    rfl
  simp only [GoText.len, expr, h, hc, result, lenOk]
  rcases hs with ⟨u, hu⟩ | ⟨k, v, hu⟩ <;> simp [hu]

include hP hΓ in
/-- `uint32(len(e))` -/
theorem expr_size {e : Expr} {t : Ty} (h : expr P Γ e = some (.vals [t])) (hs : (∃ u, underlying P t = .slice u) ∨ ∃ k v, underlying P t = .map k v) :
    expr P Γ (uint32 (GoText.len e)) = some (.vals [tUint32]) :=
  expr_uint32 hP hΓ (expr_len hP hΓ h hs) (by rw [integer_int hP]; rfl)

include hP in
theorem bool_ok : isBool P (some (.vals [tBool])) = true := by
  rw [isBool, tBool, underlying_basic hP bool_keep]; simp

include hP hΓ in
theorem eq_nil {e : Expr} {t : Ty} (h : expr P Γ e = some (.vals [t])) (hn : nilable P t = true) :
    expr P Γ (.eq e vnil) = some (.vals [tBool]) ∧ expr P Γ (.ne e vnil) = some (.vals [tBool]) := by
  simp only [expr, h, expr_nil hP hΓ, comparison, hn, if_true, and_self]

/-- A call of a method or function with one argument. -/
theorem expr_call1 {e a : Expr} {s : Sig} {u : ETy} (hc : callee P Γ e = some (.func s)) (ha : expr P Γ a = some u) (ho : argsOk P s.params [u] = true) :
    expr P Γ (.call1 e a) = some (.vals s.results) := by
  simp only [expr, ha, hc, result, ho, if_true]

theorem expr_call0 {e : Expr} {s : Sig} (hc : callee P Γ e = some (.func s)) (ho : s.params = []) : expr P Γ (.call0 e) = some (.vals s.results) := by
  simp only [expr, hc, result, ho, argsOk, if_true]

theorem expr_call2 {e a b : Expr} {s : Sig} {u v : ETy} (hc : callee P Γ e = some (.func s)) (ha : expr P Γ a = some u) (hb : expr P Γ b = some v)
    (ho : argsOk P s.params [u, v] = true) : expr P Γ (.call2 e a b) = some (.vals s.results) := by
  simp only [expr, ha, hb, hc, result, ho, if_true]

theorem expr_call3 {e a b c : Expr} {s : Sig} {u v w : ETy} (hc : callee P Γ e = some (.func s)) (ha : expr P Γ a = some u) (hb : expr P Γ b = some v)
    (hw : expr P Γ c = some w) (ho : argsOk P s.params [u, v, w] = true) : expr P Γ (.call3 e a b c) = some (.vals s.results) := by
  simp only [expr, ha, hb, hw, hc, result, ho, if_true]

theorem args_one (t : Ty) : argsOk P [t] [.vals [t]] = true := by simp [argsOk, assignable_self]

/-- A method of the encoder. -/
theorem callee_encoder {e : Expr} (he : ∀ p, e = .var p → isPackage P Γ p = false) (h : expr P Γ e = some (.vals [tEncoder])) {m : Ident} {s : Sig}
    (hm : encoderMethods.lookup m = some s) : callee P Γ (.sel e m) = some (.func s) := by
  rw [callee_sel he, h, method_encoder, hm]; rfl

/-- A method of the decoder. -/
theorem callee_decoder (hd : Γ.lookup go!"d" = some tDecoder) {m : Ident} {s : Sig} (hm : decoderMethods.lookup m = some s) :
    callee P Γ (.sel vd m) = some (.func s) := by
  rw [callee_sel (e := vd), vd, expr_var hd, method_decoder, hm]; rfl
  intro p hp
  cases hp
  exact isPackage_local hd

end

/-! ## Statements -/

section
variable {P : List Decl} {ret : Option Ty}

/-- The statements compile, in front of any others that do, and leave the scope as it is. -/
def Keeps [Lib] (P : List Decl) (ret : Option Ty) (ss : List Stmt) (Γ : Env) : Prop :=
  ∀ rest, stmt P ret (block (ss ++ rest)) Γ = stmt P ret (block rest) Γ

theorem Keeps.nil (Γ : Env) : Keeps P ret [] Γ := fun _ => rfl

theorem Keeps.append {a b : List Stmt} {Γ : Env} (ha : Keeps P ret a Γ) (hb : Keeps P ret b Γ) : Keeps P ret (a ++ b) Γ := by
  intro rest
  rw [List.append_assoc, ha, hb]

theorem stmt_block_cons (s : Stmt) (ss : List Stmt) (Γ : Env) : stmt P ret (block (s :: ss)) Γ =
    match stmt P ret s Γ with
    | some Γ' => if simple s && (newNames s).all (usedIn · (block ss)) then stmt P ret (block ss) Γ' else none
    | none => none := rfl

theorem Keeps.one {s : Stmt} {Γ : Env} (h : stmt P ret s Γ = some Γ) (hs : simple s = true) (hn : newNames s = []) : Keeps P ret [s] Γ := by
  intro rest
  show stmt P ret (block (s :: rest)) Γ = _
  rw [stmt_block_cons, h]
  simp [hs, hn]

theorem Keeps.all {α : Type} {g : α → List Stmt} {Γ : Env} : ∀ (l : List α), (∀ a ∈ l, Keeps P ret (g a) Γ) → Keeps P ret (l.flatMap g) Γ
  | [], _ => .nil Γ
  | a :: l, h => by
    rw [List.flatMap_cons]
    exact (h a (List.mem_cons_self ..)).append (Keeps.all l fun b hb => h b (List.mem_cons_of_mem _ hb))

theorem Keeps.done {ss : List Stmt} {Γ : Env} (h : Keeps P ret ss Γ) : stmt P ret (block ss) Γ = some Γ := by
  have := h []
  rw [List.append_nil] at this
  rw [this]; rfl

theorem simple_block (ss : List Stmt) : simple (block ss) = false := by cases ss <;> rfl

theorem stmt_if1 {c : Expr} {ss : List Stmt} {Γ Γ' : Env} (hc : isBool P (expr P Γ.vars c) = true) (h : stmt P ret (block ss) Γ.inner = some Γ') :
    stmt P ret (.if1 c (block ss)) Γ = some Γ := by
  simp [stmt, hc, simple_block, h]

theorem stmt_ite {c : Expr} {ss ts : List Stmt} {b : Bool} {Γ Γ1 Γ2 : Env} (hc : isBool P (expr P Γ.vars c) = true)
    (h : stmt P ret (block ss) Γ.inner = some Γ1) (h2 : stmt P ret (block ts) Γ.inner = some Γ2) : stmt P ret (.ite c (block ss) (block ts) b) Γ = some Γ := by
  simp [stmt, hc, simple_block, h, h2]

theorem stmt_range {k v : Ident} {e : Expr} {ss : List Stmt} {kt vt : Ty} {Γ Γ1 Γ2 : Env} (hr : rangeTypes P (expr P Γ.vars e) = some (kt, vt))
    (hd : (Γ.inner.declare k kt).bind (·.declare v vt) = some Γ1) (hne : v ≠ go!"_") (hk : usedIn k (block ss) = true) (hv : usedIn v (block ss) = true)
    (hb : stmt P ret (block ss) Γ1.inner = some Γ2) : stmt P ret (.range k v e (block ss)) Γ = some Γ := by
  simp [stmt, hr, hd, hne, hk, hv, hb, simple_block]

theorem stmt_for3 {i : Ident} {e c : Expr} {ss : List Stmt} {t : Ty} {Γ Γ1 Γ2 : Env} (he : expr P Γ.vars e = some (.vals [t])) (hi : (integer P t).isSome = true)
    (hd : Γ.inner.declare i t = some Γ1) (hc : isBool P (expr P Γ1.vars c) = true) (hu : mentions i c = true) (hb : stmt P ret (block ss) Γ1.inner = some Γ2) :
    stmt P ret (.for3 i e c (block ss)) Γ = some Γ := by
  simp [stmt, defined, he, hi, hd, hc, hu, hb, simple_block]

theorem stmt_ret1 {t : Ty} {e : Expr} {Γ : Env} {u : ETy} (he : expr P Γ.vars e = some u) (hf : assignable P t u = true) :
    stmt P (some t) (.ret1 e) Γ = some Γ := by
  simp [stmt, he, fits, hf]

theorem stmt_ret1_block {t : Ty} {e : Expr} {Γ : Env} {u : ETy} (he : expr P Γ.vars e = some u) (hf : assignable P t u = true) :
    stmt P (some t) (block [.ret1 e]) Γ = some Γ :=
  (Keeps.one (stmt_ret1 he hf) rfl rfl).done

theorem stmt_expr1 {f a : Expr} {Γ : Env} {s : Sig} {u : ETy} (hc : callee P Γ.vars f = some (.func s)) (ha : expr P Γ.vars a = some u)
    (ho : argsOk P s.params [u] = true) : stmt P ret (.expr (.call1 f a)) Γ = some Γ := by
  simp [stmt, isCall, hc, expr_call1 hc ha ho]

theorem stmt_assign {l e : Expr} {Γ : Env} {t : Ty} {u : ETy} (hl : left P Γ.vars l = some t) (he : expr P Γ.vars e = some u) (ha : assignable P t u = true) :
    stmt P ret (.assign l e) Γ = some Γ := by
  simp [stmt, hl, he, fits, ha]

theorem stmt_assign2 {l m e : Expr} {Γ : Env} {t u : Ty} (hl : left P Γ.vars l = some t) (hm : left P Γ.vars m = some u) (he : expr P Γ.vars e = some (.vals [t, u])) :
    stmt P ret (.assign2 l m e) Γ = some Γ := by
  simp [stmt, hl, hm, he, fits_self]

/-- `if err != nil { return err }` -/
theorem stmt_check (hP : Good P) {Γ : Env} (hΓ : Open Γ.vars) (he : Γ.vars.lookup go!"err" = some tError) : stmt P (some tError) check Γ = some Γ := by
  refine stmt_if1 (Γ' := Γ.inner) ?_ ?_
  · rw [verr, (eq_nil hP hΓ (expr_var he) (nilable_error hP)).2, bool_ok hP]
  · exact stmt_ret1_block (expr_var he) (assignable_self _)

theorem keeps_check (hP : Good P) {Γ : Env} (hΓ : Open Γ.vars) (he : Γ.vars.lookup go!"err" = some tError) : Keeps P (some tError) [check] Γ :=
  .one (stmt_check hP hΓ he) rfl rfl

/-- A name is used, if some statement uses it and none declares it again. -/
theorem uses_block {n : Ident} : ∀ {ss : List Stmt}, (∃ s ∈ ss, uses n s = true) → (∀ s ∈ ss, n ∉ newNames s) → uses n (block ss) = true
  | [], h, _ => by obtain ⟨s, hs, _⟩ := h; cases hs
  | s :: ss, h, hn => by
    show (uses n s || (!(newNames s).contains n && uses n (block ss))) = true
    have h1 : (newNames s).contains n = false := by simpa using hn s (List.mem_cons_self ..)
    rw [h1]
    obtain ⟨s', hs', hu⟩ := h
    rcases List.mem_cons.mp hs' with rfl | hs'
    · simp [hu]
    · rw [uses_block ⟨s', hs', hu⟩ fun t ht => hn t (List.mem_cons_of_mem _ ht)]
      simp

end

end GoCheck
