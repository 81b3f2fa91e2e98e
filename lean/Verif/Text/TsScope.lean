import Verif.Text.TsDeclared
import Verif.Text.TsNames

/-!
# Scoping of TypeScript programs

When the names that a program uses are declared: block scopes with `let` and `const` (which exist in the whole block but can be used only
after their declaration), parameters, the names of the file (imports, enums, classes) and `Map`; and the types.  Written from the
rules of the language for the syntax of `TsAst`, without regard to how the programs are made.
-/

namespace TsAst

open Text hiding Tok

/-- Scopes, the innermost first: all names declared in it, and those declared so far. -/
abbrev Env := List (List Ident × List Ident)

/-- A name refers to the innermost scope that declares it anywhere; there it must have been declared already. -/
def lookup : Env → Ident → Bool
  | [], _ => false
  | (all, ready) :: rest, v => if v ∈ all then decide (v ∈ ready) else lookup rest v

/-- The innermost scope after a declaration. -/
def declare (ns : List Ident) : Env → Env
  | [] => []
  | (all, ready) :: rest => (all, ready ++ ns) :: rest

/-- Types that are there without a declaration. -/
def builtin : List Ident := [go!"number", go!"boolean", go!"string", go!"Uint8Array", go!"Map"]

def Ty.scoped (types : List Ident) : Ty → Bool
  | .name n => decide (n ∈ types)
  | .arr t => t.scoped types
  | .map t u => decide (go!"Map" ∈ types) && t.scoped types && u.scoped types
  | .obj1 _ t => t.scoped types
  | .obj2 _ t _ u => t.scoped types && u.scoped types

def Expr.scoped (types : List Ident) (env : Env) : Expr → Bool
  | .var v => decide (v = go!"this") || lookup env v
  | .num _ => true
  | .field e _ => e.scoped types env
  | .call f args => f.scoped types env && args.scoped types env
  | .new n _ args => lookup env n && args.scoped types env
  | .as e t => e.scoped types env && t.scoped types
  | .empty => true
  | .obj1 _ e => e.scoped types env
  | .obj2 _ e _ f => e.scoped types env && f.scoped types env
  | .anil => true
  | .acons a rest => a.scoped types env && rest.scoped types env

/-- A statement in the innermost scope of `env`.  The parameters of a function and what its body declares are different names; a `for` has
a scope for its variable and one for its body. -/
def Stmt.scoped (types : List Ident) (env : Env) : Stmt → Bool
  | .skip => true
  | .seq s rest => s.scoped types env && rest.scoped types (declare s.lets env)
  | .let1 _ e => e.scoped types env
  | .const1 _ e => e.scoped types env
  | .constT _ t e => t.scoped types && e.scoped types env
  | .assign l e _ => l.scoped types env && e.scoped types env
  | .expr e => e.scoped types env
  | .forEach e ps b => e.scoped types env && decide (ps ++ b.lets).Nodup && b.scoped types ((b.lets, []) :: (ps, ps) :: env)
  | .for1 i e b => e.scoped types (([i], [i]) :: env) && decide b.lets.Nodup && b.scoped types ((b.lets, []) :: ([i], [i]) :: env)
  | .ret e => e.scoped types env

/-- The body of a function. -/
def scopedBody (types : List Ident) (env : Env) (ps : List Ident) (b : Stmt) : Bool :=
  decide (ps ++ b.lets).Nodup && b.scoped types ((b.lets, []) :: (ps, ps) :: env)

def Member.scoped (types : List Ident) (env : Env) : Member → Bool
  | .ctor ps b => ps.all (fun p => p.2.scoped types) && scopedBody types env (ps.map (·.1)) b
  | .prop _ t => t.scoped types
  | .getter _ t b => t.scoped types && scopedBody types env [] b
  | .setter _ x t b => t.scoped types && scopedBody types env [x] b
  | .method _ _ x t u b => t.scoped types && u.scoped types && scopedBody types env [x] b

/-- The members of objects of a class, except setters: they must have different names. -/
def Member.members : Member → List Ident
  | .prop n _ => [n]
  | .getter n _ _ => [n]
  | .method static n _ _ _ _ => if static then [] else [n]
  | _ => []

def Item.scoped (types : List Ident) (env : Env) : Item → Bool
  | .cls _ ms => ms.all (Member.scoped types env) && decide (ms.flatMap Member.members).Nodup && decide (ms.flatMap Member.setters).Nodup
  | .enum _ vs => decide (vs.map (·.1)).Nodup
  | .import1 _ _ => true

/-- The names that an item declares in the file. -/
def Item.declared : Item → List Ident
  | .import1 ns _ => ns
  | .enum n _ => [n]
  | .cls n _ => [n]

/-- The types that an item declares. -/
def Item.types : Item → List Ident
  | .import1 _ _ => []
  | .enum n _ => [n]
  | .cls n _ => [n]

/-- The names of the file are declared once, and all names used in it are declared. -/
def Scoped (is : List Item) : Prop :=
  (is.flatMap Item.declared).Nodup ∧
    ∀ i ∈ is, i.scoped (is.flatMap Item.types ++ builtin) [(is.flatMap Item.declared, is.flatMap Item.declared), ([go!"Map"], [go!"Map"])] = true

theorem lookup_here {all ready : List Ident} {rest : Env} {v : Ident} (h : v ∈ ready) (ha : v ∈ all) : lookup ((all, ready) :: rest) v = true := by
  rw [lookup, if_pos ha, decide_eq_true h]

theorem lookup_skip {all ready : List Ident} {rest : Env} {v : Ident} (h : v ∉ all) : lookup ((all, ready) :: rest) v = lookup rest v := by
  rw [lookup, if_neg h]

/-- Statements in sequence. -/
def scopedAll (types : List Ident) : Env → List Stmt → Bool
  | _, [] => true
  | env, s :: ss => s.scoped types env && scopedAll types (declare s.lets env) ss

theorem declare_declare (a b : List Ident) (env : Env) : declare b (declare a env) = declare (a ++ b) env := by
  cases env with
  | nil => rfl
  | cons x rest => obtain ⟨all, ready⟩ := x; simp [declare]

theorem scopedAll_append (types : List Ident) (ss ts : List Stmt) : ∀ env, scopedAll types env (ss ++ ts) =
    (scopedAll types env ss && scopedAll types (declare (ss.flatMap Stmt.lets) env) ts) := by
  induction ss with
  | nil => intro env; cases env <;> simp [scopedAll, declare]
  | cons s ss ih => intro env; simp only [List.cons_append, scopedAll, ih, List.flatMap_cons, declare_declare, Bool.and_assoc]

end TsAst

namespace TsText

open Utils Text TsAst
open Gen (PKind)
open GoText (FieldD MsgD FileD decimal)
open Package (EnumD qualify)

theorem scoped_block (types : List Ident) (ss : List Stmt) : ∀ env, (block ss).scoped types env = scopedAll types env ss := by
  induction ss with
  | nil => intro env; rfl
  | cons s ss ih => intro env; show (Stmt.seq s (block ss)).scoped types env = _; rw [Stmt.scoped, ih]; rfl

/-! ## Names of a message type that keep clear of each other -/

/-- The variables of inner blocks, and of `encode`. -/
def inner : List Ident := [go!"i", go!"element", go!"elementEnum", go!"key", go!"value", go!"valueEnum", go!"field", go!"v", go!"k"]

/-- The names that the code for a field uses from the file: functions of the package, `Kind`, and the class of a message. -/
def uses (f : FieldD) : List Ident :=
  match f.shape with
  | .one _ => if f.kind = .message then [camel f.type] else [encoder f.kind, decoder f.kind]
  | .many => [go!"encodeArray", go!"decodeArray", go!"Kind"] ++ if f.kind = .message then [camel f.type] else [encoder f.kind, decoder f.kind]
  | .map kk => [go!"encodeMap", go!"decodeMap", go!"Kind", go!"Map", encoder kk, decoder kk] ++
      if f.kind = .message then [camel f.type] else [encoder f.kind, decoder f.kind]

/-- What the code for a field finds outside of its function. -/
structure Finds (types : List Ident) (env : Env) (f : FieldD) : Prop where
  uses : ∀ v ∈ uses f, lookup env v = true ∧ v ∉ inner ∧ v ∉ [go!"encoded", go!"decoded", go!"buf"]
  type : f.kind = .message ∨ f.kind = .enum → camel f.type ∈ types

theorem elemTy_scoped {types : List Ident} {env : Env} {f : FieldD} (h : Finds types env f) (hb : ∀ t ∈ builtin, t ∈ types) (hg : f.kind ≠ .group) :
    (elemTy f.kind (camel f.type)).scoped types = true := by
  obtain ⟨n, s, k, t⟩ := f
  cases k <;> first
    | exact absurd rfl hg
    | exact decide_eq_true (hb _ (by decide))
    | exact decide_eq_true (h.type (.inl rfl))
    | exact decide_eq_true (h.type (.inr rfl))

theorem scalarTy_scoped {types : List Ident} (hb : ∀ t ∈ builtin, t ∈ types) (k : PKind) : (scalarTy k).scoped types = true := by
  cases k <;> exact decide_eq_true (hb _ (by decide))

theorem fieldTy_scoped {types : List Ident} {env : Env} {f : FieldD} (h : Finds types env f) (hb : ∀ t ∈ builtin, t ∈ types) (hg : f.kind ≠ .group) :
    (fieldTy f).scoped types = true := by
  have he := elemTy_scoped h hb hg
  unfold fieldTy
  split
  · exact he
  · exact he
  · rw [Ty.scoped, he, scalarTy_scoped hb, decide_eq_true (hb _ (by decide))]; rfl

theorem declare_nil (env : Env) : declare [] env = env := by
  cases env with
  | nil => rfl
  | cons x rest => obtain ⟨all, ready⟩ := x; simp [declare]

/-! ## Pieces of `encode` -/

/-- The scopes in `encode` after its first line. -/
def encEnv (env : Env) : Env := ([go!"encoded"], [go!"encoded"]) :: ([go!"buf"], [go!"buf"]) :: env

theorem enc_finds {env : Env} {v : Ident} (h : lookup env v = true ∧ v ∉ inner ∧ v ∉ [go!"encoded", go!"decoded", go!"buf"]) : lookup (encEnv env) v = true := by
  simp only [List.mem_cons, List.not_mem_nil, or_false, not_or] at h
  rw [encEnv, lookup_skip (by simpa using h.2.2.1), lookup_skip (by simpa using h.2.2.2.2)]
  exact h.1

theorem enc_encoded (env : Env) : lookup (encEnv env) go!"encoded" = true := lookup_here (by decide) (by decide)

/-- In a callback. -/
theorem cb_finds {env : Env} {ps : List Ident} {v : Ident} (hp : v ∉ ps) (h : lookup (encEnv env) v = true) :
    lookup (([], []) :: (ps, ps) :: encEnv env) v = true := by
  rw [lookup_skip (by simp), lookup_skip hp, h]

theorem cb_param {env : Env} {ps : List Ident} {v : Ident} (hp : v ∈ ps) : lookup (([], []) :: (ps, ps) :: encEnv env) v = true := by
  rw [lookup_skip (by simp), lookup_here hp hp]

theorem not_inner {v : Ident} (h : v ∉ inner) (ps : List Ident) (hp : ∀ x ∈ ps, x ∈ inner) : v ∉ ps := fun hv => h (hp v hv)

theorem encValue_scoped {types : List Ident} {env : Env} {f : FieldD} (h : Finds types env f) (hv : f.isValue = true) (hb : ∀ t ∈ builtin, t ∈ types) :
    (encValue (lower f.name) f.kind).scoped types (encEnv env) = true := by
  obtain ⟨n, s, k, t⟩ := f
  cases s <;> simp only [FieldD.isValue, decide_eq_true_eq, Bool.false_eq_true] at hv
  have hk : k ≠ .message := hv
  have he : lookup (encEnv env) (encoder k) = true := enc_finds (h.uses _ (by simp [uses, hk]))
  have h1 := enc_encoded env
  have hn : go!"number" ∈ types := hb _ (by decide)
  cases k <;> first
    | exact absurd rfl hk
    | simp only [he, h1, encValue, setEncoded, Stmt.scoped, encoded, fn, args2, Expr.scoped, Ty.scoped, tnumber, decide_eq_true hn, this, decide_true, Bool.or_true, Bool.true_or, Bool.and_true]

theorem encSlice_scoped {types : List Ident} {env : Env} {f : FieldD} (h : Finds types env f) (hv : f.isSlice = true) :
    scopedAll types (encEnv env) (encSlice (lower f.name) f.kind) = true := by
  obtain ⟨n, s, k, t⟩ := f
  cases s <;> simp only [FieldD.isSlice, Bool.false_eq_true] at hv
  have ha : lookup (encEnv env) go!"encodeArray" = true := enc_finds (h.uses _ (by simp [uses]))
  have hK : lookup (encEnv env) go!"Kind" = true := enc_finds (h.uses _ (by simp [uses]))
  have h1 := enc_encoded env
  have h2 : lookup (([], []) :: ([go!"field"], [go!"field"]) :: encEnv env) go!"encoded" = true := cb_finds (by decide) h1
  have h3 : lookup (([], []) :: ([go!"field"], [go!"field"]) :: encEnv env) go!"field" = true := cb_param (by decide)
  by_cases hk : k = .message
  · subst hk
    simp only [encSlice, block, List.foldr_cons, List.foldr_nil, kindOf, priv, setEncoded, encodeOf, scopedAll, Stmt.scoped, Stmt.lets, declare_nil, encoded, fn, args3, args1,
      Expr.scoped, this, ha, hK, h1, h2, h3, decide_true, Bool.or_true, Bool.true_or, Bool.and_true, List.append_nil, List.nodup_cons, List.not_mem_nil, not_false_eq_true, List.nodup_nil, and_self]
  · have hu := h.uses (encoder k) (by simp [uses, hk])
    have he : lookup (([], []) :: ([go!"field"], [go!"field"]) :: encEnv env) (encoder k) = true := cb_finds (not_inner hu.2.1 _ (by decide)) (enc_finds hu)
    cases k <;> first
      | exact absurd rfl hk
      | simp only [encSlice, block, List.foldr_cons, List.foldr_nil, kindOf, priv, setEncoded, encodeOf, scopedAll, Stmt.scoped, Stmt.lets, declare_nil, encoded, fn, args2, args1,
          Expr.scoped, this, ha, hK, h1, h2, h3, he, decide_true, Bool.or_true, Bool.true_or, Bool.and_true, List.append_nil, List.nodup_cons, List.not_mem_nil, not_false_eq_true, List.nodup_nil, and_self]

theorem encMessage_scoped {types : List Ident} {env : Env} {f : FieldD} (h : Finds types env f) (hv : f.isMessage = true) (hb : ∀ t ∈ builtin, t ∈ types) :
    scopedAll types (encEnv env) (encMessageField f) = true := by
  obtain ⟨n, s, k, t⟩ := f
  have h1 := enc_encoded env
  cases s with
  | one r => simp only [encMessageField, encMessage, encodeOf, priv, scopedAll, Stmt.scoped, encoded, args1, Expr.scoped, this, h1, decide_true, Bool.or_true, Bool.true_or, Bool.and_true]
  | many => cases hv
  | map kk =>
    have ha : lookup (encEnv env) go!"encodeMap" = true := enc_finds (h.uses _ (by simp [uses]))
    have hK : lookup (encEnv env) go!"Kind" = true := enc_finds (h.uses _ (by simp [uses]))
    have hn : go!"number" ∈ types := hb _ (by decide)
    have h2 : lookup (([], []) :: ([go!"v", go!"k"], [go!"v", go!"k"]) :: encEnv env) go!"encoded" = true := cb_finds (by decide) h1
    have h3 : lookup (([], []) :: ([go!"v", go!"k"], [go!"v", go!"k"]) :: encEnv env) go!"k" = true := cb_param (by decide)
    have h4 : lookup (([], []) :: ([go!"v", go!"k"], [go!"v", go!"k"]) :: encEnv env) go!"v" = true := cb_param (by decide)
    have hu := h.uses (encoder kk) (by simp [uses])
    have he : lookup (([], []) :: ([go!"v", go!"k"], [go!"v", go!"k"]) :: encEnv env) (encoder kk) = true := cb_finds (not_inner hu.2.1 _ (by decide)) (enc_finds hu)
    have hp : decide (List.Nodup [go!"v", go!"k"]) = true := by decide
    by_cases hk : k = .message
    · subst hk
      simp only [encMessageField, encMap, block, List.foldr_cons, List.foldr_nil, kindOf, priv, setEncoded, encodeOf, scopedAll, Stmt.scoped, Stmt.lets, declare_nil, encoded, fn, args4, args2, args1,
        Expr.scoped, this, ha, hK, h1, h2, h3, h4, he, hp, decide_true, Bool.or_true, Bool.true_or, Bool.and_true, List.append_nil]
    · have hu' := h.uses (encoder k) (by simp [uses, hk])
      have he' : lookup (([], []) :: ([go!"v", go!"k"], [go!"v", go!"k"]) :: encEnv env) (encoder k) = true := cb_finds (not_inner hu'.2.1 _ (by decide)) (enc_finds hu')
      cases k <;> first
        | exact absurd rfl hk
        | (simp only [encMessageField, encMap, block, List.foldr_cons, List.foldr_nil, kindOf, priv, setEncoded, encodeOf, scopedAll, Stmt.scoped, Stmt.lets, declare_nil, encoded, fn, args4, args2, args1,
            Expr.scoped, Ty.scoped, tnumber, decide_eq_true hn, this, ha, hK, h1, h2, h3, h4, he, he', hp, decide_true, Bool.or_true, Bool.true_or, Bool.and_true, List.append_nil]; try exact he')

/-! ## Pieces of `decode` -/

/-- The scopes in `decode`, which declares `D` and has declared `R` so far. -/
def decEnv (D R : List Ident) (env : Env) : Env := (D, R) :: ([go!"buf"], [go!"buf"]) :: env

/-- The scopes in a loop of `decode`, whose body declares `L`. -/
def loopEnv (L M : List Ident) (env : Env) : Env := (L, M) :: ([go!"i"], [go!"i"]) :: env

/-- What the variables of `decode` are assumed to be. -/
structure Vars (D : List Ident) (f : FieldD) : Prop where
  decoded : go!"decoded" ∈ D
  locals : ∀ v ∈ localsOf f, v ∈ D
  inner : ∀ v ∈ D, v ∉ inner
  uses : ∀ v ∈ uses f, v ∉ D

theorem dec_finds {D R : List Ident} {env : Env} {v : Ident} (hD : v ∉ D) (h : lookup env v = true ∧ v ∉ inner ∧ v ∉ [go!"encoded", go!"decoded", go!"buf"]) :
    lookup (decEnv D R env) v = true := by
  simp only [List.mem_cons, List.not_mem_nil, or_false, not_or] at h
  rw [decEnv, lookup_skip hD, lookup_skip (by simpa using h.2.2.2.2)]
  exact h.1

theorem dec_local {D R : List Ident} {env : Env} {v : Ident} (hR : v ∈ R) (hD : v ∈ D) : lookup (decEnv D R env) v = true := lookup_here hR hD

/-- Outer names in a loop. -/
theorem loop_finds {L M : List Ident} {env : Env} {v : Ident} (hL : ∀ x ∈ L, x ∈ inner) (hv : v ∉ inner) (h : lookup env v = true) :
    lookup (loopEnv L M env) v = true := by
  rw [loopEnv, lookup_skip (fun hx => hv (hL v hx)), lookup_skip (not_inner hv _ (by decide)), h]

theorem loop_local {L M : List Ident} {env : Env} {v : Ident} (hM : v ∈ M) (hL : v ∈ L) : lookup (loopEnv L M env) v = true := lookup_here hM hL

theorem declare_dec (ns D R : List Ident) (env : Env) : declare ns (decEnv D R env) = decEnv D (R ++ ns) env := rfl
theorem declare_loop (ns D R : List Ident) (env : Env) : declare ns (loopEnv D R env) = loopEnv D (R ++ ns) env := rfl

theorem temp_mem {f : FieldD} {D : List Ident} (h : Vars D f) : temp (lower f.name) ∈ D := by
  refine h.locals _ ?_
  unfold localsOf
  split
  · split <;> simp
  · simp

/-- `x.value` -/
theorem mem_right {v : Ident} (R : List Ident) {l : List Ident} (h : v ∈ l) : v ∈ R ++ l := List.mem_append_right _ h

theorem decOther_scoped {types : List Ident} {env : Env} {f : FieldD} {D R : List Ident} (h : Finds types env f) (hv : f.isValue = true) (hg : f.kind ≠ .group)
    (hb : ∀ t ∈ builtin, t ∈ types) (hV : Vars D f) (hR : go!"decoded" ∈ R) :
    scopedAll types (decEnv D R env) (decOther (lower f.name) f.kind (camel f.type)) = true := by
  obtain ⟨n, s, k, t⟩ := f
  cases s <;> simp only [FieldD.isValue, decide_eq_true_eq, Bool.false_eq_true] at hv
  have hk : k ≠ .message := hv
  have hd : ∀ l, lookup (decEnv D (R ++ l) env) go!"decoded" = true := fun l => dec_local (List.mem_append_left _ hR) hV.decoded
  have hd0 : lookup (decEnv D R env) go!"decoded" = true := dec_local hR hV.decoded
  have he : lookup (decEnv D R env) (decoder k) = true := dec_finds (hV.uses _ (by simp [uses, hk])) (h.uses _ (by simp [uses, hk]))
  by_cases hen : k = .enum
  · subst hen
    have hraw : lower n ++ go!"U32" ∈ D := hV.locals _ (by simp [localsOf])
    have ht : (elemTy .enum (camel t)).scoped types = true := elemTy_scoped h hb hg
    have h1 : ∀ l, lookup (decEnv D (R ++ [lower n ++ go!"U32"] ++ l) env) (lower n ++ go!"U32") = true := fun l => dec_local (by simp) hraw
    have h1' : lookup (decEnv D (R ++ [lower n ++ go!"U32"]) env) (lower n ++ go!"U32") = true := dec_local (by simp) hraw
    have h2 : ∀ l m, lookup (decEnv D (R ++ l ++ m) env) go!"decoded" = true := fun l m => dec_local (by simp [hR]) hV.decoded
    have he' : lookup (decEnv D R env) go!"decodeUint32" = true := he
    simp only [decOther, readInto, scopedAll, Stmt.scoped, Stmt.lets, declare_dec, setDecoded, bufOf, fn, args1, Expr.scoped, decoded, hd0, h2, he', h1, h1', ht,
      Bool.or_true, Bool.and_true]
  · have htm : temp (lower n) ∈ D := temp_mem hV
    have h1 : lookup (decEnv D (R ++ [temp (lower n)]) env) (temp (lower n)) = true := dec_local (by simp) htm
    cases k <;> first
      | exact absurd rfl hk
      | exact absurd rfl hen
      | simp only [decOther, readInto, scopedAll, Stmt.scoped, Stmt.lets, declare_dec, setDecoded, bufOf, fn, args1, Expr.scoped, decoded, hd, hd0, he, h1,
          Bool.or_true, Bool.and_true]

theorem declare_cons (ns all ready : List Ident) (rest : Env) : declare ns ((all, ready) :: rest) = (all, ready ++ ns) :: rest := rfl

/-- What reading an element declares. -/
theorem readInto_lets (n raw : Ident) (buf : Expr) (k : PKind) (t : Ident) (ty : Ty) :
    (readInto n raw buf k t ty).flatMap Stmt.lets = if k = .enum then [raw, n] else [n] := by
  cases k <;> rfl

/-- Reading an element in a loop. -/
theorem readInto_scoped {types : List Ident} {outer : Env} {L M : List Ident} {n raw : Ident} {buf : Expr} {k : PKind} {t : Ident} {ty : Ty}
    (hL : ∀ x ∈ L, x ∈ inner) (hn : n ∈ L) (hraw : k = .enum → raw ∈ L) (hty : k = .enum → ty.scoped types = true)
    (hd : lookup outer go!"decoded" = true)
    (hu : if k = .message then lookup outer t = true ∧ t ∉ inner else lookup outer (decoder k) = true ∧ decoder k ∉ inner)
    (hbuf : k = .enum → buf.scoped types (loopEnv L (M ++ [raw] ++ [n]) outer) = true) :
    scopedAll types (loopEnv L M outer) (readInto n raw buf k t ty) = true := by
  have d : ∀ M, lookup (loopEnv L M outer) go!"decoded" = true := fun M => loop_finds hL (by decide) hd
  have e : lookup (loopEnv L (M ++ [n]) outer) n = true := loop_local (by simp) hn
  by_cases hk : k = .message
  · subst hk
    rw [if_pos rfl] at hu
    have f := loop_finds (M := M) hL hu.2 hu.1
    simp only [readInto, scopedAll, Stmt.scoped, Stmt.lets, declare_loop, setDecoded, bufOf, decodeOf, args1, Expr.scoped, decoded, d, e, f, Bool.or_true, Bool.and_true]
  · rw [if_neg hk] at hu
    have f := loop_finds (M := M) hL hu.2 hu.1
    by_cases hen : k = .enum
    · subst hen
      have f' : lookup (loopEnv L M outer) go!"decodeUint32" = true := f
      have g : lookup (loopEnv L (M ++ [raw]) outer) raw = true := loop_local (by simp) (hraw rfl)
      simp only [readInto, scopedAll, Stmt.scoped, Stmt.lets, declare_loop, setDecoded, fn, args1, Expr.scoped, decoded, d, f', g, hbuf rfl, hty rfl, Bool.or_true, Bool.and_true]
    · have hr : readInto n raw buf k t ty = [Stmt.let1 n (fn (decoder k) (args1 decoded)), setDecoded (bufOf n)] := by
        cases k <;> first | exact absurd rfl hk | exact absurd rfl hen | rfl
      rw [hr]
      simp only [scopedAll, Stmt.scoped, Stmt.lets, declare_loop, setDecoded, bufOf, fn, args1, Expr.scoped, decoded, d, e, f, Bool.or_true, Bool.and_true]

/-- The scopes of `decode` as seen from a loop of the code for a field. -/
structure Outer (types : List Ident) (outer : Env) (f : FieldD) : Prop where
  decoded : lookup outer go!"decoded" = true
  name : lookup outer (lower f.name) = true ∧ lower f.name ∉ inner
  temp : lookup outer (temp (lower f.name)) = true ∧ temp (lower f.name) ∉ inner
  uses : ∀ v ∈ uses f, lookup outer v = true ∧ v ∉ inner
  elem : (elemTy f.kind (camel f.type)).scoped types = true

theorem Outer.read {types : List Ident} {outer : Env} {f : FieldD} (h : Outer types outer f) (hs : f.isSlice = true ∨ f.isMessage = true ∧ ∃ kk, f.shape = .map kk) :
    if f.kind = .message then lookup outer (camel f.type) = true ∧ camel f.type ∉ inner else lookup outer (decoder f.kind) = true ∧ decoder f.kind ∉ inner := by
  obtain ⟨n, s, k, t⟩ := f
  cases s with
  | one r => simp [FieldD.isSlice] at hs
  | many =>
    by_cases hk : k = .message
    · rw [if_pos hk]; exact h.uses _ (by simp [TsText.uses, hk])
    · rw [if_neg hk]; exact h.uses _ (by simp [TsText.uses, hk])
  | map kk =>
    by_cases hk : k = .message
    · rw [if_pos hk]; exact h.uses _ (by simp [TsText.uses, hk])
    · rw [if_neg hk]; exact h.uses _ (by simp [TsText.uses, hk])

theorem outer_of {types : List Ident} {env : Env} {f : FieldD} {D R : List Ident} (h : Finds types env f) (hg : f.kind ≠ .group)
    (hb : ∀ t ∈ builtin, t ∈ types) (hV : Vars D f) (hR : go!"decoded" ∈ R) (hn : lower f.name ∈ D) (hm : lower f.name ∈ R) (ht : temp (lower f.name) ∈ R) :
    Outer types (decEnv D R env) f where
  decoded := dec_local hR hV.decoded
  name := ⟨dec_local hm hn, hV.inner _ hn⟩
  temp := ⟨dec_local ht (temp_mem hV), hV.inner _ (temp_mem hV)⟩
  uses v hv := ⟨dec_finds (hV.uses v hv) (h.uses v hv), (h.uses v hv).2.1⟩
  elem := elemTy_scoped h hb hg

theorem loop_if {k : PKind} {a b : Ident} (ha : a ∈ inner) (hb : b ∈ inner) : ∀ x ∈ (if k = .enum then [a, b] else [b]), x ∈ inner := by
  intro x hx
  split at hx
  · rcases List.mem_cons.mp hx with rfl | hx
    · exact ha
    · rw [List.mem_singleton] at hx; subst hx; exact hb
  · rw [List.mem_singleton] at hx; subst hx; exact hb

theorem if_last {k : PKind} {a b : Ident} : b ∈ (if k = .enum then [a, b] else [b]) := by split <;> simp

theorem sliceLoop_scoped {types : List Ident} {outer : Env} {f : FieldD} (hv : f.isSlice = true) (h : Outer types outer f) :
    scopedAll types outer [.for1 go!"i" (.field (.var (lower f.name)) go!"size") (block (
      readInto go!"element" go!"elementEnum" (.field (.var go!"element") go!"bufEnum") f.kind (camel f.type) (.arr (elemTy f.kind (camel f.type))) ++
      [.expr (.call (.field (valueOf (temp (lower f.name))) go!"push") (args1 (valueOf go!"element")))]))] = true := by
  have hl := readInto_lets go!"element" go!"elementEnum" (.field (.var go!"element") go!"bufEnum") f.kind (camel f.type) (.arr (elemTy f.kind (camel f.type)))
  have hi : ∀ x ∈ (if f.kind = .enum then [go!"elementEnum", go!"element"] else [go!"element"]), x ∈ inner := loop_if (by decide) (by decide)
  have h0 : lookup (([go!"i"], [go!"i"]) :: outer) (lower f.name) = true := by rw [lookup_skip (not_inner h.name.2 _ (by decide)), h.name.1]
  have hnd : decide (if f.kind = .enum then [go!"elementEnum", go!"element"] else [go!"element"]).Nodup = true := by split <;> decide
  have hr := readInto_scoped (M := []) (raw := go!"elementEnum") (buf := .field (.var go!"element") go!"bufEnum") (ty := .arr (elemTy f.kind (camel f.type))) (types := types)
    hi (if_last (b := go!"element")) (fun hk => by rw [if_pos hk]; exact List.mem_cons_self ..) (fun _ => h.elem) h.decoded (h.read (.inl hv))
    (fun hk => by
      simp only [Expr.scoped, Bool.or_eq_true]
      exact .inr (loop_local (by simp) (if_last)))
  have ht : lookup (loopEnv (if f.kind = .enum then [go!"elementEnum", go!"element"] else [go!"element"]) ([] ++ if f.kind = .enum then [go!"elementEnum", go!"element"] else [go!"element"]) outer)
      (temp (lower f.name)) = true := loop_finds hi h.temp.2 h.temp.1
  have he : lookup (loopEnv (if f.kind = .enum then [go!"elementEnum", go!"element"] else [go!"element"]) ([] ++ if f.kind = .enum then [go!"elementEnum", go!"element"] else [go!"element"]) outer)
      go!"element" = true := loop_local (List.mem_append_right _ if_last) if_last
  rw [scopedAll, scopedAll, Bool.and_true, Stmt.scoped, lets_block, scoped_block, List.flatMap_append, hl, scopedAll_append, hl]
  have hnil : [Stmt.expr (.call (.field (valueOf (temp (lower f.name))) go!"push") (args1 (valueOf go!"element")))].flatMap Stmt.lets = [] := rfl
  rw [hnil, List.append_nil, hnd]
  have hr' : scopedAll types ((if f.kind = .enum then [go!"elementEnum", go!"element"] else [go!"element"], []) :: ([go!"i"], [go!"i"]) :: outer)
    (readInto go!"element" go!"elementEnum" (.field (.var go!"element") go!"bufEnum") f.kind (camel f.type) (.arr (elemTy f.kind (camel f.type)))) = true := hr
  rw [hr']
  have hlast : scopedAll types (loopEnv (if f.kind = .enum then [go!"elementEnum", go!"element"] else [go!"element"]) ([] ++ if f.kind = .enum then [go!"elementEnum", go!"element"] else [go!"element"]) outer)
      [Stmt.expr (.call (.field (valueOf (temp (lower f.name))) go!"push") (args1 (valueOf go!"element")))] = true := by
    simp only [scopedAll, Stmt.scoped, valueOf, args1, Expr.scoped, ht, he, Bool.or_true, Bool.and_true]
  have hlast' : scopedAll types (declare (if f.kind = .enum then [go!"elementEnum", go!"element"] else [go!"element"])
      ((if f.kind = .enum then [go!"elementEnum", go!"element"] else [go!"element"], []) :: ([go!"i"], [go!"i"]) :: outer))
      [Stmt.expr (.call (.field (valueOf (temp (lower f.name))) go!"push") (args1 (valueOf go!"element")))] = true := hlast
  rw [hlast']
  simp only [Expr.scoped, h0, Bool.or_true, Bool.and_true]

theorem decSlice_scoped {types : List Ident} {env : Env} {f : FieldD} {D R : List Ident} (h : Finds types env f) (hv : f.isSlice = true) (hg : f.kind ≠ .group)
    (hb : ∀ t ∈ builtin, t ∈ types) (hV : Vars D f) (hR : go!"decoded" ∈ R) :
    scopedAll types (decEnv D R env) (decSlice (lower f.name) f.kind (camel f.type)) = true := by
  have hu : ∀ v ∈ [go!"encodeArray", go!"decodeArray", go!"Kind"], v ∈ uses f := by
    obtain ⟨n, s, k, t⟩ := f
    cases s <;> simp only [FieldD.isSlice, Bool.false_eq_true] at hv
    intro v hv
    exact List.mem_append_left _ hv
  have hn : lower f.name ∈ D := hV.locals _ (by
    obtain ⟨n, s, k, t⟩ := f
    cases s <;> simp only [FieldD.isSlice, Bool.false_eq_true] at hv
    simp [localsOf])
  have htm := temp_mem hV
  have a1 : lookup (decEnv D R env) go!"decodeArray" = true := dec_finds (hV.uses _ (hu _ (by simp))) (h.uses _ (hu _ (by simp)))
  have a2 : lookup (decEnv D R env) go!"decoded" = true := dec_local hR hV.decoded
  have a3 : lookup (decEnv D (R ++ [lower f.name]) env) go!"decoded" = true := dec_local (by simp [hR]) hV.decoded
  have a4 : lookup (decEnv D (R ++ [lower f.name]) env) (lower f.name) = true := dec_local (by simp) hn
  have ht : (elemTy f.kind (camel f.type)).scoped types = true := elemTy_scoped h hb hg
  have hl := sliceLoop_scoped hv (outer_of (R := R ++ [lower f.name] ++ [temp (lower f.name)]) h hg hb hV (by simp [hR]) hn (by simp) (by simp))
  rw [decSlice]
  show scopedAll types _ ([_, _, _] ++ [_]) = true
  rw [scopedAll_append]
  have e : ([Stmt.let1 (lower f.name) (fn go!"decodeArray" (args1 decoded)), setDecoded (bufOf (lower f.name)),
      Stmt.constT (temp (lower f.name)) (.obj1 go!"value" (.arr (elemTy f.kind (camel f.type)))) (.obj1 go!"value" .empty)]).flatMap Stmt.lets = [lower f.name] ++ [temp (lower f.name)] := rfl
  rw [e, declare_dec, ← List.append_assoc, hl, Bool.and_true]
  simp only [scopedAll, Stmt.scoped, Stmt.lets, declare_dec, declare_nil, setDecoded, bufOf, fn, args1, Expr.scoped, Ty.scoped, decoded, a1, a2, a3, a4, ht, Bool.or_true, Bool.and_true]

theorem mapLoop_scoped {types : List Ident} {outer : Env} {f : FieldD} {kk : PKind} (hs : f.shape = .map kk) (h : Outer types outer f) :
    scopedAll types outer [.for1 go!"i" (.field (.var (lower f.name)) go!"size") (block (
      [.let1 go!"key" (fn (decoder kk) (args1 decoded)), setDecoded (bufOf go!"key")] ++
      readInto go!"value" go!"valueEnum" (bufOf go!"valueEnum") f.kind (camel f.type) (elemTy f.kind (camel f.type)) ++
      [.expr (.call (.field (valueOf (lower f.name)) go!"set") (args2 (.var go!"key") (.var go!"value")))]))] = true := by
  have hm : f.isMessage = true := by
    obtain ⟨n, s, k, t⟩ := f
    simp only at hs
    subst hs
    rfl
  have hkk : decoder kk ∈ uses f := by
    obtain ⟨n, s, k, t⟩ := f
    simp only at hs
    subst hs
    simp [uses]
  generalize hA : (if f.kind = .enum then [go!"valueEnum", go!"value"] else [go!"value"]) = A
  have hl := readInto_lets go!"value" go!"valueEnum" (bufOf go!"valueEnum") f.kind (camel f.type) (elemTy f.kind (camel f.type))
  rw [hA] at hl
  have hvA : go!"value" ∈ A := by rw [← hA]; exact if_last
  have hi : ∀ x ∈ go!"key" :: A, x ∈ inner := by
    intro x hx
    rcases List.mem_cons.mp hx with rfl | hx
    · decide
    · rw [← hA] at hx; exact loop_if (by decide) (by decide) x hx
  have h0 : lookup (([go!"i"], [go!"i"]) :: outer) (lower f.name) = true := by rw [lookup_skip (not_inner h.name.2 _ (by decide)), h.name.1]
  have hnd : decide (go!"key" :: A).Nodup = true := by rw [← hA]; split <;> decide
  have hr := readInto_scoped (M := [go!"key"]) (L := go!"key" :: A) (n := go!"value") (raw := go!"valueEnum") (buf := bufOf go!"valueEnum") (ty := elemTy f.kind (camel f.type)) (types := types)
    hi (List.mem_cons_of_mem _ hvA) (fun hk => by rw [← hA, if_pos hk]; simp) (fun _ => h.elem) h.decoded (h.read (.inr ⟨hm, kk, hs⟩))
    (fun hk => by
      simp only [bufOf, Expr.scoped, Bool.or_eq_true]
      refine .inr (loop_local (by simp) ?_)
      rw [← hA, if_pos hk]
      simp)
  have k1 : lookup (loopEnv (go!"key" :: A) [] outer) (decoder kk) = true := loop_finds hi (h.uses _ hkk).2 (h.uses _ hkk).1
  have k2 : lookup (loopEnv (go!"key" :: A) [] outer) go!"decoded" = true := loop_finds hi (by decide) h.decoded
  have k3 : lookup (loopEnv (go!"key" :: A) ([] ++ [go!"key"]) outer) go!"decoded" = true := loop_finds hi (by decide) h.decoded
  have k4 : lookup (loopEnv (go!"key" :: A) ([] ++ [go!"key"]) outer) go!"key" = true := loop_local (by simp) (by simp)
  have hfirst : scopedAll types (loopEnv (go!"key" :: A) [] outer) [.let1 go!"key" (fn (decoder kk) (args1 decoded)), setDecoded (bufOf go!"key")] = true := by
    simp only [scopedAll, Stmt.scoped, Stmt.lets, declare_loop, setDecoded, bufOf, fn, args1, Expr.scoped, decoded, k1, k2, k3, k4, Bool.or_true, Bool.and_true]
  have hlast : scopedAll types (loopEnv (go!"key" :: A) ([go!"key"] ++ A) outer)
      [Stmt.expr (.call (.field (valueOf (lower f.name)) go!"set") (args2 (.var go!"key") (.var go!"value")))] = true := by
    have e1 : lookup (loopEnv (go!"key" :: A) ([go!"key"] ++ A) outer) (lower f.name) = true := loop_finds hi h.name.2 h.name.1
    have e2 : lookup (loopEnv (go!"key" :: A) ([go!"key"] ++ A) outer) go!"key" = true := loop_local (by simp) (by simp)
    have e3 : lookup (loopEnv (go!"key" :: A) ([go!"key"] ++ A) outer) go!"value" = true := loop_local (List.mem_append_right _ hvA) (List.mem_cons_of_mem _ hvA)
    simp only [scopedAll, Stmt.scoped, valueOf, args2, Expr.scoped, e1, e2, e3, Bool.or_true, Bool.and_true]
  have hall : ([Stmt.let1 go!"key" (fn (decoder kk) (args1 decoded)), setDecoded (bufOf go!"key")] ++
      readInto go!"value" go!"valueEnum" (bufOf go!"valueEnum") f.kind (camel f.type) (elemTy f.kind (camel f.type)) ++
      [Stmt.expr (.call (.field (valueOf (lower f.name)) go!"set") (args2 (.var go!"key") (.var go!"value")))]).flatMap Stmt.lets = go!"key" :: A := by
    rw [List.flatMap_append, List.flatMap_append, hl]
    simp [Stmt.lets, setDecoded]
  have hbody : scopedAll types (loopEnv (go!"key" :: A) [] outer) ([Stmt.let1 go!"key" (fn (decoder kk) (args1 decoded)), setDecoded (bufOf go!"key")] ++
      readInto go!"value" go!"valueEnum" (bufOf go!"valueEnum") f.kind (camel f.type) (elemTy f.kind (camel f.type)) ++
      [Stmt.expr (.call (.field (valueOf (lower f.name)) go!"set") (args2 (.var go!"key") (.var go!"value")))]) = true := by
    rw [scopedAll_append, scopedAll_append, hfirst, List.flatMap_append, hl]
    have e : [Stmt.let1 go!"key" (fn (decoder kk) (args1 decoded)), setDecoded (bufOf go!"key")].flatMap Stmt.lets = [go!"key"] := rfl
    rw [e, declare_loop, declare_loop]
    have hr' : scopedAll types (loopEnv (go!"key" :: A) ([] ++ [go!"key"]) outer)
      (readInto go!"value" go!"valueEnum" (bufOf go!"valueEnum") f.kind (camel f.type) (elemTy f.kind (camel f.type))) = true := hr
    rw [hr']
    exact hlast
  rw [scopedAll, scopedAll, Bool.and_true, Stmt.scoped, lets_block, scoped_block, hall, hnd]
  have hbody' : scopedAll types ((go!"key" :: A, []) :: ([go!"i"], [go!"i"]) :: outer) ([Stmt.let1 go!"key" (fn (decoder kk) (args1 decoded)), setDecoded (bufOf go!"key")] ++
      readInto go!"value" go!"valueEnum" (bufOf go!"valueEnum") f.kind (camel f.type) (elemTy f.kind (camel f.type)) ++
      [Stmt.expr (.call (.field (valueOf (lower f.name)) go!"set") (args2 (.var go!"key") (.var go!"value")))]) = true := hbody
  rw [hbody']
  simp only [Expr.scoped, h0, Bool.or_true, Bool.and_true]

theorem decMessage_scoped {types : List Ident} {env : Env} {f : FieldD} {D R : List Ident} (h : Finds types env f) (hv : f.isMessage = true) (hg : f.kind ≠ .group)
    (hb : ∀ t ∈ builtin, t ∈ types) (hV : Vars D f) (hR : go!"decoded" ∈ R) :
    scopedAll types (decEnv D R env) (decMessageField f) = true := by
  have htm := temp_mem hV
  have a2 : lookup (decEnv D R env) go!"decoded" = true := dec_local hR hV.decoded
  cases hs : f.shape with
  | one r =>
    have hk : f.kind = .message := by simpa [FieldD.isMessage, hs] using hv
    have hu : camel f.type ∈ uses f := by rw [uses, hs]; simp [hk]
    have a1 : lookup (decEnv D R env) (camel f.type) = true := dec_finds (hV.uses _ hu) (h.uses _ hu)
    have a3 : lookup (decEnv D (R ++ [temp (lower f.name)]) env) go!"decoded" = true := dec_local (by simp [hR]) hV.decoded
    have a4 : lookup (decEnv D (R ++ [temp (lower f.name)]) env) (temp (lower f.name)) = true := dec_local (by simp) htm
    have e : decMessageField f = decMessage (lower f.name) (camel f.type) := by rw [decMessageField, hs]
    rw [e]
    simp only [decMessage, scopedAll, Stmt.scoped, Stmt.lets, declare_dec, setDecoded, bufOf, decodeOf, args1, Expr.scoped, decoded, a1, a2, a3, a4, Bool.or_true, Bool.and_true]
  | many => rw [FieldD.isMessage, hs] at hv; cases hv
  | map kk =>
    have hu : ∀ v ∈ [go!"encodeMap", go!"decodeMap", go!"Kind", go!"Map"], v ∈ uses f := by
      intro v hv'
      rw [uses, hs]
      simp only [List.mem_append]
      left
      simp only [List.mem_cons, List.not_mem_nil, or_false] at hv' ⊢
      rcases hv' with rfl | rfl | rfl | rfl <;> simp
    have hn : lower f.name ∈ D := hV.locals _ (by rw [localsOf, hs]; simp)
    have a1 : lookup (decEnv D R env) go!"decodeMap" = true := dec_finds (hV.uses _ (hu _ (by simp))) (h.uses _ (hu _ (by simp)))
    have aM : lookup (decEnv D (R ++ [lower f.name]) env) go!"Map" = true := dec_finds (hV.uses _ (hu _ (by simp))) (h.uses _ (hu _ (by simp)))
    have a3 : lookup (decEnv D (R ++ [lower f.name]) env) go!"decoded" = true := dec_local (by simp [hR]) hV.decoded
    have a4 : lookup (decEnv D (R ++ [lower f.name]) env) (lower f.name) = true := dec_local (by simp) hn
    have ht : (elemTy f.kind (camel f.type)).scoped types = true := elemTy_scoped h hb hg
    have hl := mapLoop_scoped hs (outer_of (R := R ++ [lower f.name] ++ [temp (lower f.name)]) h hg hb hV (by simp [hR]) hn (by simp) (by simp))
    have e0 : decMessageField f = decMap (lower f.name) kk f.kind (camel f.type) := by rw [decMessageField, hs]
    rw [e0, decMap]
    show scopedAll types _ ([_, _, _] ++ [_]) = true
    rw [scopedAll_append]
    have e : ([Stmt.let1 (lower f.name) (fn go!"decodeMap" (args1 decoded)), setDecoded (bufOf (lower f.name)),
        Stmt.constT (temp (lower f.name)) (.obj1 go!"value" (.map (scalarTy kk) (elemTy f.kind (camel f.type)))) (.obj1 go!"value" (.new go!"Map" false args0))]).flatMap Stmt.lets =
        [lower f.name] ++ [temp (lower f.name)] := rfl
    rw [e, declare_dec, ← List.append_assoc, hl, Bool.and_true]
    simp only [scopedAll, Stmt.scoped, Stmt.lets, declare_dec, List.append_nil, setDecoded, bufOf, fn, args1, args0, Expr.scoped, Ty.scoped, decoded, a1, a2, a3, a4, aM, ht,
      scalarTy_scoped hb, decide_eq_true (hb go!"Map" (by decide)), Bool.or_true, Bool.and_true]

/-! ## Classes -/

/-- A message type whose names keep clear of each other and of the names of the file. -/
structure Clear (types : List Ident) (env : Env) (full : Bytes) (fs : List FieldD) : Prop where
  fields : ∀ f ∈ fs, Finds types env f ∧ f.kind ≠ .group
  self : lookup env (camel full) = true ∧ camel full ∈ types ∧ camel full ∉ inner ∧ camel full ≠ go!"buf"
  /-- no two members have one name, counting `encode` and the private members -/
  members : ((fs.flatMap fun f : FieldD => [go!"_" ++ lower f.name, lower f.name]) ++ [go!"encode"]).Nodup
  /-- `decode` declares no variable twice -/
  locals : (go!"buf" :: (classOf (full, fs)).decodes).Nodup
  inner : ∀ v ∈ (classOf (full, fs)).decodes, v ∉ inner
  /-- and none that the file declares and the code uses -/
  outer : ∀ v ∈ (classOf (full, fs)).decodes, v ≠ camel full ∧ ∀ f ∈ fs, v ∉ uses f

theorem lets_encode (fs : List FieldD) :
    ([Stmt.let1 go!"encoded" (.var go!"buf")] ++ (fs.filter FieldD.isValue).map (fun f : FieldD => encValue (lower f.name) f.kind) ++
    (fs.filter FieldD.isSlice).flatMap (fun f : FieldD => encSlice (lower f.name) f.kind) ++
    (fs.filter FieldD.isMessage).flatMap encMessageField ++ [Stmt.ret encoded]).flatMap Stmt.lets = [go!"encoded"] := by
  have h1 : ((fs.filter FieldD.isValue).map (fun f : FieldD => encValue (lower f.name) f.kind)).flatMap Stmt.lets = [] := by
    rw [List.flatMap_map]
    exact flatMap_nil' fun _ _ => rfl
  have h2 : ((fs.filter FieldD.isSlice).flatMap (fun f : FieldD => encSlice (lower f.name) f.kind)).flatMap Stmt.lets = [] := by
    rw [List.flatMap_assoc]
    refine flatMap_nil' fun f _ => ?_
    obtain ⟨n, s, k, t⟩ := f
    cases k <;> rfl
  have h3 : ((fs.filter FieldD.isMessage).flatMap encMessageField).flatMap Stmt.lets = [] := by
    rw [List.flatMap_assoc]
    refine flatMap_nil' fun f _ => ?_
    obtain ⟨n, s, k, t⟩ := f
    cases s <;> rfl
  simp only [List.flatMap_append, h1, h2, h3]
  rfl

/-- Pieces that declare nothing. -/
theorem scopedAll_flat {types : List Ident} {env : Env} {fs : List FieldD} {g : FieldD → List Stmt} (hl : ∀ f ∈ fs, (g f).flatMap Stmt.lets = [])
    (h : ∀ f ∈ fs, scopedAll types env (g f) = true) : scopedAll types env (fs.flatMap g) = true := by
  induction fs with
  | nil => rfl
  | cons f fs ih =>
    rw [List.flatMap_cons, scopedAll_append, hl f (List.mem_cons_self ..), declare_nil, h f (List.mem_cons_self ..),
      ih (fun g hg => hl g (List.mem_cons_of_mem _ hg)) (fun g hg => h g (List.mem_cons_of_mem _ hg))]
    rfl

/-- Pieces that declare their variables. -/
theorem scopedAll_decl {types : List Ident} {env : Env} {D : List Ident} {fs : List FieldD} {g : FieldD → List Stmt} (hl : ∀ f ∈ fs, (g f).flatMap Stmt.lets = localsOf f)
    (h : ∀ f ∈ fs, ∀ R, go!"decoded" ∈ R → scopedAll types (decEnv D R env) (g f) = true) :
    ∀ R, go!"decoded" ∈ R → scopedAll types (decEnv D R env) (fs.flatMap g) = true := by
  induction fs with
  | nil => intro _ _; rfl
  | cons f fs ih =>
    intro R hR
    rw [List.flatMap_cons, scopedAll_append, hl f (List.mem_cons_self ..), declare_dec, h f (List.mem_cons_self ..) R hR,
      ih (fun g hg => hl g (List.mem_cons_of_mem _ hg)) (fun g hg => h g (List.mem_cons_of_mem _ hg)) _ (by simp [hR])]
    rfl

theorem encode_scoped {types : List Ident} {env : Env} {full : Bytes} {fs : List FieldD} (h : Clear types env full fs) (hb : ∀ t ∈ builtin, t ∈ types) :
    (encodeMethod fs).scoped types env = true := by
  have hbuf : (tbuf).scoped types = true := decide_eq_true (hb _ (by decide))
  rw [encodeMethod, Member.scoped, hbuf, scopedBody, lets_block, scoped_block, lets_encode]
  have hbody : scopedAll types (([go!"encoded"], []) :: ([go!"buf"], [go!"buf"]) :: env)
      ([Stmt.let1 go!"encoded" (.var go!"buf")] ++ (fs.filter FieldD.isValue).map (fun f : FieldD => encValue (lower f.name) f.kind) ++
      (fs.filter FieldD.isSlice).flatMap (fun f : FieldD => encSlice (lower f.name) f.kind) ++
      (fs.filter FieldD.isMessage).flatMap encMessageField ++ [Stmt.ret encoded]) = true := by
    simp only [List.append_assoc]
    rw [scopedAll_append]
    have e1 : scopedAll types (([go!"encoded"], []) :: ([go!"buf"], [go!"buf"]) :: env) [Stmt.let1 go!"encoded" (.var go!"buf")] = true := by
      have : lookup (([go!"encoded"], []) :: ([go!"buf"], [go!"buf"]) :: env) go!"buf" = true := by
        rw [lookup_skip (by decide), lookup_here (by decide) (by decide)]
      simp only [scopedAll, Stmt.scoped, Expr.scoped, this, Bool.or_true, Bool.and_true]
    rw [e1]
    show scopedAll types (encEnv env) _ = true
    have hv : ((fs.filter FieldD.isValue).map fun f => encValue (lower f.name) f.kind) = (fs.filter FieldD.isValue).flatMap fun f : FieldD => [encValue (lower f.name) f.kind] := (flatMap_single _ _).symm
    rw [hv, scopedAll_append, scopedAll_append, scopedAll_append]
    have l1 : ∀ f ∈ fs.filter FieldD.isValue, ([encValue (lower f.name) f.kind]).flatMap Stmt.lets = [] := fun _ _ => rfl
    have l2 : ∀ f ∈ fs.filter FieldD.isSlice, (encSlice (lower f.name) f.kind).flatMap Stmt.lets = [] := by
      intro f _
      obtain ⟨n, s, k, t⟩ := f
      cases k <;> rfl
    have l3 : ∀ f ∈ fs.filter FieldD.isMessage, (encMessageField f).flatMap Stmt.lets = [] := by
      intro f _
      obtain ⟨n, s, k, t⟩ := f
      cases s <;> rfl
    rw [List.flatMap_assoc, List.flatMap_assoc, List.flatMap_assoc, flatMap_nil' l1, flatMap_nil' l2, flatMap_nil' l3]
    simp only [declare_nil]
    rw [scopedAll_flat l1 fun f hf => by
        rw [scopedAll, scopedAll, Bool.and_true]
        exact encValue_scoped (h.fields f (List.mem_filter.mp hf).1).1 (List.mem_filter.mp hf).2 hb,
      scopedAll_flat l2 fun f hf => encSlice_scoped (h.fields f (List.mem_filter.mp hf).1).1 (List.mem_filter.mp hf).2,
      scopedAll_flat l3 fun f hf => encMessage_scoped (h.fields f (List.mem_filter.mp hf).1).1 (List.mem_filter.mp hf).2 hb]
    simp only [scopedAll, Stmt.scoped, encoded, Expr.scoped, enc_encoded, Bool.or_true, Bool.and_true]
  rw [hbody]
  decide

theorem decode_scoped {types : List Ident} {env : Env} {full : Bytes} {fs : List FieldD} (h : Clear types env full fs) (hb : ∀ t ∈ builtin, t ∈ types) :
    (decodeMethod full fs).scoped types env = true := by
  have hbuf : (tbuf).scoped types = true := decide_eq_true (hb _ (by decide))
  have hself : (Ty.name (camel full)).scoped types = true := decide_eq_true h.self.2.1
  have hD : (classOf (full, fs)).decodes = go!"decoded" :: (fs.filter FieldD.isSlice ++ fs.filter FieldD.isMessage ++ fs.filter FieldD.isValue).flatMap localsOf := rfl
  have hloc := h.locals
  have hin := h.inner
  have hout := h.outer
  rw [hD] at hloc hin hout
  generalize hDD : go!"decoded" :: (fs.filter FieldD.isSlice ++ fs.filter FieldD.isMessage ++ fs.filter FieldD.isValue).flatMap localsOf = D at hloc hin hout
  have hdec : go!"decoded" ∈ D := by rw [← hDD]; simp
  have hbD : go!"buf" ∉ D := (List.nodup_cons.mp hloc).1
  have hV : ∀ f ∈ fs, (f.isSlice = true ∨ f.isMessage = true ∨ f.isValue = true) → Vars D f := by
    intro f hf hc
    refine ⟨hdec, fun v hv => ?_, hin, fun v hv hvD => (hout v hvD).2 f hf hv⟩
    rw [← hDD]
    refine List.mem_cons_of_mem _ (List.mem_flatMap.mpr ⟨f, ?_, hv⟩)
    simp only [List.mem_append, List.mem_filter]
    rcases hc with hc | hc | hc
    · exact .inl (.inl ⟨hf, hc⟩)
    · exact .inl (.inr ⟨hf, hc⟩)
    · exact .inr ⟨hf, hc⟩
  have hbody := decode_body full fs
  have hm : ∃ b, decodeMethod full fs = .method true go!"decode" go!"buf" tbuf (.obj2 go!"buf" tbuf go!"value" (.name (camel full))) b := ⟨_, rfl⟩
  obtain ⟨b, hm⟩ := hm
  have hb1 : [b] = [decodeMethod full fs].flatMap (Member.body true go!"decode") := by rw [hm]; simp [Member.body]
  have hlets : b.lets = D := by
    have := decode_lets full fs
    rw [← hb1, List.flatMap_cons, List.flatMap_nil, List.append_nil, hDD] at this
    exact this
  rw [hm, Member.scoped, scopedBody, hlets]
  rw [Ty.scoped, hbuf, hself]
  have hnd : decide ([go!"buf"] ++ D).Nodup = true := decide_eq_true hloc
  rw [hnd]
  simp only [Bool.true_and]
  rw [hbody, List.cons.injEq] at hb1
  rw [hb1.1, scoped_block]
  simp only [List.append_assoc]
  have l0 : lookup ((D, []) :: ([go!"buf"], [go!"buf"]) :: env) go!"buf" = true := by rw [lookup_skip hbD, lookup_here (by simp) (by simp)]
  rw [scopedAll_append]
  have e1 : scopedAll types ((D, []) :: ([go!"buf"], [go!"buf"]) :: env) [Stmt.let1 go!"decoded" (.var go!"buf")] = true := by
    simp only [scopedAll, Stmt.scoped, Expr.scoped, l0, Bool.or_true, Bool.and_true]
  rw [e1]
  show scopedAll types (decEnv D [go!"decoded"] env) _ = true
  have ls : ∀ f ∈ fs.filter FieldD.isSlice, (decSlice (lower f.name) f.kind (camel f.type)).flatMap Stmt.lets = localsOf f := fun f hf => lets_slice (List.mem_filter.mp hf).2
  have lm : ∀ f ∈ fs.filter FieldD.isMessage, (decMessageField f).flatMap Stmt.lets = localsOf f := fun f hf => lets_message (List.mem_filter.mp hf).2
  have lv : ∀ f ∈ fs.filter FieldD.isValue, (decOther (lower f.name) f.kind (camel f.type)).flatMap Stmt.lets = localsOf f := fun f hf => lets_value (List.mem_filter.mp hf).2
  have es : ∀ (l : List FieldD) (g : FieldD → List Stmt), (∀ f ∈ l, (g f).flatMap Stmt.lets = localsOf f) → (l.flatMap g).flatMap Stmt.lets = l.flatMap localsOf := by
    intro l g hg
    rw [List.flatMap_assoc]
    exact flatMap_congr' hg
  rw [scopedAll_append, scopedAll_append, scopedAll_append, es _ _ ls, es _ _ lm, es _ _ lv, declare_dec, declare_dec, declare_dec]
  rw [scopedAll_decl ls (fun f hf R hR => decSlice_scoped (h.fields f (List.mem_filter.mp hf).1).1 (List.mem_filter.mp hf).2 (h.fields f (List.mem_filter.mp hf).1).2 hb
      (hV f (List.mem_filter.mp hf).1 (.inl (List.mem_filter.mp hf).2)) hR) _ (by simp),
    scopedAll_decl lm (fun f hf R hR => decMessage_scoped (h.fields f (List.mem_filter.mp hf).1).1 (List.mem_filter.mp hf).2 (h.fields f (List.mem_filter.mp hf).1).2 hb
      (hV f (List.mem_filter.mp hf).1 (.inr (.inl (List.mem_filter.mp hf).2))) hR) _ (by simp),
    scopedAll_decl lv (fun f hf R hR => decOther_scoped (h.fields f (List.mem_filter.mp hf).1).1 (List.mem_filter.mp hf).2 (h.fields f (List.mem_filter.mp hf).1).2 hb
      (hV f (List.mem_filter.mp hf).1 (.inr (.inr (List.mem_filter.mp hf).2))) hR) _ (by simp)]
  generalize hRR : [go!"decoded"] ++ (fs.filter FieldD.isSlice).flatMap localsOf ++ (fs.filter FieldD.isMessage).flatMap localsOf ++ (fs.filter FieldD.isValue).flatMap localsOf = R
  have hRD : ∀ v, v ∈ D → v ∈ R := by
    intro v hv
    rw [← hDD] at hv
    rw [← hRR]
    simpa [List.flatMap_append] using hv
  have hnew : lookup (decEnv D R env) (camel full) = true := by
    rw [decEnv, lookup_skip (fun hc => (hout _ hc).1 rfl), lookup_skip (by simpa using h.self.2.2.2)]
    exact h.self.1
  have hargs : ∀ l : List FieldD, (∀ f ∈ l, temp (lower f.name) ∈ D) → (argsOf (l.map argOf)).scoped types (decEnv D R env) = true := by
    intro l
    induction l with
    | nil => intro _; rfl
    | cons f l ih =>
      intro hl
      show ((argOf f).scoped types _ && (argsOf (l.map argOf)).scoped types _) = true
      rw [ih fun g hg => hl g (List.mem_cons_of_mem _ hg)]
      have : lookup (decEnv D R env) (temp (lower f.name)) = true := dec_local (hRD _ (hl f (List.mem_cons_self ..))) (hl f (List.mem_cons_self ..))
      simp only [argOf, valueOf, Expr.scoped, this, Bool.or_true, Bool.and_true]
  have hd : lookup (decEnv D R env) go!"decoded" = true := dec_local (hRD _ hdec) hdec
  rw [← List.map_append, ← List.map_append]
  have ha := hargs (fs.filter FieldD.isValue ++ (fs.filter FieldD.isSlice ++ fs.filter FieldD.isMessage)) (by
    intro f hf
    simp only [List.mem_append, List.mem_filter] at hf
    rcases hf with hf | hf | hf
    · exact temp_mem (hV f hf.1 (.inr (.inr hf.2)))
    · exact temp_mem (hV f hf.1 (.inl hf.2))
    · exact temp_mem (hV f hf.1 (.inr (.inl hf.2))))
  simp only [scopedAll, Stmt.scoped, Expr.scoped, decoded, hd, hnew, ha, Bool.or_true, Bool.and_true]

theorem ctor_lets (fs : List FieldD) : (block (fs.map fun f => setField (lower f.name))).lets = [] := by
  rw [lets_block, List.flatMap_map]
  exact flatMap_nil' fun _ _ => rfl

theorem class_scoped {types : List Ident} {env : Env} {full : Bytes} {fs : List FieldD} (h : Clear types env full fs) (hb : ∀ t ∈ builtin, t ∈ types) :
    (classItem full fs).scoped types env = true := by
  rw [classItem, Item.scoped]
  simp only [Bool.and_eq_true, decide_eq_true_eq, List.all_eq_true]
  have hty : ∀ f ∈ fs, (fieldTy f).scoped types = true := fun f hf => fieldTy_scoped (h.fields f hf).1 hb (h.fields f hf).2
  have hnd : (fs.map fun f => lower f.name).Nodup := by
    have h1 := (List.nodup_append.mp h.members).1
    clear hty h
    induction fs with
    | nil => exact List.nodup_nil
    | cons f fs ih =>
      rw [List.flatMap_cons] at h1
      obtain ⟨h2, h3, h4⟩ := List.nodup_append.mp h1
      rw [List.map_cons, List.nodup_cons]
      refine ⟨fun hx => ?_, ih h3⟩
      obtain ⟨g, hg, he⟩ := List.mem_map.mp hx
      exact h4 (lower f.name) (by simp) (lower f.name) (List.mem_flatMap.mpr ⟨g, hg, by simp [he]⟩) rfl
  have hset : (([Member.ctor (fs.map fun f => (lower f.name, fieldTy f)) (block (fs.map fun f => setField (lower f.name)))] ++
    fs.flatMap (fun f => property (lower f.name) (fieldTy f)) ++ [encodeMethod fs, decodeMethod full fs]).flatMap Member.setters) = fs.map fun f => lower f.name := by
    rw [List.flatMap_append, List.flatMap_append, property_flat Member.setters fs (fun f => [lower f.name]) fun _ _ => rfl, flatMap_single]
    simp [Member.setters, encodeMethod, decodeMethod]
  have hms : (([Member.ctor (fs.map fun f => (lower f.name, fieldTy f)) (block (fs.map fun f => setField (lower f.name)))] ++
    fs.flatMap (fun f => property (lower f.name) (fieldTy f)) ++ [encodeMethod fs, decodeMethod full fs]).flatMap Member.members) =
      (fs.flatMap fun f => [go!"_" ++ lower f.name, lower f.name]) ++ [go!"encode"] := by
    rw [List.flatMap_append, List.flatMap_append, property_flat Member.members fs (fun f => [go!"_" ++ lower f.name, lower f.name]) fun _ _ => rfl]
    simp [Member.members, encodeMethod, decodeMethod]
  rw [hset, hms]
  refine ⟨⟨?_, h.members⟩, hnd⟩
  intro m hm
  simp only [List.mem_append, List.mem_singleton, List.mem_cons, List.not_mem_nil, or_false, List.mem_flatMap] at hm
  rcases hm with (rfl | ⟨f, hf, hm⟩) | rfl | rfl
  · -- the constructor
    rw [Member.scoped, scopedBody, ctor_lets, scoped_block, List.append_nil, List.map_map]
    simp only [Bool.and_eq_true, List.all_eq_true, decide_eq_true_eq]
    refine ⟨fun p hp => ?_, hnd, ?_⟩
    · obtain ⟨f, hf, rfl⟩ := List.mem_map.mp hp
      exact hty f hf
    · have : ∀ l : List FieldD, (∀ f ∈ l, f ∈ fs) → scopedAll types (([], []) :: (fs.map fun f => lower f.name, fs.map fun f => lower f.name) :: env) (l.map fun f => setField (lower f.name)) = true := by
        intro l
        induction l with
        | nil => intro _; rfl
        | cons f l ih =>
          intro hl
          have hf : lower f.name ∈ fs.map fun f => lower f.name := List.mem_map_of_mem (f := fun f : FieldD => lower f.name) (hl f (List.mem_cons_self ..))
          have e : lookup (([], []) :: (fs.map fun f => lower f.name, fs.map fun f => lower f.name) :: env) (lower f.name) = true := by
            rw [lookup_skip (by simp), lookup_here hf hf]
          rw [List.map_cons, scopedAll, show (setField (lower f.name)).lets = [] from rfl, declare_nil, ih fun g hg => hl g (List.mem_cons_of_mem _ hg)]
          simp only [setField, priv, this, Stmt.scoped, Expr.scoped, e, decide_true, Bool.true_or, Bool.or_true, Bool.and_true]
      exact this fs fun _ h => h
  · -- the property of a field
    simp only [property, List.mem_cons, List.not_mem_nil, or_false] at hm
    rcases hm with rfl | rfl | rfl
    · exact hty f hf
    · rw [Member.scoped, hty f hf]
      simp only [scopedBody, block, List.foldr_cons, List.foldr_nil, Stmt.lets, Stmt.scoped, priv, this, Expr.scoped, decide_true, Bool.true_or, Bool.and_true, Bool.true_and]
      decide
    · rw [Member.scoped, hty f hf]
      have e : lookup (([], []) :: ([lower f.name], [lower f.name]) :: env) (lower f.name) = true := by
        rw [lookup_skip (by simp), lookup_here (by simp) (by simp)]
      simp [scopedBody, block, setField, Stmt.lets, Stmt.scoped, priv, this, Expr.scoped, e]
  · exact encode_scoped h hb
  · exact decode_scoped h hb

end TsText
