import Verif.Text.GoDeclared
import Verif.Text.GoRun
import Verif.Text.Parse

/-!
# Does a Go program compile?

The rules of the Go specification ("Declarations and scope", "Properties of types and values", "Expressions", "Statements") and of
the compiler for the syntax trees of `Ast.lean`: every name is declared and is what its use needs, no name is declared twice in a
block, types fit, functions with a result end in a `return`, local variables and imports are used.

`compiles` is meant to be exact on what the generator prints.  Where it is stricter than Go, it says so: such programs are not
printed (they would have to declare predeclared names, use function values, assign to package variables, …).
-/

namespace GoCheck

open Text GoAst
open GoRun (findStruct findType findFunc findMethod findErr base Func structOf fieldIndex kinds tBool tUint32 tInt tError tBytes tBuffer tEncoder tDecoder tKind)

/-! ## Types -/

/-- What is known about an expression. -/
inductive ETy where
  /-- the types of its values: one, or any number for a call -/
  | vals (ts : List Ty)
  | nil
  /-- an untyped integer constant -/
  | int (n : Nat)
  /-- an untyped string constant -/
  | str
deriving DecidableEq, Repr

/-- The predeclared types; `byte` is only used in `[]byte`, its other name `uint8` is left out. -/
def basicTypes : List Ident :=
  [go!"bool", go!"string", go!"byte", go!"int", go!"int32", go!"int64", go!"uint32", go!"uint64", go!"float32", go!"float64", go!"error"]

/-- "Predeclared identifiers". -/
def predeclared : List Ident :=
  basicTypes ++ [go!"any", go!"comparable", go!"complex64", go!"complex128", go!"int8", go!"int16", go!"rune", go!"uint", go!"uint8", go!"uint16", go!"uintptr",
    go!"true", go!"false", go!"iota", go!"nil", go!"append", go!"cap", go!"clear", go!"close", go!"complex", go!"copy", go!"delete", go!"imag", go!"len",
    go!"make", go!"max", go!"min", go!"new", go!"panic", go!"print", go!"println", go!"real", go!"recover"]

/-- Integer types and the number of their values that are not negative. -/
def integers : List (Ident × Nat) :=
  [(go!"byte", 2 ^ 8), (go!"int", 2 ^ 63), (go!"int32", 2 ^ 31), (go!"int64", 2 ^ 63), (go!"uint32", 2 ^ 32), (go!"uint64", 2 ^ 64)]

/-- The packages that are known: import path and name. -/
def packages [Lib] : List (Frag × Ident) :=
  [(Lib.pick go!"github.com/loopholelabs/polyglot" go!"github.com/loopholelabs/polyglot/v2", go!"polyglot"), (go!"errors", go!"errors")]

def pathsOf : Decl → List Frag
  | .imports ps => ps
  | _ => []

def importPaths (P : List Decl) : List Frag := P.flatMap pathsOf

/-- The names of imported packages. -/
def imported [Lib] (P : List Decl) : List Ident := (importPaths P).filterMap fun p => packages.lookup p

/-- The package-level names of the program. -/
def declared (P : List Decl) : List Ident := P.flatMap Decl.declared

abbrev Vars := List (Ident × Ty)

/-- Is `p` the imported package here? -/
def isPackage [Lib] (P : List Decl) (Γ : Vars) (p : Ident) : Bool := (Γ.lookup p).isNone && (imported P).contains p

/-- A defined type of the program. -/
def isDefined (P : List Decl) (n : Ident) : Bool := (findType P n).isSome || (findStruct P n).isSome

/-- "Type definitions": what a defined type is defined as, itself for a struct and for a predeclared type. -/
def underlying (P : List Decl) : Ty → Ty
  | .name n => (findType P n).getD (.name n)
  | t => t

def named : Ty → Bool
  | .name _ => true
  | .qual _ _ => true
  | _ => false

/-- "Comparison operators".  Stricter than Go: not structs.  `Kind` is a slice in v1 (encode.go 25) and a byte in v2. -/
def comparable [Lib] (P : List Decl) (t : Ty) : Bool :=
  match underlying P t with
  | .name n => basicTypes.contains n
  | .qual _ n => Lib.pick false (decide (n = go!"Kind"))
  | .ptr _ => true
  | _ => false

/-- A type in the scope of local variables. -/
def typeOk [Lib] (P : List Decl) (Γ : Vars) : Ty → Bool
  | .name n => (Γ.lookup n).isNone && (isDefined P n || basicTypes.contains n)
  | .qual p n => isPackage P Γ p && decide (p = go!"polyglot") && [go!"Buffer", go!"BufferEncoder", Lib.pick go!"Decoder" go!"BufferDecoder", go!"Kind"].contains n
  | .slice t => typeOk P Γ t
  | .ptr t => typeOk P Γ t
  | .map k v => typeOk P Γ k && typeOk P Γ v && comparable P k

/-- An integer type; the number of its values that are not negative. -/
def integer (P : List Decl) (t : Ty) : Option Nat :=
  match underlying P t with
  | .name n => integers.lookup n
  | _ => none

/-- The types that have the value `nil`.  Stricter than Go: not the `Kind` of v1. -/
def nilable (P : List Decl) (t : Ty) : Bool :=
  match underlying P t with
  | .name n => n = go!"error"
  | .ptr _ => true
  | .slice _ => true
  | .map _ _ => true
  | .qual _ _ => false

/-- "Assignability".  Stricter than Go: integer constants only to integer types. -/
def assignable (P : List Decl) (t : Ty) : ETy → Bool
  | .vals [u] => decide (u = t) || (decide (underlying P u = underlying P t) && !(named u && named t))
  | .nil => nilable P t
  | .int n => match integer P t with
    | some b => n < b
    | none => false
  | .str => underlying P t = .name go!"string"
  | _ => false

/-- Arguments for parameters. -/
def argsOk (P : List Decl) : List Ty → List ETy → Bool
  | [], [] => true
  | t :: ts, a :: as => assignable P t a && argsOk P ts as
  | _, _ => false

/-! ## The library -/

structure Sig where
  params : List Ty
  results : List Ty
deriving DecidableEq, Repr

/-- encoder.go 25-98 of both versions; the methods for 8 and 16 bits are left out. -/
def encoderMethods : List (Ident × Sig) :=
  [(go!"Nil", ⟨[], [tEncoder]⟩), (go!"Map", ⟨[tUint32, tKind, tKind], [tEncoder]⟩), (go!"Slice", ⟨[tUint32, tKind], [tEncoder]⟩),
   (go!"Bytes", ⟨[tBytes], [tEncoder]⟩), (go!"String", ⟨[.name go!"string"], [tEncoder]⟩), (go!"Error", ⟨[tError], [tEncoder]⟩),
   (go!"Bool", ⟨[tBool], [tEncoder]⟩), (go!"Uint32", ⟨[tUint32], [tEncoder]⟩), (go!"Uint64", ⟨[.name go!"uint64"], [tEncoder]⟩),
   (go!"Int32", ⟨[.name go!"int32"], [tEncoder]⟩), (go!"Int64", ⟨[.name go!"int64"], [tEncoder]⟩),
   (go!"Float32", ⟨[.name go!"float32"], [tEncoder]⟩), (go!"Float64", ⟨[.name go!"float64"], [tEncoder]⟩)]

/-- v2/decoder.go 26-99, v1 decoder.go 49-127; the methods for 8 and 16 bits are left out. -/
def decoderMethods [Lib] : List (Ident × Sig) :=
  [(go!"Nil", ⟨[], [tBool]⟩), (go!"Map", ⟨[tKind, tKind], [tUint32, tError]⟩), (go!"Slice", ⟨[tKind], [tUint32, tError]⟩),
   (go!"Bytes", ⟨[tBytes], [tBytes, tError]⟩), (go!"String", ⟨[], [.name go!"string", tError]⟩), (go!"Error", ⟨[], [tError, tError]⟩),
   (go!"Bool", ⟨[], [tBool, tError]⟩), (go!"Uint32", ⟨[], [tUint32, tError]⟩), (go!"Uint64", ⟨[], [.name go!"uint64", tError]⟩),
   (go!"Int32", ⟨[], [.name go!"int32", tError]⟩), (go!"Int64", ⟨[], [.name go!"int64", tError]⟩),
   (go!"Float32", ⟨[], [.name go!"float32", tError]⟩), (go!"Float64", ⟨[], [.name go!"float64", tError]⟩)] ++ Lib.pick [(go!"Return", ⟨[], []⟩)] []

/-- encoder.go 21, v2/decoder.go 21, v1 decoder.go 29; package `errors` of the standard library. -/
def libFuncs [Lib] : List (Ident × List (Ident × Sig)) :=
  [(go!"polyglot", [(go!"Encoder", ⟨[tBuffer], [tEncoder]⟩), (Lib.pick go!"GetDecoder" go!"Decoder", ⟨[tBytes], [tDecoder]⟩)]),
   (go!"errors", [(go!"New", ⟨[.name go!"string"], [tError]⟩)])]

/-! ## Expressions -/

/-- What is called. -/
inductive Callee where
  | func (s : Sig)
  /-- a conversion -/
  | conv (t : Ty)
  | len
deriving DecidableEq, Repr

def Func.sig (f : Func) : Sig := ⟨f.params.map (·.2), f.result.toList⟩

/-- A number in decimal notation ("Integer literals": no leading zero). -/
def decimalValue (s : Frag) : Option Nat :=
  match s with
  | [] => none
  | .byte b :: r =>
    if Utils.isDigit b ∧ (b.toNat ≠ 48 ∨ r = []) then
      r.foldl (fun a c => match a, c with
        | some n, .byte c => if Utils.isDigit c then some (10 * n + (c.toNat - 48)) else none
        | _, _ => none) (some (b.toNat - 48))
    else none
  | _ => none

/-- A package variable or constant.  Stricter than Go: variables that are defined with `errors.New`, constants with a conversion. -/
def packageVar (P : List Decl) (n : Ident) : Option Ty :=
  if findErr P n then some tError
  else P.findSome? fun
    | .consts ds => ds.findSome? fun
      | (m, .call1 (.var t) _) => if m = n then some (.name t) else none
      | _ => none
    | _ => none

/-- "Conversions" between integer types, and to the type that the value has. -/
def convertible (P : List Decl) (t : Ty) : ETy → Bool
  | .vals [u] => decide (u = t) || ((integer P u).isSome && (integer P t).isSome)
  | .int n => assignable P t (.int n)
  | _ => false

/-- "Length and capacity" -/
def lenOk (P : List Decl) : ETy → Bool
  | .vals [u] => match underlying P u with
    | .slice _ => true
    | .map _ _ => true
    | .name n => n = go!"string"
    | _ => false
  | .str => true
  | _ => false

/-- A call. -/
def result (P : List Decl) (c : Option Callee) (args : List ETy) : Option ETy :=
  match c, args with
  | some (.func s), args => if argsOk P s.params args then some (.vals s.results) else none
  | some (.conv t), [a] => if convertible P t a then some (.vals [t]) else none
  | some .len, [a] => if lenOk P a then some (.vals [tInt]) else none
  | _, _ => none

/-- "Selectors": a field of the struct that a pointer points to. -/
def fieldOf (P : List Decl) (n : Ident) : Option ETy → Option ETy
  | some (.vals [t]) => match structOf P t with
    | some fs => (fieldIndex fs n).map fun p => .vals [p.2]
    | none => none
  | _ => none

/-- "Selectors", "Method sets": a method of a value of type `t`.  Stricter than Go: receiver of the very type. -/
def methodOf [Lib] (P : List Decl) (m : Ident) : Option ETy → Option Callee
  | some (.vals [t]) =>
    if t = tEncoder then (encoderMethods.lookup m).map .func
    else if t = tDecoder then (decoderMethods.lookup m).map .func
    else match base t with
      | some n => match findMethod P n m with
        | some fn => if fn.recv.map (·.2) = some t then some (.func (Func.sig fn)) else none
        | none => none
      | none => none
  | _ => none

/-- An index of a slice, the size in `make`. -/
def isIndex (P : List Decl) : ETy → Bool
  | .vals [t] => (integer P t).isSome
  | .int _ => true
  | _ => false

/-- "Index expressions" -/
def indexOf (P : List Decl) : Option ETy → Option ETy → Option ETy
  | some (.vals [t]), some i => match underlying P t with
    | .slice u => if isIndex P i then some (.vals [u]) else none
    | .map k v => if assignable P k i then some (.vals [v]) else none
    | _ => none
  | _, _ => none

/-- `a == b`: values of one type, or a value and `nil` or a constant. -/
def comparison [Lib] (P : List Decl) : Option ETy → Option ETy → Option ETy
  | some (.vals [t]), some (.vals [u]) => if t = u ∧ comparable P t then some (.vals [tBool]) else none
  | some (.vals [t]), some .nil => if nilable P t then some (.vals [tBool]) else none
  | some (.vals [t]), some (.int n) => if assignable P t (.int n) then some (.vals [tBool]) else none
  | _, _ => none

/-- `a < b` for values of an integer type. -/
def ordering (P : List Decl) : Option ETy → Option ETy → Option ETy
  | some (.vals [t]), some (.vals [u]) => if t = u ∧ (integer P t).isSome then some (.vals [tBool]) else none
  | some (.vals [t]), some (.int n) => if assignable P t (.int n) then some (.vals [tBool]) else none
  | _, _ => none

def negation (P : List Decl) : Option ETy → Option ETy
  | some (.vals [t]) => if underlying P t = tBool then some (.vals [t]) else none
  | _ => none

/-- "Making slices, maps and channels" -/
def makeOk [Lib] (P : List Decl) (Γ : Vars) (t : Ty) : Option ETy → Option ETy
  | some n =>
    if typeOk P Γ t && isIndex P n && (Γ.lookup go!"make").isNone then
      match underlying P t with
      | .slice _ => some (.vals [t])
      | .map _ _ => some (.vals [t])
      | _ => none
    else none
  | none => none

/-- "Composite literals": the elements of a struct, each the result of a function of the program.  A field is given once. -/
def elementsOk (P : List Decl) (Γ : Vars) (fs : Option (List (Ident × Ty))) (els : List (Ident × Ident)) : Bool :=
  match fs with
  | none => false
  | some fs => decide (els.map (·.1)).Nodup && els.all fun e =>
    match fieldIndex fs e.1, findFunc P e.2 with
    | some (_, t), some fn => (Γ.lookup e.2).isNone && match result P (some (.func (Func.sig fn))) [] with
      | some r => assignable P t r
      | none => false
    | _, _ => false

mutual
/-- An expression in the scope of local variables; `none` if it does not compile. -/
def expr [Lib] (P : List Decl) (Γ : Vars) : Expr → Option ETy
  | .var n =>
    match Γ.lookup n with
    | some t => some (.vals [t])
    | none =>
      match packageVar P n with
      | some t => some (.vals [t])
      | none => if n = go!"nil" then some .nil else none
  | .num s => (decimalValue s).map .int
  | .str _ => some .str
  | .sel e n =>
    match e with
    | .var p =>
      if isPackage P Γ p then
        if p = go!"polyglot" ∧ (kinds.lookup n).isSome then some (.vals [tKind]) else none
      else fieldOf P n (expr P Γ (.var p))
    | e => fieldOf P n (expr P Γ e)
  | .index e i => indexOf P (expr P Γ e) (expr P Γ i)
  | .call0 f => result P (callee P Γ f) []
  | .call1 f a =>
    match expr P Γ a with
    | some a => result P (callee P Γ f) [a]
    | none => none
  | .call2 f a b =>
    match expr P Γ a, expr P Γ b with
    | some a, some b => result P (callee P Γ f) [a, b]
    | _, _ => none
  | .call3 f a b c =>
    match expr P Γ a, expr P Γ b, expr P Γ c with
    | some a, some b, some c => result P (callee P Γ f) [a, b, c]
    | _, _, _ => none
  | .make t n => makeOk P Γ t (expr P Γ n)
  | .new t els => if typeOk P Γ (.name t) ∧ elementsOk P Γ (findStruct P t) els then some (.vals [.ptr (.name t)]) else none
  | .eq a b => comparison P (expr P Γ a) (expr P Γ b)
  | .ne a b => comparison P (expr P Γ a) (expr P Γ b)
  | .lt a b => ordering P (expr P Γ a) (expr P Γ b)
  | .not a => negation P (expr P Γ a)
/-- The operand of a call. -/
def callee [Lib] (P : List Decl) (Γ : Vars) : Expr → Option Callee
  | .var f =>
    if (Γ.lookup f).isSome then none
    else
      match findFunc P f with
      | some fn => some (.func (Func.sig fn))
      | none =>
        if typeOk P Γ (.name f) then some (.conv (.name f))
        else if f = go!"len" then some .len
        else none
  | .sel e m =>
    match e with
    | .var p =>
      if isPackage P Γ p then ((libFuncs.lookup p).bind (List.lookup m)).map .func
      else methodOf P m (expr P Γ (.var p))
    | e => methodOf P m (expr P Γ e)
  | _ => none
end

/-! ## Statements -/

/-- Is the variable `n` mentioned? -/
def mentions (n : Ident) : Expr → Bool
  | .var m => decide (m = n)
  | .num _ => false
  | .str _ => false
  | .sel e _ => mentions n e
  | .index e i => mentions n e || mentions n i
  | .call0 f => mentions n f
  | .call1 f a => mentions n f || mentions n a
  | .call2 f a b => mentions n f || mentions n a || mentions n b
  | .call3 f a b c => mentions n f || mentions n a || mentions n b || mentions n c
  | .make _ e => mentions n e
  | .new _ els => els.any fun e => decide (e.2 = n)
  | .eq a b => mentions n a || mentions n b
  | .ne a b => mentions n a || mentions n b
  | .lt a b => mentions n a || mentions n b
  | .not a => mentions n a

/-- Assigning to a variable does not use it. -/
def mentionsLeft (n : Ident) : Expr → Bool
  | .var _ => false
  | e => mentions n e

/-- The variables that a statement declares for the statements after it. -/
def newNames : Stmt → List Ident
  | .define n _ => [n]
  | .define2 l m _ => [l, m]
  | .var n _ => [n]
  | _ => []

/-- Is the variable `n`, declared before, used?  ("Implementation restriction: a compiler may make it illegal to declare a variable
inside a function body if the variable is never used"; `go` does.) -/
def uses (n : Ident) : Stmt → Bool
  | .skip => false
  | .seq s rest => uses n s || (!(newNames s).contains n && uses n rest)
  | .expr e => mentions n e
  | .assign l e => mentionsLeft n l || mentions n e
  | .assign2 l m e => mentionsLeft n l || mentionsLeft n m || mentions n e
  | .define _ e => mentions n e
  | .defer e => mentions n e
  | .define2 _ _ e => mentions n e
  | .var _ _ => false
  | .ret => false
  | .ret1 e => mentions n e
  | .if1 c t => mentions n c || uses n t
  | .ite c t f _ => mentions n c || uses n t || uses n f
  | .for3 i e c b => mentions n e || (!decide (i = n) && (mentions n c || uses n b))
  | .range k v e b => mentions n e || (!decide (k = n) && !decide (v = n) && uses n b)

/-- Local variables, newest first, and the names declared in the innermost block. -/
structure Env where
  vars : Vars
  block : List Ident

/-- A new variable; nothing for `_`.  A name is declared once in a block.  (Go's `:=` may reuse one of two variables; this does
not.) -/
def Env.declare (Γ : Env) (n : Ident) (t : Ty) : Option Env :=
  if n = go!"_" then some Γ
  else if Γ.block.contains n then none
  else some ⟨(n, t) :: Γ.vars, n :: Γ.block⟩

/-- A block inside. -/
def Env.inner (Γ : Env) : Env := ⟨Γ.vars, []⟩

/-- What can be assigned to; `none` for `_` and what cannot.  Stricter than Go: not package variables. -/
def left [Lib] (P : List Decl) (Γ : Vars) : Expr → Option Ty
  | .var n => Γ.lookup n
  | .sel e n =>
    match e with
    | .var p => if isPackage P Γ p then none else
        match fieldOf P n (expr P Γ (.var p)) with
        | some (.vals [t]) => some t
        | _ => none
    | e =>
      match fieldOf P n (expr P Γ e) with
      | some (.vals [t]) => some t
      | _ => none
  | .index e i =>
    match indexOf P (expr P Γ e) (expr P Γ i) with
    | some (.vals [t]) => some t
    | _ => none
  | _ => none

/-- The value of `e` fits what is assigned to. -/
def fits (P : List Decl) : Option Ty → Option ETy → Bool
  | some t, some e => assignable P t e
  | _, _ => false

/-- "Expression statements": calls of functions and methods. -/
def isCall [Lib] (P : List Decl) (Γ : Vars) (e : Expr) : Bool :=
  match e with
  | .call0 f => match callee P Γ f with | some (.func _) => true | _ => false
  | .call1 f _ => match callee P Γ f with | some (.func _) => true | _ => false
  | .call2 f _ _ => match callee P Γ f with | some (.func _) => true | _ => false
  | .call3 f _ _ _ => match callee P Γ f with | some (.func _) => true | _ => false
  | _ => false

/-- A condition. -/
def isBool (P : List Decl) : Option ETy → Bool
  | some (.vals [t]) => underlying P t = tBool
  | _ => false

/-- The type of a variable that is defined by a value. -/
def defined : Option ETy → Option Ty
  | some (.vals [t]) => some t
  | some (.int _) => some tInt
  | _ => none

/-- The types of the variables of a `range` loop. -/
def rangeTypes (P : List Decl) : Option ETy → Option (Ty × Ty)
  | some (.vals [t]) => match underlying P t with
    | .slice u => some (tInt, u)
    | .map k v => some (k, v)
    | _ => none
  | _ => none

/-- A used variable, or none. -/
def usedIn (n : Ident) (s : Stmt) : Bool := decide (n = go!"_") || uses n s

/-- A statement that is not part of a list. -/
def simple : Stmt → Bool
  | .skip => false
  | .seq _ _ => false
  | _ => true

/-- A statement in a function with the result `ret`, in the scope `Γ`: the scope after it. -/
def stmt [Lib] (P : List Decl) (ret : Option Ty) : Stmt → Env → Option Env
  | .skip, Γ => some Γ
  | .seq s rest, Γ =>
    match stmt P ret s Γ with
    | some Γ' => if simple s && (newNames s).all (usedIn · rest) then stmt P ret rest Γ' else none
    | none => none
  | .expr e, Γ => if isCall P Γ.vars e && (expr P Γ.vars e).isSome then some Γ else none
  | .assign l e, Γ => if fits P (left P Γ.vars l) (expr P Γ.vars e) then some Γ else none
  | .assign2 l m e, Γ =>
    match expr P Γ.vars e with
    | some (.vals [t, u]) => if fits P (left P Γ.vars l) (some (.vals [t])) && fits P (left P Γ.vars m) (some (.vals [u])) then some Γ else none
    | _ => none
  | .define n e, Γ =>
    match defined (expr P Γ.vars e) with
    | some t => if n = go!"_" then none else Γ.declare n t
    | none => none
  | .defer e, Γ => if isCall P Γ.vars e && (expr P Γ.vars e).isSome then some Γ else none
  | .define2 l m e, Γ =>
    match expr P Γ.vars e with
    | some (.vals [t, u]) => if l = go!"_" ∧ m = go!"_" then none else (Γ.declare l t).bind (·.declare m u)
    | _ => none
  | .var n t, Γ => if typeOk P Γ.vars t then Γ.declare n t else none
  | .ret, Γ => if ret = none then some Γ else none
  | .ret1 e, Γ => if fits P ret (expr P Γ.vars e) then some Γ else none
  | .if1 c t, Γ => if isBool P (expr P Γ.vars c) && !simple t && (stmt P ret t Γ.inner).isSome then some Γ else none
  | .ite c t f _, Γ =>
    if isBool P (expr P Γ.vars c) && !simple t && (stmt P ret t Γ.inner).isSome && !simple f && (stmt P ret f Γ.inner).isSome then some Γ else none
  | .for3 i e c b, Γ =>
    match defined (expr P Γ.vars e) with
    | some t =>
      match Γ.inner.declare i t with
      | some Γ' =>
        if (integer P t).isSome && isBool P (expr P Γ'.vars c) && (mentions i c || uses i b) && !simple b && (stmt P ret b Γ'.inner).isSome then some Γ else none
      | none => none
    | none => none
  | .range k v e b, Γ =>
    match rangeTypes P (expr P Γ.vars e) with
    | some (kt, vt) =>
      match (Γ.inner.declare k kt).bind (·.declare v vt) with
      | some Γ' =>
        if !(decide (k = go!"_") && decide (v = go!"_")) && usedIn k b && usedIn v b && !simple b && (stmt P ret b Γ'.inner).isSome then some Γ else none
      | none => none
    | none => none

/-- "Terminating statements" -/
def terminates : Stmt → Bool
  | .seq s .skip => terminates s
  | .seq _ rest => terminates rest
  | .ret => true
  | .ret1 _ => true
  | .ite _ t f _ => terminates t && terminates f
  | _ => false

/-! ## Declarations -/

/-- Does the type mention the package? -/
def tyMentions (p : Ident) : Ty → Bool
  | .name _ => false
  | .qual q _ => decide (q = p)
  | .slice t => tyMentions p t
  | .ptr t => tyMentions p t
  | .map k v => tyMentions p k || tyMentions p v

/-- Does the declaration use the imported package `p`?  (Types inside of functions are not looked at.) -/
def usesPackage (p : Ident) : Decl → Bool
  | .package _ => false
  | .imports _ => false
  | .type _ t => tyMentions p t
  | .struct _ fs => fs.any fun g => tyMentions p g.2
  | .vars ds => ds.any fun d => mentions p d.2
  | .consts ds => ds.any fun d => mentions p d.2
  | .func r _ ps t b =>
    (r.toList ++ ps).any (fun q => tyMentions p q.2) || t.toList.any (tyMentions p) || (!((r.toList ++ ps).map (·.1)).contains p && uses p b)

/-- The receiver's type: a defined type that is no pointer. -/
def receiverOk (P : List Decl) (t : Ty) : Bool :=
  match base t with
  | some n => isDefined P n && match findType P n with
    | some (.ptr _) => false
    | _ => true
  | none => false

/-- A package-level declaration in its program. -/
def decl [Lib] (P : List Decl) : Decl → Bool
  | .package n => !decide (n = go!"_") && !decide (n = go!"main")
  | .imports ps => ps.all fun p => (packages.lookup p).isSome
  | .type _ t => typeOk P [] t && match t with
    | .name n => basicTypes.contains n
    | _ => true
  | .struct n fs =>
    decide (fs.map (·.1)).Nodup && fs.all fun g =>
      typeOk P [] g.2 && (match g.2 with | .name m => (findStruct P m).isNone | _ => true) && (findMethod P n g.1).isNone
  | .vars ds => ds.all fun d => (defined (expr P [] d.2)).isSome
  | .consts ds => ds.all fun d => match d.2 with
    | .call1 (.var t) (.num s) => isDefined P t && match decimalValue s with
      | some n => assignable P (.name t) (.int n)
      | none => false
    | _ => false
  | .func r n ps t b =>
    (match r with
     | none => !decide (n = go!"init") && !decide (n = go!"main")
     | some (_, u) => receiverOk P u) &&
    decide ((r.toList ++ ps).map (·.1)).Nodup && ((r.toList ++ ps).all fun q => typeOk P [] q.2) && t.toList.all (typeOk P []) &&
    !simple b && (stmt P t b ⟨r.toList ++ ps, (r.toList ++ ps).map (·.1)⟩).isSome && (t.isNone || terminates b)

def methodOfDecl : Decl → List (Option Ident × Ident)
  | .func (some (_, t)) n _ _ _ => [(base t, n)]
  | _ => []

/-- The methods: type and name. -/
def methods (P : List Decl) : List (Option Ident × Ident) := P.flatMap methodOfDecl

/-- The file is a package that compiles.  Stricter than Go: no package-level name is a predeclared one, and the package is not
`main`. -/
def compiles [Lib] (P : List Decl) : Bool :=
  GoParse.ordered P && P.all (decl P) && decide (declared P).Nodup && decide (methods P).Nodup && decide (imported P).Nodup &&
  (declared P).all (fun n => !predeclared.contains n && !(imported P).contains n) &&
  (imported P).all fun p => P.any (usesPackage p)

end GoCheck
