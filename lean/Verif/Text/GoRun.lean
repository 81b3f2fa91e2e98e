import Verif.Text.Ast
import Verif.Text.Lib
import Verif.Gen.GoGen

/-!
# Running Go programs

An interpreter for the syntax trees of `Ast.lean`, after the Go specification.  Every expression has a type as well as a value, so
what a Go compiler would reject in the executed code (`bad`) is not executed.

Simplifications.  Values are trees (`Gen.V`): a pointer is the struct it points to, or nil; when a method returns, the struct as the
method left it is stored where the receiver came from.  That is what happens in Go as long as no two pointers point to the same
struct (and no method assigns to its receiver variable).  There is one buffer, which is the list of encoder calls made so far,
and one decoder, which is the unread bytes.  Compile-time rules about code that is not executed are left out.
-/

namespace GoRun

open Text GoAst Gen Spec

/-- Error values: those of the library and those in variables of the package. -/
inductive GoErr where
  | lib (e : GoV2.Err)
  | pkg (n : Ident)
deriving DecidableEq, Repr

inductive Value where
  /-- scalars, pointers to structs, slices, maps -/
  | data (x : V)
  /-- the untyped `nil` -/
  | nil
  /-- an untyped constant -/
  | const (n : Nat)
  /-- an `int` -/
  | int (n : Nat)
  | err (e : Option GoErr)
  /-- `*polyglot.Buffer`, `*polyglot.BufferEncoder`, `*polyglot.BufferDecoder` (v1: `*polyglot.Decoder`) -/
  | buffer
  | encoder
  | decoder
  /-- `polyglot.Kind` -/
  | kind (b : Byte)

/-- A value with its type. -/
structure TV where
  ty : Ty
  val : Value

/-- The version of the generated code. -/
def ver [Lib] : GoGen.Version := Lib.pick GoGen.v1 GoGen.v2

/-- Local variables, newest first; what the encoder has written; what the decoder has not read. -/
structure St where
  locals : List (Ident × TV)
  out : List Item
  inp : Bytes

inductive Fault where
  | panic
  /-- the code does not compile -/
  | bad
  /-- a call stack deeper than the given bound -/
  | overflow
deriving DecidableEq, Repr

inductive Res (α : Type) where
  | ok (a : α) (s : St)
  | fail (e : Fault)

abbrev M (α : Type) := St → Res α

def M.pure {α : Type} (a : α) : M α := fun s => .ok a s

def M.bind {α β : Type} (x : M α) (f : α → M β) : M β := fun s =>
  match x s with
  | .ok a s => f a s
  | .fail e => .fail e

instance : Monad M where
  pure := M.pure
  bind := M.bind

def fail {α : Type} (e : Fault) : M α := fun _ => .fail e

/-- `none` is a program that does not compile. -/
def need {α : Type} : Option α → M α
  | some a => pure a
  | none => fail .bad

/-! ## Declarations -/

/-- A function or method. -/
structure Func where
  recv : Option (Ident × Ty)
  params : List (Ident × Ty)
  result : Option Ty
  body : Stmt

/-- The fields of a struct type. -/
def findStruct (P : List Decl) (t : Ident) : Option (List (Ident × Ty)) :=
  P.findSome? fun
    | .struct n fs => if n = t then some fs else none
    | _ => none

/-- What a defined type is defined as. -/
def findType (P : List Decl) (t : Ident) : Option Ty :=
  P.findSome? fun
    | .type n u => if n = t then some u else none
    | _ => none

def findFunc (P : List Decl) (f : Ident) : Option Func :=
  P.findSome? fun
    | .func none n ps r b => if n = f then some ⟨none, ps, r, b⟩ else none
    | _ => none

/-- The defined type of a receiver. -/
def base : Ty → Option Ident
  | .name n => some n
  | .ptr (.name n) => some n
  | _ => none

def findMethod (P : List Decl) (t m : Ident) : Option Func :=
  P.findSome? fun
    | .func (some (x, u)) n ps r b => if base u = some t ∧ n = m then some ⟨some (x, u), ps, r, b⟩ else none
    | _ => none

/-- A package variable that is defined as `errors.New("…")`. -/
def findErr (P : List Decl) (n : Ident) : Bool :=
  P.any fun
    | .vars ds => ds.any fun d => decide (d.1 = n) && match d.2 with
      | .call1 (.sel (.var p) q) (.str _) => decide (p = go!"errors" ∧ q = go!"New")
      | _ => false
    | _ => false

/-! ## Types -/

def tBool : Ty := .name go!"bool"
def tUint32 : Ty := .name go!"uint32"
def tInt : Ty := .name go!"int"
def tError : Ty := .name go!"error"
def tBytes : Ty := .slice (.name go!"byte")
def tBuffer : Ty := .ptr (.qual go!"polyglot" go!"Buffer")
def tEncoder : Ty := .ptr (.qual go!"polyglot" go!"BufferEncoder")
def tDecoder [Lib] : Ty := .ptr (.qual go!"polyglot" (Lib.pick go!"Decoder" go!"BufferDecoder"))
def tKind : Ty := .qual go!"polyglot" go!"Kind"
/-- No identifier has a blank. -/
def tNil : Ty := .name go!"untyped nil"
def tConst : Ty := .name go!"untyped constant"

/-- The zero values of the predeclared types. -/
def basic : List (Ident × Value) :=
  [(go!"bool", .data (.scalar (.bool false))), (go!"int32", .data (.scalar (.int32 0))), (go!"uint32", .data (.scalar (.uint32 0))),
   (go!"int64", .data (.scalar (.int64 0))), (go!"uint64", .data (.scalar (.uint64 0))), (go!"float32", .data (.scalar (.float32 0))),
   (go!"float64", .data (.scalar (.float64 0))), (go!"string", .data (.scalar (.string []))), (go!"error", .err none)]

/-- The zero value of a type; of the defined types only maps and numbers of type `uint32` (enums) have values. -/
def zero (P : List Decl) : Ty → Option Value
  | .name n =>
    match findType P n with
    | some (.map _ _) => some (.data .nilMap)
    | some t => if t = tUint32 then some (.data (.scalar (.enum 0))) else none
    | none => basic.lookup n
  | .ptr _ => some (.data .nil)
  | .slice t => if t = .name go!"byte" then some (.data (.scalar (.bytes []))) else some (.data (.slice []))
  | .map _ _ => some (.data .nilMap)
  | .qual _ _ => none

/-- "Assignability": the value as a value of the type. -/
def assignTo (P : List Decl) (t : Ty) (v : TV) : Option Value :=
  if v.ty = t then some v.val
  else match v.val, t with
    | .nil, .ptr _ => some (.data .nil)
    | .nil, .name n => if n = go!"error" then some (.err none) else none
    | .const n, .name m => if m = go!"uint32" then some (.data (.scalar (.uint32 (BitVec.ofNat 32 n)))) else none
    | .data x, .name n =>
      match v.ty, findType P n with
      | .map k e, some (.map k' e') => if k = k' ∧ e = e' then some (.data x) else none
      | _, _ => none
    | _, _ => none

/-- "Comparison operators" `==`, as far as needed. -/
def equal (a b : TV) : Option Bool :=
  match a.val, b.val with
  | .data .nil, .nil => some true
  | .data (.msg _), .nil => some false
  | .data .nilMap, .nil => some true
  | .data (.map _ _), .nil => some false
  | .err e, .nil => some (e = none)
  | .data (.scalar (.uint32 x)), .data (.scalar (.uint32 y)) => if a.ty = b.ty then some (x = y) else none
  | .data (.scalar (.uint32 x)), .const n => some (x = BitVec.ofNat 32 n)
  | _, _ => none

/-- `<` -/
def less (a b : TV) : Option Bool :=
  match a.val, b.val with
  | .data (.scalar (.uint32 x)), .data (.scalar (.uint32 y)) => if a.ty = b.ty then some (x < y) else none
  | _, _ => none

/-! ## The library -/

/-- v2/encode.go 48-62: the constants of type `Kind`. -/
def kinds : List (Ident × Byte) :=
  [(go!"NilKind", GoV2.NilRawKind), (go!"SliceKind", GoV2.SliceRawKind), (go!"MapKind", GoV2.MapRawKind), (go!"AnyKind", GoV2.AnyRawKind),
   (go!"BytesKind", GoV2.BytesRawKind), (go!"StringKind", GoV2.StringRawKind), (go!"ErrorKind", GoV2.ErrorRawKind),
   (go!"BoolKind", GoV2.BoolRawKind), (go!"Uint8Kind", GoV2.Uint8RawKind), (go!"Uint16Kind", GoV2.Uint16RawKind),
   (go!"Uint32Kind", GoV2.Uint32RawKind), (go!"Uint64Kind", GoV2.Uint64RawKind), (go!"Int32Kind", GoV2.Int32RawKind),
   (go!"Int64Kind", GoV2.Int64RawKind), (go!"Float32Kind", GoV2.Float32RawKind), (go!"Float64Kind", GoV2.Float64RawKind)]

/-- The type of the scalar that a method of `BufferEncoder` takes and the method of the same name of `BufferDecoder` returns
(v2/encoder.go, v2/decoder.go); the methods for 8 and 16 bits are left out. -/
def scalarMethods : List (Ident × Ty) :=
  [(go!"Bool", tBool), (go!"Int32", .name go!"int32"), (go!"Uint32", tUint32), (go!"Int64", .name go!"int64"), (go!"Uint64", .name go!"uint64"),
   (go!"Float32", .name go!"float32"), (go!"Float64", .name go!"float64"), (go!"String", .name go!"string"), (go!"Bytes", tBytes)]

/-- The value passed, as the item written. -/
def itemOf : Scalar → Option Item
  | .bool v => some (.bool v)
  | .int32 v => some (.int32 v)
  | .uint32 v => some (.uint32 v)
  | .int64 v => some (.int64 v)
  | .uint64 v => some (.uint64 v)
  | .float32 v => some (.float32 v)
  | .float64 v => some (.float64 v)
  | .string v => some (.string v)
  | .bytes v => some (.bytes v)
  | .enum _ => none

/-- v2/encoder.go: what a call of a method of the encoder writes.  `Error` is left out: generated encoders do not call it. -/
def encoderCall (m : Ident) (args : List TV) : Option Item :=
  match args with
  | [] => if m = go!"Nil" then some .nil else none
  | [a] =>
    match scalarMethods.lookup m, a.val with
    | some t, .data (.scalar s) => if a.ty = t then itemOf s else none
    | _, _ => none
  | [a, b] =>
    match a.val, b.val with
    | .data (.scalar (.uint32 n)), .kind k => if m = go!"Slice" ∧ a.ty = tUint32 then some (.slice n k) else none
    | _, _ => none
  | [a, b, c] =>
    match a.val, b.val, c.val with
    | .data (.scalar (.uint32 n)), .kind k, .kind v => if m = go!"Map" ∧ a.ty = tUint32 then some (.map n k v) else none
    | .const n, .kind k, .kind v => if m = go!"Map" then some (.map (BitVec.ofNat 32 n) k v) else none
    | _, _, _ => none
  | _ => none

/-- v2/decoder.go: a method that returns a value and an error.  `Bytes` takes a slice that it may use. -/
def request (m : Ident) (args : List TV) : Option (GoV2.Req × Ty) :=
  match args with
  | [] =>
    if m = go!"Bool" then some (.bool, tBool)
    else if m = go!"Int32" then some (.int32, .name go!"int32")
    else if m = go!"Uint32" then some (.uint32, tUint32)
    else if m = go!"Int64" then some (.int64, .name go!"int64")
    else if m = go!"Uint64" then some (.uint64, .name go!"uint64")
    else if m = go!"Float32" then some (.float32, .name go!"float32")
    else if m = go!"Float64" then some (.float64, .name go!"float64")
    else if m = go!"String" then some (.string, .name go!"string")
    else none
  | [a] =>
    match a.val with
    | .data (.scalar (.bytes b)) => if m = go!"Bytes" ∧ a.ty = tBytes then some (.bytes b, tBytes) else none
    | .nil => if m = go!"Bytes" then some (.bytes [], tBytes) else none
    | .kind k => if m = go!"Slice" then some (.slice k, tUint32) else none
    | _ => none
  | [a, b] =>
    match a.val, b.val with
    | .kind k, .kind v => if m = go!"Map" then some (.map k v, tUint32) else none
    | _, _ => none
  | _ => none

/-- What the method returns for an item; for `Slice` and `Map` the size. -/
def returned : Item → Option V
  | .slice n _ => some (.scalar (.uint32 n))
  | .map n _ _ => some (.scalar (.uint32 n))
  | .bool v => some (.scalar (.bool v))
  | .int32 v => some (.scalar (.int32 v))
  | .uint32 v => some (.scalar (.uint32 v))
  | .int64 v => some (.scalar (.int64 v))
  | .uint64 v => some (.scalar (.uint64 v))
  | .float32 v => some (.scalar (.float32 v))
  | .float64 v => some (.scalar (.float64 v))
  | .string v => some (.scalar (.string v))
  | .bytes v => some (.scalar (.bytes v))
  | _ => none

/-- A method of the decoder; with an error it returns the zero value. -/
def decoderCall (rd : GoGen.Codec) (m : Ident) (args : List TV) : M (List TV) := fun s =>
  if m = go!"Nil" then
    match args, rd .nil s.inp with
    | [], .ok (r, .value _) => .ok [⟨tBool, .data (.scalar (.bool true))⟩] { s with inp := r }
    | [], .ok (r, .notNil) => .ok [⟨tBool, .data (.scalar (.bool false))⟩] { s with inp := r }
    | [], .panic => .fail .panic
    | _, _ => .fail .bad
  else
    match request m args with
    | none => .fail .bad
    | some (q, t) =>
      match rd q s.inp with
      | .panic => .fail .panic
      | .ok (r, .value i) =>
        match returned i with
        | some x => .ok [⟨t, .data x⟩, ⟨tError, .err none⟩] { s with inp := r }
        | none => .fail .bad
      | .ok (r, .error e) =>
        match zero [] t with
        | some z => .ok [⟨t, z⟩, ⟨tError, .err (some (.lib e))⟩] { s with inp := r }
        | none => .fail .bad
      | .ok (_, .notNil) => .fail .bad

/-! ## Variables -/

def get (n : Ident) : M (Option TV) := fun s => .ok (s.locals.lookup n) s

/-- Change the newest variable of this name. -/
def setLocal (n : Ident) (v : TV) : List (Ident × TV) → List (Ident × TV)
  | [] => []
  | (m, w) :: l => if n = m then (m, v) :: l else (m, w) :: setLocal n v l

def set (n : Ident) (v : TV) : M Unit := fun s => .ok () { s with locals := setLocal n v s.locals }

/-- A new variable; nothing for `_`. -/
def declare (n : Ident) (v : TV) : M Unit := fun s =>
  if n = go!"_" then .ok () s else .ok () { s with locals := (n, v) :: s.locals }

/-- Run a block: its variables end with it. -/
def inBlock {α : Type} (m : M α) : M α := fun s =>
  match m s with
  | .ok a s' => .ok a { s' with locals := s'.locals.drop (s'.locals.length - s.locals.length) }
  | .fail e => .fail e

/-- Is the expression the name of an imported package? -/
def isPackage (s : St) (p : Ident) (e : Expr) : Bool := e = .var p ∧ (s.locals.lookup p).isNone

/-! ## Expressions -/

/-- Exactly one value. -/
def one (m : M (List TV)) : M TV := do
  match ← m with
  | [v] => pure v
  | _ => fail .bad

/-- What is called. -/
inductive Target where
  /-- a function of the package, a type (conversion) or a predeclared function -/
  | name (f : Ident)
  /-- a function of package `polyglot` -/
  | lib (f : Ident)
  | method (r : TV) (m : Ident)

/-- Run a function: receiver and arguments; the receiver afterwards and the results. -/
abbrev Callee := Func → Option Value → List Value → M (Option Value × List TV)

/-- The arguments as values of the types of the parameters. -/
def arguments (P : List Decl) : List (Ident × Ty) → List TV → Option (List Value)
  | [], [] => some []
  | (_, t) :: ps, a :: as => do some ((← assignTo P t a) :: (← arguments P ps as))
  | _, _ => none

/-- "Conversions" to a defined type: numbers of type `uint32` to enums. -/
def convert (P : List Decl) (t : Ident) (args : List TV) : Option TV :=
  match findType P t, args with
  | some u, [⟨v, .data (.scalar (.uint32 x))⟩] => if u = tUint32 ∧ v = tUint32 then some ⟨.name t, .data (.scalar (.enum x))⟩ else none
  | _, _ => none

/-- The predeclared `uint32` (of constants, of the `int` that `len` returns, of enums and of itself) and `len`. -/
def builtin (f : Ident) (args : List TV) : Option TV :=
  if f = go!"uint32" then
    match args with
    | [⟨_, .const n⟩] => some ⟨tUint32, .data (.scalar (.uint32 (BitVec.ofNat 32 n)))⟩
    | [⟨_, .int n⟩] => some ⟨tUint32, .data (.scalar (.uint32 (BitVec.ofNat 32 n)))⟩
    | [⟨_, .data (.scalar (.enum v))⟩] => some ⟨tUint32, .data (.scalar (.uint32 v))⟩
    | [⟨_, .data (.scalar (.uint32 v))⟩] => some ⟨tUint32, .data (.scalar (.uint32 v))⟩
    | _ => none
  else if f = go!"len" then
    match args with
    | [⟨_, .data (.slice vs)⟩] => some ⟨tInt, .int vs.length⟩
    | [⟨_, .data .nilMap⟩] => some ⟨tInt, .int 0⟩
    | [⟨_, .data (.map _ vs)⟩] => some ⟨tInt, .int vs.length⟩
    | _ => none
  else none

/-- A call: the results, and the receiver afterwards if the method is one of the package. -/
def apply [Lib] (P : List Decl) (rd : GoGen.Codec) (call : Callee) : Target → List TV → M (List TV × Option TV)
  | .name f, args =>
    match findFunc P f with
    | some fn => do
      let r ← call fn none (← need (arguments P fn.params args))
      pure (r.2, none)
    | none =>
      match findType P f with
      | some _ => do pure ([← need (convert P f args)], none)
      | none => do pure ([← need (builtin f args)], none)
  -- v2/encoder.go 21, v2/decoder.go 23; v1: encoder.go 21, decoder.go 29
  | .lib f, args => fun s =>
    match args with
    | [⟨_, .buffer⟩] => if f = go!"Encoder" then .ok ([⟨tEncoder, .encoder⟩], none) s else .fail .bad
    | [⟨_, .data (.scalar (.bytes b))⟩] => if f = Lib.pick go!"GetDecoder" go!"Decoder" then .ok ([⟨tDecoder, .decoder⟩], none) { s with inp := b } else .fail .bad
    | _ => .fail .bad
  | .method r m, args =>
    match r.val with
    | .encoder => fun s =>
      match encoderCall m args with
      | some i => .ok ([⟨tEncoder, .encoder⟩], none) { s with out := s.out ++ [i] }
      | none => .fail .bad
    | .decoder => do pure (← decoderCall rd m args, none)
    | .data _ => do
      let t ← need (base r.ty)
      let fn ← need (findMethod P t m)
      if fn.recv.map (·.2) = some r.ty then
        let res ← call fn (some r.val) (← need (arguments P fn.params args))
        match res.1 with
        | some v => pure (res.2, some ⟨r.ty, v⟩)
        | none => fail .bad
      else fail .bad
    | _ => fail .bad

/-- The position of a field. -/
def fieldIndex (fs : List (Ident × Ty)) (n : Ident) : Option (Nat × Ty) :=
  match fs with
  | [] => none
  | (m, t) :: fs => if n = m then some (0, t) else (fieldIndex fs n).map fun p => (p.1 + 1, p.2)

/-- The struct type a pointer points to. -/
def structOf (P : List Decl) : Ty → Option (List (Ident × Ty))
  | .ptr (.name t) => findStruct P t
  | _ => none

/-- `r.n` for a pointer `r` to a struct. -/
def field (P : List Decl) (r : TV) (n : Ident) : M TV := do
  let fs ← need (structOf P r.ty)
  let (i, t) ← need (fieldIndex fs n)
  match r.val with
  | .data (.msg vs) => do pure ⟨t, .data (← need vs[i]?)⟩
  | .data .nil => fail .panic
  | _ => fail .bad

/-- `r[i]` for a slice. -/
def element (r i : TV) : M TV :=
  match r.ty, r.val, i.val with
  | .slice t, .data (.slice vs), .data (.scalar (.uint32 n)) =>
    match vs[n.toNat]? with
    | some v => pure ⟨t, .data v⟩
    | none => fail .panic
  | _, _, _ => fail .bad

/-- The pointer `r` after `r.n = v`. -/
def setField (P : List Decl) (r : TV) (n : Ident) (v : TV) : M TV := do
  let fs ← need (structOf P r.ty)
  let (i, t) ← need (fieldIndex fs n)
  match r.val, ← need (assignTo P t v) with
  | .data (.msg vs), .data x => pure ⟨r.ty, .data (.msg (vs.set i x))⟩
  | .data .nil, _ => fail .panic
  | _, _ => fail .bad

/-- The slice or map `r` after `r[i] = v`. -/
def setElement (P : List Decl) (r i v : TV) : M TV :=
  match r.ty, r.val with
  | .slice t, .data (.slice vs) => do
    match i.val, ← need (assignTo P t v) with
    | .data (.scalar (.uint32 n)), .data x =>
      if n.toNat < vs.length then pure ⟨r.ty, .data (.slice (vs.set n.toNat x))⟩ else fail .panic
    | _, _ => fail .bad
  | .name n, .data m => do
    match findType P n with
    | some (.map k e) => do
      match ← need (assignTo P k i), ← need (assignTo P e v), m with
      | .data (.scalar key), .data x, .map ks vs => pure ⟨r.ty, .data (.map (GoGen.put key x ks vs).1 (GoGen.put key x ks vs).2)⟩
      | _, _, .nilMap => fail .panic
      | _, _, _ => fail .bad
    | _ => fail .bad
  | _, _ => fail .bad

/-- `make(t, n)` -/
def makeOf (P : List Decl) (t : Ty) (n : TV) : M TV :=
  match t, n.val with
  | .slice e, .data (.scalar (.uint32 k)) => do
    match ← need (zero P e) with
    | .data z => if e = .name go!"byte" then fail .bad else pure ⟨t, .data (.slice (List.replicate k.toNat z))⟩
    | _ => fail .bad
  | .map _ _, .data (.scalar (.uint32 _)) => pure ⟨t, .data (.map [] [])⟩
  | _, _ => fail .bad

/-- The zero values of fields. -/
def zeros (P : List Decl) : List (Ident × Ty) → Option (List V)
  | [] => some []
  | (_, t) :: fs =>
    match zero P t, zeros P fs with
    | some (.data x), some xs => some (x :: xs)
    | _, _ => none

/-- Set the fields that a composite literal names to what the functions return. -/
def fill [Lib] (P : List Decl) (rd : GoGen.Codec) (call : Callee) : List (Ident × Ident) → TV → M TV
  | [], r => pure r
  | (n, g) :: els, r => do
    match ← get g with
    | some _ => fail .bad
    | none => do
      let v ← one (do pure (← apply P rd call (.name g) []).1)
      fill P rd call els (← setField P r n v)

mutual
/-- The values of an expression; a call may have any number of results. -/
def eval [Lib] (P : List Decl) (rd : GoGen.Codec) (call : Callee) : Expr → M (List TV)
  | .var n => do
    match ← get n with
    | some v => pure [v]
    | none =>
      if findErr P n then pure [⟨tError, .err (some (.pkg n))⟩]
      else if n = go!"nil" then pure [⟨tNil, .nil⟩]
      else fail .bad
  | .num n => do
    match n with
    | [.byte b] => if Utils.isDigit b then pure [⟨tConst, .const (b.toNat - 48)⟩] else fail .bad
    | _ => fail .bad
  | .str _ => fail .bad
  | .sel e n => fun s =>
    if isPackage s go!"polyglot" e then
      match kinds.lookup n with
      | some k => .ok [⟨tKind, .kind k⟩] s
      | none => .fail .bad
    else (do pure [← field P (← one (eval P rd call e)) n] : M _) s
  | .index e i => do
    let r ← one (eval P rd call e)
    pure [← element r (← one (eval P rd call i))]
  | .call0 f => do
    let t ← target P rd call f
    let r ← apply P rd call t []
    storeReceiver P rd call f r.2
    pure r.1
  | .call1 f a => do
    let t ← target P rd call f
    let a ← one (eval P rd call a)
    let r ← apply P rd call t [a]
    storeReceiver P rd call f r.2
    pure r.1
  | .call2 f a b => do
    let t ← target P rd call f
    let a ← one (eval P rd call a)
    let b ← one (eval P rd call b)
    let r ← apply P rd call t [a, b]
    storeReceiver P rd call f r.2
    pure r.1
  | .call3 f a b c => do
    let t ← target P rd call f
    let a ← one (eval P rd call a)
    let b ← one (eval P rd call b)
    let c ← one (eval P rd call c)
    let r ← apply P rd call t [a, b, c]
    storeReceiver P rd call f r.2
    pure r.1
  | .make t n => do pure [← makeOf P t (← one (eval P rd call n))]
  | .new t els => do
    let fs ← need (findStruct P t)
    pure [← fill P rd call els ⟨.ptr (.name t), .data (.msg (← need (zeros P fs)))⟩]
  | .eq a b => do
    let a ← one (eval P rd call a)
    let b ← one (eval P rd call b)
    pure [⟨tBool, .data (.scalar (.bool (← need (equal a b))))⟩]
  | .ne a b => do
    let a ← one (eval P rd call a)
    let b ← one (eval P rd call b)
    pure [⟨tBool, .data (.scalar (.bool !(← need (equal a b))))⟩]
  | .lt a b => do
    let a ← one (eval P rd call a)
    let b ← one (eval P rd call b)
    pure [⟨tBool, .data (.scalar (.bool (← need (less a b))))⟩]
  | .not a => do
    match (← one (eval P rd call a)).val with
    | .data (.scalar (.bool b)) => pure [⟨tBool, .data (.scalar (.bool !b))⟩]
    | _ => fail .bad
/-- The function that an expression names. -/
def target [Lib] (P : List Decl) (rd : GoGen.Codec) (call : Callee) : Expr → M Target
  | .var f => do
    match ← get f with
    | some _ => fail .bad
    | none => pure (.name f)
  | .sel e m => fun s =>
    if isPackage s go!"polyglot" e then .ok (.lib m) s
    else (do pure (.method (← one (eval P rd call e)) m) : M _) s
  | _ => fail .bad
/-- Store the receiver after a call of the function that an expression names. -/
def storeReceiver [Lib] (P : List Decl) (rd : GoGen.Codec) (call : Callee) (f : Expr) (v : Option TV) : M Unit :=
  match v with
  | none => pure ()
  | some v =>
    match f with
    | .sel e _ => store P rd call e v
    | _ => fail .bad
/-- Assignment. -/
def store [Lib] (P : List Decl) (rd : GoGen.Codec) (call : Callee) (l : Expr) (v : TV) : M Unit :=
  match l with
  | .var n => do
    match ← get n with
    | some w => set n ⟨w.ty, ← need (assignTo P w.ty v)⟩
    | none => fail .bad
  | .sel e n => do
    let r ← one (eval P rd call e)
    store P rd call e (← setField P r n v)
  | .index e i => do
    let r ← one (eval P rd call e)
    let i ← one (eval P rd call i)
    store P rd call e (← setElement P r i v)
  | _ => fail .bad
end

/-! ## Statements -/

/-- Where execution goes on. -/
inductive Flow where
  | next
  | ret (vs : List TV)

/-- A condition. -/
def isTrue (m : M (List TV)) : M Bool := do
  match (← one m).val with
  | .data (.scalar (.bool b)) => pure b
  | _ => fail .bad

/-- A loop; it gives up after `n` evaluations of the condition. -/
def loop (cond : M Bool) (body : M Flow) (post : M Unit) : Nat → M Flow
  | 0 => fail .overflow
  | n + 1 => do
    if ← cond then
      match ← body with
      | .next => do post; loop cond body post n
      | .ret vs => pure (.ret vs)
    else pure .next

/-- A variable of type `uint32` can count that far. -/
def loopBound : Nat := 2 ^ 32

def declareAll : List (Ident × TV) → M Unit
  | [] => pure ()
  | (n, v) :: vars => do
    declare n v
    declareAll vars

/-- A `range` loop: the variables of each round. -/
def rounds (body : M Flow) : List (List (Ident × TV)) → M Flow
  | [] => pure .next
  | vars :: rest => do
    match ← inBlock (do declareAll vars; body) with
    | .next => rounds body rest
    | .ret vs => pure (.ret vs)

/-- What `for k, v := range e` goes over. -/
def ranged (P : List Decl) (k v : Ident) (e : TV) : Option (List (List (Ident × TV))) :=
  match e.ty, e.val with
  | .slice t, .data (.slice vs) => if k = go!"_" then some (vs.map fun x => [(v, ⟨t, .data x⟩)]) else none
  | .name n, .data x =>
    match findType P n, x with
    | some (.map _ _), .nilMap => some []
    | some (.map kt vt), .map ks vs => some (List.zipWith (fun a b => [(k, ⟨kt, .data (.scalar a)⟩), (v, ⟨vt, .data b⟩)]) ks vs)
    | _, _ => none
  | _, _ => none

/-- `i++` -/
def increment (n : Ident) : M Unit := do
  match ← get n with
  | some ⟨t, .data (.scalar (.uint32 x))⟩ => set n ⟨t, .data (.scalar (.uint32 (x + 1)))⟩
  | _ => fail .bad

def exec [Lib] (P : List Decl) (rd : GoGen.Codec) (call : Callee) : Stmt → M Flow
  | .skip => pure .next
  | .seq s rest => do
    match ← exec P rd call s with
    | .next => exec P rd call rest
    | .ret vs => pure (.ret vs)
  | .expr e => do
    let _ ← eval P rd call e
    pure .next
  | .assign l e => do
    store P rd call l (← one (eval P rd call e))
    pure .next
  | .assign2 l m e => do
    match ← eval P rd call e with
    | [a, b] => do
      store P rd call l a
      store P rd call m b
      pure .next
    | _ => fail .bad
  | .define n e => do
    declare n (← one (eval P rd call e))
    pure .next
  -- only of `d.Return()` for a decoder (v1 decoder.go 42-51); what it does to the pool has no effect on this decoder
  | .defer e =>
    match e with
    | .call0 (.sel d m) => do
      match (← one (eval P rd call d)).val with
      | .decoder => if m = go!"Return" then pure .next else fail .bad
      | _ => fail .bad
    | _ => fail .bad
  | .define2 l m e => do
    match ← eval P rd call e with
    | [a, b] => do
      declare l a
      declare m b
      pure .next
    | _ => fail .bad
  | .var n t => do
    declare n ⟨t, ← need (zero P t)⟩
    pure .next
  | .ret => pure (.ret [])
  | .ret1 e => do pure (.ret (← eval P rd call e))
  | .if1 c t => do
    if ← isTrue (eval P rd call c) then inBlock (exec P rd call t) else pure .next
  | .ite c t f _ => do
    if ← isTrue (eval P rd call c) then inBlock (exec P rd call t) else inBlock (exec P rd call f)
  | .for3 i e c b => inBlock do
    declare i (← one (eval P rd call e))
    loop (isTrue (eval P rd call c)) (inBlock (exec P rd call b)) (increment i) loopBound
  | .range k v e b => do
    rounds (exec P rd call b) (← need (ranged P k v (← one (eval P rd call e))))

/-! ## Functions -/

/-- The results as values of the result type. -/
def results (P : List Decl) : Option Ty → Flow → Option (List TV)
  | none, .next => some []
  | none, .ret [] => some []
  | some t, .ret [v] => (assignTo P t v).map fun x => [⟨t, x⟩]
  | _, _ => none

/-- The parameters as local variables. -/
def frame (fn : Func) (recv : Option Value) (args : List Value) : Option (List (Ident × TV)) :=
  let ps := List.zipWith (fun p a => (p.1, ⟨p.2, a⟩)) fn.params args
  match fn.recv, recv with
  | none, none => some ps
  | some (x, t), some v => some ((x, ⟨t, v⟩) :: ps)
  | _, _ => none

/-- The value of the receiver variable. -/
def receiver (fn : Func) (locals : List (Ident × TV)) : Option Value :=
  match fn.recv with
  | none => none
  | some (x, _) => (locals.lookup x).map (·.val)

/-- Run a function; `depth` bounds the depth of the call stack. -/
def runFn [Lib] (P : List Decl) (rd : GoGen.Codec) : (depth : Nat) → Callee
  | 0 => fun _ _ _ => fail .overflow
  | depth + 1 => fun fn recv args s =>
    match frame fn recv args with
    | none => .fail .bad
    | some l =>
      match exec P rd (runFn P rd depth) fn.body { s with locals := l } with
      | .fail e => .fail e
      | .ok flow s' =>
        match results P fn.result flow with
        | none => .fail .bad
        | some vs => .ok (receiver fn s'.locals, vs) { s' with locals := s.locals }

/-- What a call of an exported method from outside does: the results, the receiver afterwards, what was written and what was not
read. -/
inductive Outcome where
  | ok (results : List Value) (receiver : Option Value) (out : List Item) (unread : Bytes)
  | fault (e : Fault)

/-- Call a method of the package on a receiver of type `*t` or `t`. -/
def callMethod [Lib] (P : List Decl) (rd : GoGen.Codec) (depth : Nat) (t m : Ident) (recv : Value) (args : List Value) (inp : Bytes) : Outcome :=
  match findMethod P t m with
  | none => .fault .bad
  | some fn =>
    match runFn P rd depth fn (some recv) args ⟨[], [], inp⟩ with
    | .ok r s => .ok (r.2.map (·.val)) r.1 s.out s.inp
    | .fail e => .fault e

end GoRun
