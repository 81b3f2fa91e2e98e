import Verif.Text.RustAst
import Verif.Text.GoCheck
import Verif.Gen.RustGen

/-!
# Running Rust programs

An interpreter for the part of Rust that `RustAst.lean` describes, with the library of `Rust/Encode.lean` and `Rust/Decode.lean`.
It follows the Rust reference ("Expressions", "Statements", "Items", "The ? operator") and the documentation of `Vec`, `HashMap`,
`Option`, `Result`, `num_enum`.  References are values, so that a method that wants a reference does not accept a value and the
other way round; what the interpreter does not know it refuses (`bad`).  Only names that are declared or imported are known.

Simplifications.  Types are not checked before the program runs.  Allocations succeed.  A function inside a block cannot call other
functions of blocks.
-/

namespace RustRun

open Text hiding Tok
open RustAst
open Gen (Scalar)
open Rust (Cursor Std)
open GoCheck (decimalValue)

/-- Errors (`Box<dyn Error>`). -/
inductive Err where
  | decoding (e : Rust.DecodingError)
  /-- the error that `decode_error` has read -/
  | remote (message : Bytes)
  | encoding (e : Rust.EncodingError)
  /-- `num_enum::TryFromPrimitiveError` -/
  | noSuchConstant
deriving DecidableEq, Repr

inductive RV where
  /-- `bool`, `i32`, …, `f64`, `String`, `Vec<u8>`, and constants of enums -/
  | scalar (s : Scalar)
  | usize (n : Nat)
  /-- the fields in the order of the declaration -/
  | struct (n : Ident) (vs : List RV)
  | vec (l : List RV)
  /-- the entries in the order of iteration -/
  | map (ks : List Scalar) (vs : List RV)
  /-- `&v` -/
  | ref (v : RV)
  /-- `&mut Cursor<…>`; there is one cursor -/
  | cursor
  | none
  | some (v : RV)
  | ok (v : RV)
  | err (e : Err)
  | error (e : Err)
  | kind (k : Rust.Kind)
  | range (a b : Nat)
  | unit
  /-- a function inside a block -/
  | func (sig : Sig) (body : Stmt)

/-- The cursor, and the variables with whether they are `mut`, the newest first. -/
structure St where
  cur : Cursor
  locals : List (Ident × Bool × RV)

inductive Res (α : Type) where
  | ok (a : α)
  /-- the function returns -/
  | ret (v : RV)
  | panic
  /-- not known, or not allowed -/
  | bad
  /-- the call stack is deeper than the given bound -/
  | overflow

def M (α : Type) := St → Res α × St

def M.pure {α : Type} (a : α) : M α := fun s => (.ok a, s)
def M.bind {α β : Type} (x : M α) (f : α → M β) : M β := fun s =>
  match x s with
  | (.ok a, s) => f a s
  | (.ret v, s) => (.ret v, s)
  | (.panic, s) => (.panic, s)
  | (.bad, s) => (.bad, s)
  | (.overflow, s) => (.overflow, s)

instance : Monad M where
  pure := M.pure
  bind := M.bind

def bad {α : Type} : M α := fun s => (.bad, s)
def overflow {α : Type} : M α := fun s => (.overflow, s)
def ret {α : Type} (v : RV) : M α := fun s => (.ret v, s)
def need {α : Type} : Option α → M α
  | .some a => pure a
  | .none => bad

/-! ## Variables -/

def get (n : Ident) : M (Option RV) := fun s => (.ok ((s.locals.lookup n).map (·.2)), s)

def declare (n : Ident) (m : Bool) (v : RV) : M Unit := fun s => (.ok (), { s with locals := (n, m, v) :: s.locals })

/-- Change the newest variable of a name, if it is `mut`. -/
def setLocal (n : Ident) (f : RV → Option RV) : List (Ident × Bool × RV) → Option (List (Ident × Bool × RV))
  | [] => .none
  | (x, m, v) :: l =>
    if n = x then
      if m then (f v).map fun w => (x, m, w) :: l else .none
    else (setLocal n f l).map fun l => (x, m, v) :: l

def update (n : Ident) (f : RV → Option RV) : M RV := fun s =>
  match setLocal n f s.locals with
  | .some l => (.ok .unit, { s with locals := l })
  | .none => (.bad, s)

/-- What is declared inside a block is forgotten after it. -/
def inBlock {α : Type} (x : M α) : M α := fun s =>
  match x s with
  | (r, s') => (r, { s' with locals := s'.locals.drop (s'.locals.length - s.locals.length) })

/-! ## The library -/

/-- Methods of references are methods of what they refer to. -/
def peel : RV → RV
  | .ref v => peel v
  | v => v

def liftEnc (x : Rust.Enc) : M RV := fun s =>
  match x s.cur with
  | (.ok _, c) => (.ok (.ok .cursor), { s with cur := c })
  | (.err e, c) => (.ok (.err (.encoding e)), { s with cur := c })
  | (.panic, c) => (.panic, { s with cur := c })

def liftDec {α : Type} (x : Rust.Dec α) (g : α → RV) : M RV := fun s =>
  match x s.cur with
  | (.ok a, c) => (.ok (.ok (g a)), { s with cur := c })
  | (.err e, c) => (.ok (.err (.decoding e)), { s with cur := c })
  | (.panic, c) => (.panic, { s with cur := c })

/-- encoder.rs 45-93: the methods with one argument: `&String`, `&[u8]`, or a value. -/
def encode1 (m : Ident) : RV → Option Rust.Enc
  | .ref v =>
    match peel v with
    | .scalar (.string s) => if m = go!"encode_string" then .some (Rust.encode_string s) else .none
    | .scalar (.bytes s) => if m = go!"encode_bytes" then .some (Rust.encode_bytes s) else .none
    | _ => .none
  | .scalar (.bool v) => if m = go!"encode_bool" then .some (Rust.encode_bool v) else .none
  | .scalar (.int32 v) => if m = go!"encode_i32" then .some (Rust.encode_i32 v) else .none
  | .scalar (.uint32 v) => if m = go!"encode_u32" then .some (Rust.encode_u32 v) else .none
  | .scalar (.int64 v) => if m = go!"encode_i64" then .some (Rust.encode_i64 v) else .none
  | .scalar (.uint64 v) => if m = go!"encode_u64" then .some (Rust.encode_u64 v) else .none
  | .scalar (.float32 v) => if m = go!"encode_f32" then .some (Rust.encode_f32 v) else .none
  | .scalar (.float64 v) => if m = go!"encode_f64" then .some (Rust.encode_f64 v) else .none
  | _ => .none

/-- decoder.rs 57-78: the methods without arguments. -/
def decode0 (std : Std) : List (Ident × M RV) :=
  [(go!"decode_bool", liftDec (Rust.decode_bool std) fun v => .scalar (.bool v)),
   (go!"decode_i32", liftDec (Rust.decode_i32 std) fun v => .scalar (.int32 v)),
   (go!"decode_u32", liftDec (Rust.decode_u32 std) fun v => .scalar (.uint32 v)),
   (go!"decode_i64", liftDec (Rust.decode_i64 std) fun v => .scalar (.int64 v)),
   (go!"decode_u64", liftDec (Rust.decode_u64 std) fun v => .scalar (.uint64 v)),
   (go!"decode_f32", liftDec (Rust.decode_f32 std) fun v => .scalar (.float32 v)),
   (go!"decode_f64", liftDec (Rust.decode_f64 std) fun v => .scalar (.float64 v)),
   (go!"decode_string", liftDec (Rust.decode_string std) fun v => .scalar (.string v)),
   (go!"decode_bytes", liftDec (Rust.decode_bytes std) fun v => .scalar (.bytes v)),
   (go!"decode_error", liftDec (Rust.decode_error std) fun v => .error (.remote v)),
   -- `fn decode_none(self) -> bool`
   (go!"decode_none", fun s =>
     match Rust.decode_none std s.cur with
     | (.ok b, c) => (.ok (.scalar (.bool b)), { s with cur := c })
     | (.err _, c) => (.bad, { s with cur := c })
     | (.panic, c) => (.panic, { s with cur := c }))]

/-- Methods of the cursor: the traits `Encoder` and `Decoder`. -/
def cursorMethod (std : Std) (m : Ident) : List RV → M RV
  | [] => match (decode0 std).lookup m with
    | .some x => x
    | .none => bad
  | [.kind k] => if m = go!"decode_array" then liftDec (Rust.decode_array std k) .usize else bad
  | [.kind k, .kind v] => if m = go!"decode_map" then liftDec (Rust.decode_map std k v) .usize else bad
  | [.usize n, .kind k] => if m = go!"encode_array" then liftEnc (Rust.encode_array n k) else bad
  | [.usize n, .kind k, .kind v] => if m = go!"encode_map" then liftEnc (Rust.encode_map n k v) else bad
  | [a] => match encode1 m a with
    | .some x => liftEnc x
    | .none => bad
  | _ => bad

/-- kind.rs 17-36: those that the generator uses. -/
def kinds : List (Ident × Rust.Kind) :=
  [(go!"Any", .Any), (go!"Bytes", .Bytes), (go!"String", .String), (go!"Bool", .Bool), (go!"U32", .U32), (go!"U64", .U64),
   (go!"I32", .I32), (go!"I64", .I64), (go!"F32", .F32), (go!"F64", .F64)]

/-- decoder.rs 24-43: those that the generator uses. -/
def errors : List (Ident × Rust.DecodingError) :=
  [(go!"InvalidArray", .InvalidArray), (go!"InvalidMap", .InvalidMap), (go!"InvalidU32", .InvalidU32), (go!"InvalidEnum", .InvalidEnum),
   (go!"InvalidStruct", .InvalidStruct)]

/-- `HashMap::insert`: replace the value of a present key, otherwise add an entry. -/
def insert {α : Type} (k : Scalar) (v : α) : List Scalar → List α → List Scalar × List α
  | k' :: ks, v' :: vs => if k = k' then (k' :: ks, v :: vs) else ((k' :: (insert k v ks vs).1), (v' :: (insert k v ks vs).2))
  | _, _ => ([k], [v])

/-- `Vec::push`, `HashMap::insert`. -/
def mutate (m : Ident) (args : List RV) : RV → Option RV
  | .vec l => match args with
    | [v] => if m = go!"push" then .some (.vec (l ++ [v])) else .none
    | _ => .none
  | .map ks vs => match args with
    | [.scalar k, v] => if m = go!"insert" then .some (.map (insert k v ks vs).1 (insert k v ks vs).2) else .none
    | _ => .none
  | _ => .none

/-! ## Names of the program -/

section
variable (P : List Item)

def findImpl (tr n : Ident) : Option (Sig × Stmt) :=
  P.findSome? fun
    | .impl t m sig body => if t = tr ∧ m = n then .some (sig, body) else .none
    | _ => .none

/-- The names of the fields of a struct. -/
def findStruct (n : Ident) : Option (List Ident) :=
  P.findSome? fun
    | .struct m fs => if m = n then .some (fs.map (·.2.1)) else .none
    | _ => .none

/-- The attributes that make `try_from(u32)`. -/
def derives (attrs : List (Ident × List Ident)) : Bool :=
  attrs.any (fun a => a.1 = go!"derive" && a.2.contains go!"TryFromPrimitive") && attrs.any (fun a => a.1 = go!"repr" && a.2.contains go!"u32")

/-- The numbers of the constants of an enum. -/
def findEnum (n : Ident) : Option (List Nat) :=
  P.findSome? fun
    | .enum attrs m vs => if m = n ∧ derives attrs then vs.mapM fun v => decimalValue v.2 else .none
    | _ => .none

/-- The full path of a name that is imported. -/
def imported (path : List Ident) : Bool :=
  P.any fun
    | .use1 p => p = path
    | .use2 p g => g.any fun n => p ++ [n] = path
    | _ => false

def declares (n : Ident) : Bool :=
  P.any fun
    | .struct m _ => m = n
    | .enum _ m _ => m = n
    | .trait m _ => m = n
    | _ => false

/-- `v.n` -/
def fieldOf (v : RV) (n : Ident) : Option RV :=
  match peel v with
  | .struct t vs => do
    let ns ← findStruct P t
    if n ∈ ns then vs[ns.idxOf n]? else .none
  | _ => .none

/-- `N{ f: v, … }`: every field once. -/
def build (n : Ident) (xs : List (Ident × RV)) : Option RV := do
  let ns ← findStruct P n
  if xs.length = ns.length then
    let vs ← ns.mapM fun x => xs.lookup x
    .some (.struct n vs)
  else .none

def pathValue (a b : Ident) : Option RV :=
  if a = go!"Kind" ∧ imported P [go!"polyglot_rs", go!"Kind"] then (kinds.lookup b).map .kind
  else if a = go!"DecodingError" ∧ imported P [go!"polyglot_rs", go!"DecodingError"] then (errors.lookup b).map fun e => .error (.decoding e)
  else .none

/-- `Ok(v)`, `Err(e)`, `Some(v)` -/
def construct (n : Ident) : List RV → Option RV
  | [.error e] => if n = go!"Err" then .some (.err e) else .none
  | [v] => if n = go!"Ok" then .some (.ok v) else if n = go!"Some" then .some (.some v) else .none
  | _ => .none

/-- `T::try_from(n)` of `TryFromPrimitive` -/
def tryFrom (t : Ident) : List RV → Option RV
  | [.scalar (.uint32 v)] =>
    if imported P [go!"num_enum", go!"TryFromPrimitive"] then
      (findEnum P t).map fun ns => if v.toNat ∈ ns then .ok (.scalar (.enum v)) else .err .noSuchConstant
    else .none
  | _ => .none

/-- Functions of types of the library. -/
def libFunction (a b : Ident) : List RV → Option RV
  | [.usize _] => if a = go!"Vec" ∧ b = go!"with_capacity" ∧ declares P a = false then .some (.vec []) else .none
  | [] => if a = go!"HashMap" ∧ b = go!"new" ∧ imported P [go!"std", go!"collections", go!"HashMap"] then .some (.map [] []) else .none
  | _ => .none

/-! ## Expressions -/

section
/- Calls of methods of traits (trait, type, arguments) and of functions of blocks. -/
variable (std : Std) (trait : Ident → Ident → List RV → M RV) (local_ : Sig → Stmt → List RV → M RV)

/-- A call of a method: of the cursor, of a struct (`encode`), of `Option` and `Result`, of collections. -/
def method (v : RV) (n : Ident) (args : List RV) : M RV :=
  match peel v with
  | .cursor => if imported P [go!"polyglot_rs", go!"Encoder"] ∧ imported P [go!"polyglot_rs", go!"Decoder"] then cursorMethod std n args else bad
  | .struct t vs => if n = go!"encode" then trait go!"Encode" t (.ref (.struct t vs) :: args) else bad
  | .some w => match args with
    | [.error _] => if n = go!"ok_or" then pure (.ok w) else bad
    | _ => bad
  | .none => match args with
    | [.error e] => if n = go!"ok_or" then pure (.err e) else bad
    | _ => bad
  | .ok w => if n = go!"ok" ∧ args.isEmpty then pure (.some w) else bad
  | .err _ => if n = go!"ok" ∧ args.isEmpty then pure .none else bad
  | .vec l => if n = go!"len" ∧ args.isEmpty then pure (.usize l.length) else bad
  | .map _ vs => if n = go!"len" ∧ args.isEmpty then pure (.usize vs.length) else bad
  | _ => bad

/-- `f(args)` for a name: a function of the block, or a constructor. -/
def call1 (n : Ident) (args : List RV) : M RV := do
  match ← get n with
  | .some (.func sig body) => local_ sig body args
  | .some _ => bad
  | .none => need (construct n args)

/-- `T::f(args)` -/
def call2 (a b : Ident) (args : List RV) : M RV :=
  if b = go!"decode" then trait go!"Decode" a args
  else if b = go!"try_from" then need (tryFrom P a args)
  else need (libFunction P a b args)

mutual
def eval : Expr → M RV
  | .path [n] => do
    match ← get n with
    | .some (.func _ _) => bad
    | .some v => pure v
    | .none => if n = go!"None" then pure .none else bad
  | .path [a, b] => need (pathValue P a b)
  | .num s => need ((decimalValue s).map .usize)
  | .field e n => do
    let v ← eval e
    need (fieldOf P v n)
  | .method e n args =>
    if n = go!"push" ∨ n = go!"insert" then
      match e with
      | .path [x] => do
        let vs ← evalArgs args
        update x (mutate n vs)
      | _ => bad
    else do
      let v ← eval e
      let vs ← evalArgs args
      method P std trait v n vs
  | .call f args =>
    match f with
    | .path [n] => do
      let vs ← evalArgs args
      call1 local_ n vs
    | .path [a, b] => do
      let vs ← evalArgs args
      call2 P trait a b vs
    | _ => bad
  | .tr e => do
    match ← eval e with
    | .ok v => pure v
    | .err x => ret (.err x)
    | _ => bad
  | .ref e => do
    let v ← eval e
    pure (.ref v)
  | .deref e => do
    match ← eval e with
    | .ref v => pure v
    | _ => bad
  | .as e n => do
    match ← eval e with
    | .scalar (.enum v) => if n = go!"u32" then pure (.scalar (.uint32 v)) else bad
    | _ => bad
  | .range a b => do
    let x ← eval a
    let y ← eval b
    match x, y with
    | .usize x, .usize y => pure (.range x y)
    | _, _ => bad
  | .lit n fs => do
    let xs ← evalFields fs
    need (build P n xs)
  | _ => bad
def evalArgs : Expr → M (List RV)
  | .anil => pure []
  | .acons a rest => do
    let v ← eval a
    let vs ← evalArgs rest
    pure (v :: vs)
  | _ => bad
/-- The initialisers of a struct expression, in the order in which they are written. -/
def evalFields : Expr → M (List (Ident × RV))
  | .fnil => pure []
  | .fcons n e rest => do
    let v ← eval e
    let vs ← evalFields rest
    pure ((n, v) :: vs)
  | _ => bad
end

/-! ## Statements -/

/-- A block that ends without a value. -/
def noValue (x : M (Option RV)) : M Unit := do
  match ← x with
  | .none => pure ()
  | .some _ => bad

/-- A statement without a value. -/
def done (x : M Unit) : M (Option RV) := do
  x
  pure .none

def declareAll : List (Ident × RV) → M Unit
  | [] => pure ()
  | (n, v) :: l => do
    declare n false v
    declareAll l

/-- The rounds of a `for` loop, with the variables of each. -/
def loop (body : M (Option RV)) : List (List (Ident × RV)) → M Unit
  | [] => pure ()
  | vs :: rest => do
    inBlock (declareAll vs >>= fun _ => noValue body)
    loop body rest

/-- `some v`: the value of the block. -/
def exec : Stmt → M (Option RV)
  | .skip => pure .none
  | .seq s rest => do
    match ← exec s with
    | .none => exec rest
    | .some v => if rest = .skip then pure (.some v) else bad
  | .let1 m n e => do
    let v ← eval P std trait local_ e
    declare n m v
    pure .none
  | .expr e => do
    let _ ← eval P std trait local_ e
    pure .none
  | .tail e => do
    let v ← eval P std trait local_ e
    pure (.some v)
  | .ret e => do
    let v ← eval P std trait local_ e
    ret v
  | .if1 c t => do
    match ← eval P std trait local_ c with
    | .scalar (.bool true) => done (inBlock (noValue (exec t)))
    | .scalar (.bool false) => pure .none
    | _ => bad
  | .ifLet c x e t => do
    match ← eval P std trait local_ e with
    | .ok v => if c = go!"Ok" then done (inBlock (declare x false v >>= fun _ => noValue (exec t))) else bad
    | .err _ => if c = go!"Ok" then pure .none else bad
    | _ => bad
  | .for1 x e b => do
    match ← eval P std trait local_ e with
    | .range m n => done (loop (exec b) ((List.range' m (n - m)).map fun i => [(x, .usize i)]))
    | .ref (.vec l) => done (loop (exec b) (l.map fun v => [(x, .ref v)]))
    | _ => bad
  | .for2 x y e b => do
    match ← eval P std trait local_ e with
    | .ref (.map ks vs) => done (loop (exec b) ((ks.zip vs).map fun p => [(x, .ref (.scalar p.1)), (y, .ref p.2)]))
    | _ => bad
  | .func sig body => do
    declare sig.name false (.func sig body)
    pure .none

/-- The variables of a function at its start. -/
def bindParams (sig : Sig) (args : List RV) : Option (List (Ident × Bool × RV)) :=
  let names := (match sig.self with | .some _ => [go!"self"] | .none => []) ++ sig.params.map (·.1)
  if names.length = args.length then .some ((names.zip args).map fun p => (p.1, false, p.2)) else .none

/-- A call: the function has variables of its own. -/
def runFn (sig : Sig) (body : Stmt) (args : List RV) : M RV := fun s =>
  match bindParams sig args with
  | .none => (.bad, s)
  | .some l =>
    match exec P std trait local_ body { s with locals := l } with
    | (.ok (.some v), s') => (.ok v, { s' with locals := s.locals })
    | (.ok .none, s') => (.bad, { s' with locals := s.locals })
    | (.ret v, s') => (.ok v, { s' with locals := s.locals })
    | (.panic, s') => (.panic, { s' with locals := s.locals })
    | (.bad, s') => (.bad, { s' with locals := s.locals })
    | (.overflow, s') => (.overflow, { s' with locals := s.locals })

end

/-- A call of a method of a trait; `depth` bounds how deep such calls are nested. -/
def runTrait (std : Std) : (depth : Nat) → Ident → Ident → List RV → M RV
  | 0, _, _, _ => overflow
  | n + 1, tr, t, args =>
    match findImpl P tr t with
    | .some (sig, body) => runFn P std (runTrait std n) (runFn P std (runTrait std n) fun _ _ _ => bad) sig body args
    | .none => bad

end

/-- What the caller of `x.encode(&mut cursor)` sees: the result and the cursor. -/
def runEncode (P : List Item) (std : Std) (depth : Nat) (t : Ident) (x : RV) (c : Cursor) : Res RV × Cursor :=
  match runTrait P std depth go!"Encode" t [.ref x, .cursor] ⟨c, []⟩ with
  | (r, s) => (r, s.cur)

/-- What the caller of `T::decode(&mut cursor)` sees. -/
def runDecode (P : List Item) (std : Std) (depth : Nat) (t : Ident) (c : Cursor) : Res RV × Cursor :=
  match runTrait P std depth go!"Decode" t [.cursor] ⟨c, []⟩ with
  | (r, s) => (r, s.cur)

end RustRun
