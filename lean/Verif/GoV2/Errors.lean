import Verif.Base

/-!
# Model of /repo/v2/error.go (identical to /repo/encode.go 46-54) and of the standard library's `errors.Is`
-/

namespace GoErrors

/-- A non-nil Go `error` value: a `polyglot.Error`, or any other error, which is compared by identity (`id`),
has some message and may wrap one other error (as `fmt.Errorf` with `%w` does).  Simplification: errors of
other types have no `Is` method of their own and wrap at most one error. -/
inductive GoError where
  | polyglot (text : Bytes)
  | other (id : Nat) (text : Bytes) (wrapped : Option GoError)

/-- `err.Error()`; for `polyglot.Error` v2/error.go 21-23. -/
def GoError.text : GoError → Bytes
  | .polyglot t => t
  | .other _ t _ => t

/-- `err == target` for interface values: same dynamic type and same value. -/
def same : GoError → GoError → Bool
  | .polyglot a, .polyglot b => a == b
  | .other a _ _, .other b _ _ => a == b
  | _, _ => false

/-- v2/error.go 25-27 `func (e Error) Is(err error) bool`; `err.Error()` on a nil interface panics. -/
def isMethod (e : Bytes) (err : Option GoError) : Go Bool :=
  match err with
  | none => .panic
  | some err => .ok (e == err.text)

/-- Go standard library, errors/wrap.go: `errors.is` for a non-nil target: compare, then call the `Is` method
if there is one, then unwrap. -/
def stdIsAux (err : GoError) (target : GoError) : Go Bool :=
  if same err target then .ok true
  else
    match err with
    | .polyglot t => isMethod t (some target)
    | .other _ _ none => .ok false
    | .other _ _ (some w) => stdIsAux w target

/-- Go standard library, errors/wrap.go: `errors.Is`. -/
def stdIs (err target : Option GoError) : Go Bool :=
  match err, target with
  | some e, some t => stdIsAux e t
  | none, none => .ok true
  | _, _ => .ok false

end GoErrors
