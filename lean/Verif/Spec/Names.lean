import Verif.Base

/-!
# What the identifier conversions do, character by character

Independent of the loops of utils.go: each character of the result comes from one position of the name and depends on its
neighbours only.
-/

namespace Spec

def lowerCase (c : Byte) : Bool := 0x61 ≤ c.toNat && c.toNat ≤ 0x7A
def upperCase (c : Byte) : Bool := 0x41 ≤ c.toNat && c.toNat ≤ 0x5A
def digit (c : Byte) : Bool := 0x30 ≤ c.toNat && c.toNat ≤ 0x39

/-- What becomes of the `i`-th character of a name in CamelCase: dots are dropped, underscores in front of the name or of a
lower-case letter are dropped, and a lower-case letter that starts a word (first, or after an underscore, a dot or a
digit) becomes a capital. -/
def camelAt (s : Bytes) (i : Nat) : Bytes :=
  match s[i]? with
  | none => []
  | some c =>
    let startsWord := i = 0 ∨ s[i - 1]?.any (fun p => p == 0x5F || p == 0x2E || digit p)
    let beforeLower := s[i + 1]?.any lowerCase
    if c = 0x2E ∨ c = 0x5F ∧ (i = 0 ∨ beforeLower) then []
    else if lowerCase c ∧ startsWord then [c - 0x20] else [c]

/-- What becomes of the `i`-th rune in snake_case: capitals become small, with an underscore in front if they start a run of
capitals inside the name. -/
def snakeAt (s : List Nat) (i : Nat) : List Nat :=
  let up (c : Nat) : Bool := 0x41 ≤ c ∧ c ≤ 0x5A
  match s[i]? with
  | none => []
  | some c =>
    if up c then (if i ≠ 0 ∧ s[i - 1]?.any up = false then [0x5F] else []) ++ [c + 0x20] else [c]

end Spec
