import Verif.Base

/-!
# /repo/v2/utils/utils.go (identical to /repo/utils/utils.go): identifier conversion for the generators

Go strings are byte sequences; `CamelCase` works on bytes, `SnakeCase` on runes.
-/

namespace Utils

/-- ASCII text as bytes, for writing down concrete names. -/
def ascii (s : String) : Bytes := s.toList.map fun c => BitVec.ofNat 8 c.toNat

/-- `'a' <= c && c <= 'z'` -/
def isLower (c : Byte) : Bool := 0x61 ≤ c.toNat && c.toNat ≤ 0x7A
/-- `'A' <= c && c <= 'Z'` -/
def isUpper (c : Byte) : Bool := 0x41 ≤ c.toNat && c.toNat ≤ 0x5A
/-- `'0' <= c && c <= '9'` -/
def isDigit (c : Byte) : Bool := 0x30 ≤ c.toNat && c.toNat ≤ 0x39
/-- `'_'` -/
def underscore : Byte := 0x5F
/-- `'.'` -/
def dot : Byte := 0x2E

/-- `i+1 < len(s) && 'a' <= s[i+1] && s[i+1] <= 'z'`, where `rest` is `s[i+1:]`. -/
def nextLower (rest : Bytes) : Bool := match rest with
  | [] => false
  | d :: _ => isLower d

/-- /repo/v2/utils/utils.go 48-72: the loop of `CamelCase`, on the suffix `s[i:]`.  The inner loop (68-71)
copies the lower-case letters that follow and continues after them. -/
def camelLoop : Bytes → Bytes
  | [] => []
  | c :: rest =>
    if c = underscore ∧ nextLower rest then camelLoop rest
    else if c = dot then camelLoop rest
    else if isDigit c then c :: camelLoop rest
    else (if isLower c then c ^^^ 0x20 else c) ::
      (rest.takeWhile isLower ++ camelLoop (rest.dropWhile isLower))
termination_by s => s.length
decreasing_by
  all_goals simp only [List.length_cons]
  all_goals first
    | omega
    | (have := (List.dropWhile_suffix isLower (l := rest)).length_le; omega)

/-- /repo/v2/utils/utils.go 36-74 `CamelCase`: one leading underscore is skipped. -/
def camelCase (s : Bytes) : Bytes :=
  match s with
  | [] => []
  | c :: rest => if c = underscore then camelLoop rest else camelLoop (c :: rest)

/-- /repo/v2/utils/utils.go 76-92: the loop of `SnakeCase` over the runes of the string.  `out` is the
content of the buffer so far, `consc` the flag.  Runes are given by their code point. -/
def snakeLoop (out : List Nat) (consc : Bool) : List Nat → List Nat
  | [] => out
  | c :: rest =>
    if 0x41 ≤ c ∧ c ≤ 0x5A then
      let out := if out.length > 0 ∧ ¬ consc then out ++ [0x5F] else out
      snakeLoop (out ++ [c - 0x41 + 0x61]) true rest
    else snakeLoop (out ++ [c]) false rest

/-- /repo/v2/utils/utils.go 76-92 `SnakeCase`.  Simplification: the string is given as the sequence of its
runes (invalid UTF-8 has already become U+FFFD) and so is the result. -/
def snakeCase (s : List Nat) : List Nat := snakeLoop [] false s

/-- /repo/v2/utils/utils.go 127-137 `LowercaseCamelCase` for strings whose first byte is ASCII, which is
all a proto identifier can start with (`unicode.ToLower` of an ASCII rune). -/
def lowercaseCamelCase (s : Bytes) : Bytes :=
  match s with
  | [] => []
  | c :: rest => (if isUpper c then c ^^^ 0x20 else c) :: rest

/-- /repo/v2/utils/utils.go 115-121 `FirstLowerCase` for strings whose first byte is ASCII: the first
rune is the first byte, and the rest of the string is kept. -/
def firstLowerCase (s : Bytes) : Bytes :=
  match s with
  | [] => []
  | c :: rest => (if isUpper c then c ^^^ 0x20 else c) :: rest

/-- /repo/v2/utils/utils.go 106-113 `AppendString`. -/
def appendString (inputs : List Bytes) : Bytes := inputs.foldl (· ++ ·) []

end Utils
