/-!
# Which of the two Go generators

/repo has two Go generators, /repo/generator/golang for the library /repo and /repo/v2/generator/golang for the library /repo/v2.
Apart from the paths of imports, structs.go and defaults.go are the same in both, and so are all template files except
decode.templ, decodeMap.templ, errors.templ and structs.templ.
-/

/-- The generator. -/
class inductive Lib where
  | v1
  | v2

/-- What is different in the two generators. -/
def Lib.pick {α : Sort _} [lib : Lib] (a b : α) : α :=
  match lib with
  | .v1 => a
  | .v2 => b

namespace LibV1
attribute [scoped instance] Lib.v1
end LibV1

namespace LibV2
attribute [scoped instance] Lib.v2
end LibV2

/-- Do the proof for each generator. -/
macro "by_lib " t:tacticSeq : tactic => do
  let l := Lean.mkIdent `lib
  `(tactic| (cases $l:ident; (open LibV1 in ($t)); (open LibV2 in ($t))))
