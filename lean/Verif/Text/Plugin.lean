import Verif.Text.GoReads
import Verif.Gen.TsGen

/-!
# The compiler plugins

What a plugin answers to a request of protoc (`Generate`).  The library `protogen` turns the request into files, keeps the texts that
the generator writes, and, for files with the extension `.go`, parses and reformats them when the answer is made; a text that Go's
parser rejects makes the whole answer an error.
-/

namespace Plugin

open Utils Text GoAst GoText

variable {lib : Lib}

/-- A file of the request (`protogen.File`): its descriptors, `GeneratedFilenamePrefix`, and whether it was asked for (the others are
imported by those). -/
structure ReqFile where
  desc : FileD
  stem : Bytes
  wanted : Bool

/-- v2/generator/golang/defaults.go 20 -/
def Extension : Bytes := str!".polyglot.go"

/-- v2/generator/golang/headers.go 23-25; `AppendString` of two strings (v2/utils/utils.go 106-113). -/
def FileName (stem : Bytes) : Bytes := stem ++ Extension

/-- v2/generator/golang/generator.go 93-108: the loop of `Generate`; the files that were written, in order.  If the templates fail on one
file there is no answer (the error is returned, and `main` panics). -/
inductive Writes [Lib] (version : Bytes) : List ReqFile → List (Bytes × Bytes) → Prop where
  | done : Writes version [] []
  | skip {f : ReqFile} {fs : List ReqFile} {out : List (Bytes × Bytes)} : f.wanted = false → Writes version fs out → Writes version (f :: fs) out
  | file {f : ReqFile} {fs : List ReqFile} {out : List (Bytes × Bytes)} {txt : Bytes} :
    f.wanted = true → Generates version f.desc txt → Writes version fs out → Writes version (f :: fs) ((FileName f.stem, txt) :: out)

inductive Response where
  /-- `CodeGeneratorResponse` with `error` -/
  | error
  /-- with names and contents of files -/
  | files (fs : List (Bytes × Bytes))
deriving DecidableEq, Repr

/-- `plugin.Response()` (generator.go 110) without the option `module`; `format` is Go's parser and printer, which `protogen` runs on
every file with the extension `.go`. -/
def respond (format : Bytes → Option Bytes) (out : List (Bytes × Bytes)) : Response :=
  match out.mapM fun p => (format p.2).map fun t => (p.1, t) with
  | some fs => .files fs
  | none => .error

/-- v2/generator/golang/generator.go 87-111 and v2/protoc-gen-go-polyglot/main.go: the answer to a request. -/
def Answers [Lib] (version : Bytes) (format : Bytes → Option Bytes) (req : List ReqFile) (r : Response) : Prop :=
  ∃ out, Writes version req out ∧ r = respond format out

theorem Writes.unique {version : Bytes} {req : List ReqFile} {a b : List (Bytes × Bytes)} (h1 : Writes version req a) (h2 : Writes version req b) : a = b := by
  induction h1 generalizing b with
  | done => cases h2; rfl
  | skip hw _ ih =>
    cases h2 with
    | skip _ h => exact ih h
    | file hw' _ _ => rw [hw] at hw'; cases hw'
  | file hw hg _ ih =>
    cases h2 with
    | skip hw' _ => rw [hw] at hw'; cases hw'
    | file _ hg' h => rw [hg.unique hg', ih h]

theorem Answers.unique {version : Bytes} {format : Bytes → Option Bytes} {req : List ReqFile} {a b : Response} (h1 : Answers version format req a)
    (h2 : Answers version format req b) : a = b := by
  obtain ⟨x, hx, rfl⟩ := h1
  obtain ⟨y, hy, rfl⟩ := h2
  rw [hx.unique hy]

theorem respond_cons (format : Bytes → Option Bytes) (p : Bytes × Bytes) (out : List (Bytes × Bytes)) :
    respond format (p :: out) = match format p.2, respond format out with
      | some t, .files fs => .files ((p.1, t) :: fs)
      | _, _ => .error := by
  rw [respond, List.mapM_cons]
  cases format p.2 with
  | none => simp
  | some t =>
    simp only [Option.map_some, Option.pure_def, Option.bind_eq_bind, Option.bind_some]
    rw [respond]
    cases out.mapM fun p => (format p.2).map fun t => (p.1, t) <;> rfl

/-! ## TypeScript -/

/-- A set of names as `text/template` ranges over the keys of a map: sorted, each once. -/
def insertName (n : String) : List String → List String
  | [] => [n]
  | m :: ms => if n < m then n :: m :: ms else if n = m then m :: ms else m :: insertName n ms

/-- `Generator.dependencies` after names are recorded (generator/typescript/generator.go 168-172). -/
def record (deps : List String) (names : List String) : List String := names.foldl (fun d n => insertName n d) deps

/-- generator/typescript/generator.go 113-166: `Generate` of the TypeScript plugin, as far as the import lines: the names that each
written file imports.  `dependencies` is made once, by `New` (generator.go 99), and is only added to; `none`: a panic. -/
def tsImports (deps : List String) : List Gen.Schema → Option (List (List String))
  | [] => some []
  | S :: rest =>
    match TsGen.imports S with
    | none => none
    | some names => (tsImports (record deps names) rest).map (record deps names :: ·)

theorem mem_insertName (a n : String) (l : List String) : a ∈ insertName n l ↔ a = n ∨ a ∈ l := by
  induction l with
  | nil => simp [insertName]
  | cons m ms ih =>
    unfold insertName
    split
    · simp
    · split
      · rename_i h; subst h; simp
      · simp only [List.mem_cons, ih]
        constructor
        · rintro (h | h | h)
          · exact .inr (.inl h)
          · exact .inl h
          · exact .inr (.inr h)
        · rintro (h | h | h)
          · exact .inr (.inl h)
          · exact .inl h
          · exact .inr (.inr h)

theorem mem_record (a : String) (deps names : List String) : a ∈ record deps names ↔ a ∈ deps ∨ a ∈ names := by
  unfold record
  induction names generalizing deps with
  | nil => simp
  | cons n ns ih =>
    rw [List.foldl_cons, ih, mem_insertName, List.mem_cons]
    constructor
    · rintro ((h | h) | h)
      · exact .inr (.inl h)
      · exact .inl h
      · exact .inr (.inr h)
    · rintro (h | h | h)
      · exact .inl (.inr h)
      · exact .inl (.inl h)
      · exact .inr h

end Plugin
