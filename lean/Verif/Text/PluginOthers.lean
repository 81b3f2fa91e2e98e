import Verif.Text.Plugin
import Verif.Text.TsNames

/-!
# The Rust and the TypeScript plugin

What they answer to a request of protoc (`Generate`).  Their files do not have the extension `.go`: `protogen` keeps the texts as they are.
-/

namespace Plugin

open Utils Text GoText
open Package.Rust (World)

/-- generator/rust/defaults.go 20 -/
def RustExtension : Bytes := str!"_polyglot.rs"

/-- generator/rust/headers.go 23-25 -/
def RustFileName (stem : Bytes) : Bytes := stem ++ RustExtension

/-- generator/typescript/defaults.go 20 -/
def TsExtension : Bytes := str!".polyglot.ts"

/-- generator/typescript/headers.go 23-25 -/
def TsFileName (stem : Bytes) : Bytes := stem ++ TsExtension

/-- generator/rust/generator.go 108-164 and protoc-gen-rs-polyglot/main.go: the answer to a request, as names and contents of files.  Each
text is run through the program `rustfmt` when the file is written; if the templates or `rustfmt` fail on one file there is no answer (the
error is returned, and `main` panics).  `W` has the message types that the fields refer to. -/
inductive RustAnswers (privacy : Bytes) (W : World) (version : Bytes) (rustfmt : Bytes → Option Bytes) : List ReqFile → List (Bytes × Bytes) → Prop where
  | done : RustAnswers privacy W version rustfmt [] []
  | skip {f : ReqFile} {fs : List ReqFile} {out : List (Bytes × Bytes)} : f.wanted = false → RustAnswers privacy W version rustfmt fs out →
    RustAnswers privacy W version rustfmt (f :: fs) out
  | file {f : ReqFile} {fs : List ReqFile} {out : List (Bytes × Bytes)} {txt content : Bytes} :
    f.wanted = true → RustText.Generates privacy W version f.desc txt → rustfmt txt = some content → RustAnswers privacy W version rustfmt fs out →
    RustAnswers privacy W version rustfmt (f :: fs) ((RustFileName f.stem, content) :: out)

/-- generator/typescript/generator.go 113-166 and protoc-gen-ts-polyglot/main.go: the answer to the rest of a request, as names and
contents of files, when the files `before` are done.  If the templates fail on one file there is no answer. -/
inductive TsAnswers (version : Bytes) : List FileD → List ReqFile → List (Bytes × Bytes) → Prop where
  | done {before : List FileD} : TsAnswers version before [] []
  | skip {before : List FileD} {f : ReqFile} {fs : List ReqFile} {out : List (Bytes × Bytes)} : f.wanted = false → TsAnswers version before fs out →
    TsAnswers version before (f :: fs) out
  | file {before : List FileD} {f : ReqFile} {fs : List ReqFile} {out : List (Bytes × Bytes)} {txt : Bytes} :
    f.wanted = true → TsText.Generates before version f.desc txt → TsAnswers version (before ++ [f.desc]) fs out →
    TsAnswers version before (f :: fs) ((TsFileName f.stem, txt) :: out)

theorem RustAnswers.unique {privacy version : Bytes} {W : World} {rustfmt : Bytes → Option Bytes} {req : List ReqFile} {a b : List (Bytes × Bytes)}
    (h1 : RustAnswers privacy W version rustfmt req a) (h2 : RustAnswers privacy W version rustfmt req b) : a = b := by
  induction h1 generalizing b with
  | done => cases h2; rfl
  | skip hw _ ih =>
    cases h2 with
    | skip _ h => exact ih h
    | file hw' _ _ _ => rw [hw] at hw'; cases hw'
  | file hw hg hr _ ih =>
    cases h2 with
    | skip hw' _ => rw [hw] at hw'; cases hw'
    | file _ hg' hr' h =>
      rw [hg.unique hg', hr'] at hr
      cases hr
      rw [ih h]

theorem TsAnswers.unique {version : Bytes} {before : List FileD} {req : List ReqFile} {a b : List (Bytes × Bytes)}
    (h1 : TsAnswers version before req a) (h2 : TsAnswers version before req b) : a = b := by
  induction h1 generalizing b with
  | done => cases h2; rfl
  | skip hw _ ih =>
    cases h2 with
    | skip _ h => exact ih h
    | file hw' _ _ => rw [hw] at hw'; cases hw'
  | file hw hg _ ih =>
    cases h2 with
    | skip hw' _ => rw [hw] at hw'; cases hw'
    | file _ hg' h => rw [hg.unique hg', ih h]

end Plugin
