import Verif.Text.Template
/-! Prints lean/Verif/Text/TsTemplates.lean: the template files as they are, and what they parse to.
usage: cp tools/mktstemplates.txt /tmp/Mk.lean; cd lean && lake env lean --run /tmp/Mk.lean > Verif/Text/TsTemplates.lean -/
open Tmpl

structure St where
  defs : Array String := #[]
  texts : Nat := 0
  ranges : Nat := 0

def unpack (n : Nat) : String := Id.run do
  let mut n := n
  let mut cs : List Char := []
  while n ≠ 0 do
    cs := Char.ofNat (n % 256) :: cs
    n := n / 256
  return String.ofList cs

def quote (b : Bytes) : String := "\"" ++ String.join (b.map fun c =>
  let c := Char.ofNat c.toNat
  if c = '"' then "\\\"" else if c = '\n' then "\\n" else if c = '\\' then "\\\\" else c.toString) ++ "\""

def ident (n : Nat) : String := if n = 0 then "0" else s!"id!\"{unpack n}\""

partial def pe : Expr → String
  | .nil => ".nil"
  | .cons a b => s!"(.cons {pe a} {pe b})"
  | .str s => s!"(.str str!{quote s})"
  | .num n => s!"(.num {n})"
  | .path r fs a => s!"(.path {match r with | none => "none" | some v => s!"(some {ident v})"} [{", ".intercalate (fs.map ident)}] {pe a})"
  | .call f a => s!"(.call {ident f} {pe a})"

partial def pb (pre : String) : Body → StateM St String
  | .nil => return ".nil"
  | .text s rest => do
    let n := (← get).texts
    modify fun st => { st with texts := n + 1, defs := st.defs.push s!"def {pre}_t{n} : Bytes := str!{quote s}\n" }
    let r ← pb pre rest
    return s!".text {pre}_t{n} <| {r}"
  | .action e rest => return s!".action {pe e} <| {← pb pre rest}"
  | .assign v e rest => return s!".assign {ident v} {pe e} <| {← pb pre rest}"
  | .ite e t f rest => return s!".ite {pe e} ({← pb pre t}) ({← pb pre f}) <| {← pb pre rest}"
  | .template n e rest => return s!".template {ident n} {pe e} <| {← pb pre rest}"
  | .range i v e b rest => do
    let n := (← get).ranges
    modify fun st => { st with ranges := n + 1 }
    let bt ← pb pre b
    modify fun st => { st with defs := st.defs.push s!"def {pre}_r{n} : Body :=\n  {bt}\n" }
    return s!".range {match i with | none => "none" | some i => s!"(some {ident i})"} {ident v} {pe e} {pre}_r{n} <| {← pb pre rest}"

def bytesOf (s : String) : Bytes := s.toUTF8.toList.map fun c => BitVec.ofNat 8 c.toNat

def main : IO Unit := do
  let dir := "/repo/generator/typescript/templates/"
  IO.println "import Verif.Text.Template

/-!
# The templates of the TypeScript generator

/repo/generator/typescript/templates/*.templ, copied without change (by tools/mktstemplates.txt), and what they parse to; the
kernel checks the parsing.  /repo/v2/generator/typescript/templates has the same files.  `body.templ` and then `head.templ` are
executed (generator.go 144, 152); the others contain definitions.
-/

namespace TsTempl

open Tmpl
"
  let files := ["body", "head", "decode", "decodeMap", "encode", "enums", "headers", "imports", "messages", "structs"]
  let mut all : Array String := #[]
  for f in files do
    let src ← IO.FS.readFile (dir ++ f ++ ".templ")
    IO.println s!"/-- /repo/generator/typescript/templates/{f}.templ -/\ndef {f}Src : Bytes := str!\"{(src.replace "\\" "\\\\").replace "\"" "\\\""}\"\n"
    if f = "body" || f = "head" then
      let some b := parseBody (bytesOf src) | throw (IO.userError f)
      let (t, st) := (pb f b).run {}
      for d in st.defs do IO.println d
      IO.println s!"def {f}Body : Body :=\n  {t}\n"
      IO.println s!"theorem {f}_parses : parseBody {f}Src = some {f}Body := by decide +kernel\n"
    else
      let some ds := parseDefinitions (bytesOf src) | throw (IO.userError f)
      let mut l : Array String := #[]
      for (n, b) in ds do
        let nm := unpack n
        let (t, st) := (pb nm b).run {}
        for d in st.defs do IO.println d
        IO.println s!"def {nm}Body : Body :=\n  {t}\n"
        l := l.push s!"(id!\"{nm}\", {nm}Body)"
      all := all ++ l
      IO.println s!"theorem {f}_parses : parseDefinitions {f}Src = some [{", ".intercalate l.toList}] := by decide +kernel\n"
  IO.println s!"/-- All named templates (generator.go 84 `ParseFS`). -/\ndef defs : List (Nat × Body) :=\n  [{",\n   ".intercalate all.toList}]\n"
  -- the definitions of `sources`, `parsed` and `parsed_eq` follow by hand
  IO.println "end TsTempl"
