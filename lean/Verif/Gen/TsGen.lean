import Verif.Gen.Schema

/-!
# Model of the TypeScript generator (generator/typescript, v2/generator/typescript: the same)

Generated TypeScript imports its encoding and decoding functions from the package by name.  The model is about
these names and about the order in which fields are visited; what the code does when it runs is not modelled
(for most schemas it does not get that far, see Props/TsGenerated.lean).
-/

namespace TsGen

open Gen

/-- structs.go 34-50. -/
def typeLUT : PKind → Option String
  | .bool => some "boolean"
  | .int32 => some "number"
  | .sint32 => some "number"
  | .uint32 => some "number"
  | .int64 => some "number"
  | .sint64 => some "number"
  | .uint64 => some "number"
  | .sfixed32 => some "number"
  | .sfixed64 => some "number"
  | .fixed32 => some "number"
  | .fixed64 => some "number"
  | .float => some "number"
  | .double => some "number"
  | .string => some "string"
  | .bytes => some "Uint8Array"
  | _ => none

/-- structs.go 52-69. -/
def encodeLUT : PKind → Option String
  | .bool => some "encodeBoolean"
  | .int32 => some "encodeInt32"
  | .sint32 => some "encodeInt32"
  | .uint32 => some "encodeUint32"
  | .int64 => some "encodeInt64"
  | .sint64 => some "encodeInt64"
  | .uint64 => some "encodeUint64"
  | .sfixed32 => some "encodeInt32"
  | .sfixed64 => some "encodeInt64"
  | .fixed32 => some "encodeUint32"
  | .fixed64 => some "encodeUint64"
  | .string => some "encodeString"
  | .float => some "encodeFloat32"
  | .double => some "encodeFloat64"
  | .bytes => some "encodeBytes"
  | .enum => some "encodeUint32"
  | _ => none

/-- structs.go 71-88. -/
def decodeLUT : PKind → Option String
  | .bool => some "decodeBoolean"
  | .int32 => some "decodeInt32"
  | .sint32 => some "decodeInt32"
  | .uint32 => some "decodeUint32"
  | .int64 => some "decodeInt64"
  | .sint64 => some "decodeInt64"
  | .uint64 => some "decodeUint64"
  | .sfixed32 => some "decodeInt32"
  | .sfixed64 => some "decodeInt64"
  | .fixed32 => some "decodeUint32"
  | .fixed64 => some "decodeUint64"
  | .string => some "decodeString"
  | .float => some "decodeFloat32"
  | .double => some "decodeFloat64"
  | .bytes => some "decodeBytes"
  | .enum => some "decodeUint32"
  | _ => none

/-- structs.go 90-107, without the prefix `Kind.`. -/
def kindLUT : PKind → Option String
  | .bool => some "Bool"
  | .int32 => some "Int32"
  | .sint32 => some "Int32"
  | .uint32 => some "U32"
  | .int64 => some "I64"
  | .sint64 => some "I64"
  | .uint64 => some "U64"
  | .sfixed32 => some "Int32"
  | .sfixed64 => some "I64"
  | .fixed32 => some "U32"
  | .fixed64 => some "U64"
  | .string => some "String"
  | .float => some "F32"
  | .double => some "F64"
  | .bytes => some "Bytes"
  | .enum => some "U32"
  | _ => none

/-- structs.go 221-235 `getKind`; `none`: panic.  defaults.go 21: `Kind.Any`. -/
def getKind (k : PKind) : Option String :=
  match kindLUT k with
  | some s => some s
  | none => if k = .message then some "Any" else none

/-- Fields by position: messages and maps, repeated fields, the others. -/
structure Fields where
  messageFields : List Nat
  sliceFields : List Nat
  values : List Nat
deriving DecidableEq, Repr

/-- structs.go 152-183 `getEncodingFields` (the encoder call of each value is determined by its field); `none`: panic. -/
def encLoop (i : Nat) : List Field → Option Fields
  | [] => some ⟨[], [], []⟩
  | f :: fs =>
    match encLoop (i + 1) fs with
    | none => none
    | some r =>
      if f.Cardinality = .repeated ∧ f.IsMap = false then some { r with sliceFields := i :: r.sliceFields }
      else match encodeLUT f.Kind with
        | none => if f.Kind = .message then some { r with messageFields := i :: r.messageFields } else none
        | some _ => some { r with values := i :: r.values }

/-- structs.go 191-219 `getDecodingFields`; `none`: panic. -/
def decLoop (i : Nat) : List Field → Option Fields
  | [] => some ⟨[], [], []⟩
  | f :: fs =>
    match decLoop (i + 1) fs with
    | none => none
    | some r =>
      if f.Cardinality = .repeated ∧ f.IsMap = false then some { r with sliceFields := i :: r.sliceFields }
      else match decodeLUT f.Kind with
        | none => if f.Kind = .message then some { r with messageFields := i :: r.messageFields } else none
        | some _ => some { r with values := i :: r.values }

def getEncodingFields (fs : List Field) : Option Fields := encLoop 0 fs
def getDecodingFields (fs : List Field) : Option Fields := decLoop 0 fs

/-- templates/encode.templ 1-20: the order in which `encode` writes the fields. -/
def encodeOrder (fs : List Field) : Option (List Nat) :=
  (getEncodingFields fs).map fun e => e.values ++ e.sliceFields ++ e.messageFields

/-- templates/decode.templ 6-54: the order in which `decode` reads the fields. -/
def decodeOrder (fs : List Field) : Option (List Nat) :=
  (getDecodingFields fs).map fun d => d.sliceFields ++ d.messageFields ++ d.values

/-- templates/structs.templ 10-14: the parameters of the constructor, as field positions. -/
def parameters (fs : List Field) : List Nat := List.range fs.length

/-- templates/decode.templ 56-66: the arguments `decode` passes to the constructor, as field positions. -/
def arguments (fs : List Field) : Option (List Nat) :=
  (getDecodingFields fs).map fun d => d.values ++ d.sliceFields ++ d.messageFields

/-! ## Imported names -/

/-- structs.go 237-253: looking up an encoder or decoder records it as a dependency. -/
def lut (x : Option String) : List String := x.toList

/-- templates/encode.templ 23-37 for one repeated field; `Kind` is recorded by `GetKindLUT` in the else branch only. -/
def depsEncodeSlice (k : PKind) : List String :=
  lut (encodeLUT k) ++
    (if encodeLUT k = none ∧ k = .message then ["encodeArray"] else ["encodeArray", "Kind"])

/-- templates/encode.templ 43-68 for one map; `none`: panic in `GetKind`. -/
def depsEncodeMap (kk k : PKind) : Option (List String) :=
  match getKind kk, getKind k with
  | some _, some _ => some (["Kind", "encodeMap"] ++ lut (encodeLUT kk) ++ (if kk = .enum then ["encodeUint32"] else []) ++
      lut (encodeLUT k) ++ (if k = .enum then ["encodeUint32"] else []))
  | _, _ => none

/-- templates/decode.templ 7-27 for one repeated field; `none`: panic in `GetKind`. -/
def depsDecodeSlice (k : PKind) : Option (List String) :=
  match getKind k with
  | some _ => some (["Kind"] ++ lut (decodeLUT k) ++ ["decodeArray"] ++ (if k = .enum then ["decodeUint32"] else []))
  | none => none

/-- templates/decodeMap.templ 1-36 for one map. -/
def depsDecodeMap (kk k : PKind) : List String :=
  lut (decodeLUT kk) ++ lut (decodeLUT k) ++ ["decodeMap"] ++ (if kk = .enum then ["decodeUint32"] else []) ++
    (if k = .enum then ["decodeUint32"] else [])

/-- All names recorded while the code for one field is generated; `none`: a panic, nothing is generated. -/
def depsField : Field → Option (List String)
  | .one k _ _ =>
    if k = .group then none else some (lut (encodeLUT k) ++ lut (decodeLUT k) ++ (if k = .enum then ["decodeUint32"] else []))
  | .many k _ => (depsDecodeSlice k).map (depsEncodeSlice k ++ ·)
  | .map kk k _ => (depsEncodeMap kk k).map (· ++ depsDecodeMap kk k)

/-- generator.go 138-169 and templates/imports.templ: `import { .. } from "polyglot"` of a file with these message types. -/
def imports (S : Schema) : Option (List String) :=
  (S.messages.flatten.mapM depsField).map List.flatten

/-! ## The package -/

/-- index.ts 17-19: what decoder.ts, encoder.ts and kind.ts export. -/
def exported : List String :=
  ["InvalidBooleanError", "InvalidUint8Error", "InvalidUint16Error", "InvalidUint32Error", "InvalidUint64Error",
   "InvalidInt32Error", "InvalidInt64Error", "InvalidFloat32Error", "InvalidFloat64Error", "InvalidArrayError",
   "InvalidMapError", "InvalidUint8ArrayError", "InvalidStringError", "InvalidErrorError", "Decoder",
   "BOOLEAN_FALSE", "BOOLEAN_TRUE", "Encoder", "Kind"]

/-- kind.ts 17-34: the members of the enum `Kind`. -/
def kindMember : String → Option Nat
  | "Null" => some 0
  | "Array" => some 1
  | "Map" => some 2
  | "Any" => some 3
  | "Uint8Array" => some 4
  | "String" => some 5
  | "Error" => some 6
  | "Boolean" => some 7
  | "Uint8" => some 8
  | "Uint16" => some 9
  | "Uint32" => some 10
  | "Uint64" => some 11
  | "Int32" => some 12
  | "Int64" => some 13
  | "Float32" => some 14
  | "Float64" => some 15
  | _ => none

end TsGen
