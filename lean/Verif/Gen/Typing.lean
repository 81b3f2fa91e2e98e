import Verif.Gen.GoGen
import Verif.Gen.RustGen

/-!
# Static checks of generated code

What the Go and Rust compilers ask of the lines the templates print for a field, as a function of the schema alone: names of
types and methods are replaced by the types of GoGen.lean and RustGen.lean.  `false` also stands for a panic of the
generator (it then produces nothing).
-/

namespace GoGen
open Gen

/-- `Encoder(b).M(e)` with `e : t`: no conversions between different types. -/
def argOk (m : Method) (t : GoType) : Bool := t = m.type

/-- `uint32(e)` with `e : t` is a conversion from an integer type; the type of the result is `uint32`. -/
def convertible : GoType → Bool
  | .int32 | .uint32 | .int64 | .uint64 | .uint8 | .uint16 | .enum _ => true
  | _ => false

/-- `Encoder(b).M(e)` or `Encoder(b).M(uint32(e))` -/
def callOk (m : Method) (cast : Bool) (t : GoType) : Bool :=
  if cast then convertible t && argOk m .uint32 else argOk m t

/-- `x.Encode(b)` for `x : t`: messages and the named map types have such a method. -/
def encodable : GoType → Bool
  | .pointer _ => true
  | .map _ _ => true
  | _ => false

/-- `v, err = d.M()` with `v : t`: the method takes no argument and returns `(t, error)`. -/
def readOk (m : Method) (t : GoType) : Bool := m ≠ .Bytes && decide (m.type = t)

/-- templates/encode.templ 20-35 for a repeated field with elements of this kind. -/
def encSliceOk (k : PKind) (r : Nat) : Bool :=
  match FindElem k r false, encodeLUT k with
  | some t, none => k = .message && encodable t
  | some t, some m => (kindLUT k).isSome && callOk m false t
  | none, _ => false

/-- templates/encodeMap.templ 12-30: a key or a value of this kind. -/
def encEntryOk (k : PKind) (r : Nat) : Bool :=
  match FindElem k r false, encodeLUT k with
  | some t, none => k = .message && encodable t
  | some t, some m => callOk m (k = .enum) t
  | none, _ => false

/-- templates/encode.templ and encodeMap.templ: the lines of `Encode` for a field. -/
def encFieldOk : Field → Bool
  | .one k r _ => match FindElem k r false, encodeLUT k with
    | some t, none => k = .message && encodable t
    | some t, some m => callOk m (k = .enum) t
    | none, _ => false
  | .many k r => encSliceOk k r
  | .map kk k r => (GetKind kk).isSome && (GetKind k).isSome && encEntryOk kk 0 && encEntryOk k r

/-- templates/decodeMap.templ 16-43: reading a key or a value of this kind into a variable of its type. -/
def decEntryOk (k : PKind) (r : Nat) : Bool :=
  match FindElem k r false, decodeLUT k with
  | some _, none => k = .message
  | some t, some m => if k = .enum then readOk m .uint32 else readOk m t
  | none, _ => false

/-- templates/decode.templ 24-37, 42-64, 66-91 and decodeMap.templ: the lines of `decode` for a field. -/
def decFieldOk : Field → Bool
  | .one k r _ => match FindElem k r false, decodeLUT k with
    | some _, none => k = .message
    | some t, some m =>
      -- 25: `d.M(x.F)`; 27-29: `Temp uint32`; 31: `d.M()`
      if k = .bytes then m = .Bytes && decide (m.type = t) else if k = .enum then readOk m .uint32 else readOk m t
    | none, _ => false
  | .many k r => (GetKind k).isSome && match FindElem k r false, decodeLUT k with
    | some _, none => k = .message
    | some t, some m => readOk m t
    | none, _ => false
  -- `map[K]V`: a slice is no key type
  | .map kk k r => (GetKind kk).isSome && (GetKind k).isSome && FindElem kk 0 false ≠ some .bytes && kk ≠ .message &&
      decEntryOk kk 0 && decEntryOk k r

/-- Everything printed for a message type compiles: structs.templ 24 needs the types of all fields, `GetEncodingFields` and
`GetDecodingFields` know all kinds, every line is well typed, and `err` is used if declared. -/
def messageOk (fields : List Field) : Bool :=
  fields.all (fun f => (FindValue f).isSome && encFieldOk f && decFieldOk f) &&
  (GetEncodingFields fields).isSome &&
  match GetDecodingFields fields with
  | some d => errUsed fields d
  | none => false

end GoGen

namespace RustGen
open Gen

/-- generator/rust/structs.go 163-177: the form of the argument for a singular field. -/
def valueForm (k : PKind) : Form :=
  if k = .enum then .cast else if k = .string then .ref else if k = .bytes then .ref else .own

/-- templates/encode.templ 4-38 (`mapBodyOk` for 45-71): the lines of `encode` for a field. -/
def encFieldOk : Field → Bool
  | .one k r _ => match findElem k r false, encodeLUT k with
    | some _, none => k = .message
    | some t, some m => accepts m (valueForm k) t
    | none, _ => false
  | .many k r => match findElem k r false, encodeLUT k with
    | some _, none => k = .message
    | some t, some m => (kindLUT k).isSome && accepts m .ref t
    | none, _ => false
  | .map kk k r => (getKind kk).isSome && (getKind k).isSome && mapBodyOk kk k r

/-- templates/decodeMap.templ 18-35: reading a key or a value; `E::try_from` needs a `u32`. -/
def decEntryOk (k : PKind) (r : Nat) : Bool :=
  match findElem k r false, decodeLUT k with
  | some _, none => k = .message
  | some t, some m => if k = .enum then m = .u32 else m.type = t
  | none, _ => false

/-- Types that can be keys of a `HashMap`: `Eq` and `Hash`, which floats and the generated structs and enums lack. -/
def hashable : Ty → Bool
  | .f32 | .f64 | .struct _ | .enum _ => false
  | _ => true

/-- templates/decode.templ 15-57 and decodeMap.templ: the lines of `decode` for a field.  (Keys of type bytes, which protoc rejects
before the generator runs, count as errors.) -/
def decFieldOk : Field → Bool
  | .one k r _ => decEntryOk k r
  | .many k r => (getKind k).isSome && match findElem k r false, decodeLUT k with
    | some _, none => k = .message
    | some t, some m => m.type = t
    | none, _ => false
  | .map kk k r => (getKind kk).isSome && (getKind k).isSome && kk ≠ .bytes && (findElem kk 0 false).any hashable &&
      decEntryOk kk 0 && decEntryOk k r

/-- Everything printed for a message type is well typed. -/
def messageOk (fields : List Field) : Bool :=
  fields.all (fun f => (findValue f).isSome && encFieldOk f && decFieldOk f) &&
  (getEncodingFields fields).isSome && (getDecodingFields fields).isSome

/-- rustc accepts the generated structs and their implementations: well typed, and every struct has a finite size (with
some nesting depth; rustc reports a cycle otherwise). -/
def Compiles (S : Schema) : Prop :=
  (∀ fs ∈ S.messages, messageOk fs = true) ∧ ∃ depth, ∀ m, Layout S depth m = true

end RustGen
