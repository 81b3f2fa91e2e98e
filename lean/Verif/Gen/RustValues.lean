import Verif.Gen.Values
import Verif.Spec.Utf8

/-! # Values of generated Rust structs: a specification on values

No definition of any model is used here. -/

namespace Gen

/-- What a Rust value of a field has beyond its kind: enum values are declared constants (of enum type `r`), strings
are UTF-8; and the lengths a 32-bit size can express. -/
def Scalar.RustOk (S : Schema) (r : Nat) : Scalar → Prop
  | .enum v => v.toNat < S.enums[r]?.getD 0
  | .string v => Spec.utf8 v = true ∧ v.length < 2 ^ 32
  | .bytes v => v.length < 2 ^ 32
  | _ => True

mutual
/-- The value occurs in a Rust struct: no nil messages, no nil maps, and all scalars inside are as above. -/
def V.RustOk (S : Schema) : Field → V → Prop
  | .one _ r _, .scalar s => s.RustOk S r
  | .one _ m _, .msg vs => RustOkF S (S.fields m) vs
  | .many k r, .slice vs => RustOkE S (.one k r false) vs
  | .map _ k r, .map ks vs => (∀ s ∈ ks, s.RustOk S 0) ∧ RustOkE S (.one k r false) vs
  | _, _ => False
def RustOkF (S : Schema) : List Field → List V → Prop
  | f :: fs, v :: vs => v.RustOk S f ∧ RustOkF S fs vs
  | _, _ => True
def RustOkE (S : Schema) (f : Field) : List V → Prop
  | [] => True
  | v :: vs => v.RustOk S f ∧ RustOkE S f vs
end

/-- The fields for which the generated Rust code exists and compiles: no groups; repeated fields of strings, bytes and
messages only; maps with string keys and values that are neither strings nor bytes. -/
def Field.RustSupported : Field → Prop
  | .one k _ _ => k ≠ .group
  | .many k _ => k = .string ∨ k = .bytes ∨ k = .message
  | .map kk k _ => kk = .string ∧ k ≠ .group ∧ k ≠ .string ∧ k ≠ .bytes

/-- All fields of all message types are of that kind. -/
def Schema.RustSupported (S : Schema) : Prop := ∀ fs ∈ S.messages, ∀ f ∈ fs, f.RustSupported

/-- No message type contains itself through singular message fields: there is a rank that goes down along them. -/
def Schema.FiniteSize (S : Schema) : Prop :=
  ∃ rank : Nat → Nat, ∀ m, ∀ f ∈ S.fields m, ∀ r c, f = .one .message r c → rank r < rank m

end Gen
