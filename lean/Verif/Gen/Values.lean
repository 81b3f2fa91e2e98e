import Verif.Gen.Schema

/-!
# What decoding an encoded message should give: a specification on values

No definition of any model is used here.
-/

namespace Gen

/-- The value a field has in a fresh message: zero, empty, nil. -/
def Field.fresh : Field → V
  | .one .bool _ _ => .scalar (.bool false)
  | .one .enum _ _ => .scalar (.enum 0)
  | .one .int32 _ _ => .scalar (.int32 0)
  | .one .sint32 _ _ => .scalar (.int32 0)
  | .one .sfixed32 _ _ => .scalar (.int32 0)
  | .one .uint32 _ _ => .scalar (.uint32 0)
  | .one .fixed32 _ _ => .scalar (.uint32 0)
  | .one .int64 _ _ => .scalar (.int64 0)
  | .one .sint64 _ _ => .scalar (.int64 0)
  | .one .sfixed64 _ _ => .scalar (.int64 0)
  | .one .uint64 _ _ => .scalar (.uint64 0)
  | .one .fixed64 _ _ => .scalar (.uint64 0)
  | .one .float _ _ => .scalar (.float32 0)
  | .one .double _ _ => .scalar (.float64 0)
  | .one .string _ _ => .scalar (.string [])
  | .one .bytes _ _ => .scalar (.bytes [])
  | .one .message _ _ => .nil
  | .one .group _ _ => .nil
  | .many .. => .slice []
  | .map .. => .nilMap

/-- A fresh message. -/
def Schema.fresh (S : Schema) (m : Nat) : List V := (S.fields m).map Field.fresh

mutual
/-- The same value with every nil map replaced by an empty map. -/
def V.settled : V → V
  | .nilMap => .map [] []
  | .msg vs => .msg (settledAll vs)
  | .slice vs => .slice (settledAll vs)
  | .map ks vs => .map ks (settledAll vs)
  | v => v
def settledAll : List V → List V
  | [] => []
  | v :: vs => v.settled :: settledAll vs
end

/-- How decoding treats what is already there: the field values of a message created on the way, and whether
a singular message is decoded into the message already there (`merge`) or into a new one. -/
structure Style where
  fresh : Nat → List V
  merge : Bool

/-- The message that is decoded into where `old` was: `old` itself, or a new one for nil. -/
def Style.into (w : Style) (m : Nat) (old : V) : List V :=
  match old with
  | .msg olds => olds
  | _ => w.fresh m

mutual
/-- What a field that held `old` holds after a message whose field was `v` has been decoded into it.
Without `merge` a nil message leaves `old` and anything else replaces it; a repeated field of the same length is
decoded element by element into the old elements. -/
def V.over (w : Style) (S : Schema) : Field → (old : V) → V → V
  | .one _ m _, old, .nil => if w.merge then .msg (w.into m old) else old
  | .one _ m _, old, .msg vs => .msg (oversF w S (S.fields m) (if w.merge then w.into m old else w.fresh m) vs)
  | .many _ r, .slice olds, .slice vs =>
    if olds.length = vs.length then .slice (oversE w S r olds vs) else .slice (oversE w S r [] vs)
  | _, _, .nilMap => .map [] []
  | .map _ _ r, _, .map ks vs => .map ks (oversE w S r [] vs)
  | _, _, v => v
termination_by structural _ _ v => v
/-- What an element (of message type `m`) that was `old` becomes: there a nil message becomes a fresh one. -/
def V.overElem (w : Style) (S : Schema) (m : Nat) (old : V) : V → V
  | .nil => .msg (w.into m old)
  | .msg vs => .msg (oversF w S (S.fields m) (w.into m old) vs)
  | v => v
termination_by structural v => v
/-- Field by field. -/
def oversF (w : Style) (S : Schema) : List Field → List V → List V → List V
  | f :: fs, old :: olds, v :: vs => V.over w S f old v :: oversF w S fs olds vs
  | _, _, _ => []
termination_by structural _ _ vs => vs
/-- Element by element; elements beyond the old ones are new. -/
def oversE (w : Style) (S : Schema) (m : Nat) : List V → List V → List V
  | _, [] => []
  | [], v :: vs => V.overElem w S m .nil v :: oversE w S m [] vs
  | old :: olds, v :: vs => V.overElem w S m old v :: oversE w S m olds vs
termination_by structural _ vs => vs
end

/-- Generated Go v2 code: new messages have nil messages inside; no merging. -/
def Style.v2 (S : Schema) : Style := ⟨S.fresh, false⟩

mutual
/-- A zero value with all messages inside allocated. -/
inductive Allocated (S : Schema) : Field → V → Prop
  | message (m : Nat) (c : Bool) (vs : List V) : AllocatedAll S (S.fields m) vs → Allocated S (.one .message m c) (.msg vs)
  | other (f : Field) : (∀ m c, f ≠ .one .message m c) → Allocated S f f.fresh
inductive AllocatedAll (S : Schema) : List Field → List V → Prop
  | nil : AllocatedAll S [] []
  | cons (f : Field) (v : V) (fs : List Field) (vs : List V) :
      Allocated S f v → AllocatedAll S fs vs → AllocatedAll S (f :: fs) (v :: vs)
end

/-- Generated Go v1 code: in new messages all messages inside are allocated, down to the last (`fresh` exists for types
that do not contain themselves through singular message fields); singular messages are merged. -/
structure Style.IsV1 (S : Schema) (w : Style) : Prop where
  fresh : ∀ m, AllocatedAll S (S.fields m) (w.fresh m)
  merge : w.merge = true

/-- A field that always writes at least one item: a scalar or a repeated field (not a message, not a map). -/
def Field.Leaf : Field → Bool
  | .one k _ _ => k ≠ .message
  | .many .. => true
  | .map .. => false

mutual
/-- Every non-nil message inside the value has a scalar or repeated field, or its first declared field is not
a nil message. -/
def V.Anchored (S : Schema) : Field → V → Prop
  | .one _ m _, .msg vs =>
    ((∃ f ∈ S.fields m, f.Leaf = true) ∨ ∃ v, vs.head? = some v ∧ v ≠ .nil) ∧ AnchoredF S (S.fields m) vs
  | .many k r, .slice vs => AnchoredE S (.one k r false) vs
  | .map _ k r, .map _ vs => AnchoredE S (.one k r false) vs
  | _, _ => True
def AnchoredF (S : Schema) : List Field → List V → Prop
  | f :: fs, v :: vs => v.Anchored S f ∧ AnchoredF S fs vs
  | _, _ => True
def AnchoredE (S : Schema) (f : Field) : List V → Prop
  | [] => True
  | v :: vs => v.Anchored S f ∧ AnchoredE S f vs
end

mutual
/-- No repeated field and no map inside the value holds a nil message. -/
def V.NoNilElems : V → Prop
  | .msg vs => NoNilElemsAll vs
  | .slice vs => (∀ v ∈ vs, v ≠ .nil) ∧ NoNilElemsAll vs
  | .map _ vs => (∀ v ∈ vs, v ≠ .nil) ∧ NoNilElemsAll vs
  | _ => True
def NoNilElemsAll : List V → Prop
  | [] => True
  | v :: vs => v.NoNilElems ∧ NoNilElemsAll vs
end

mutual
/-- No message inside the value is nil, nor is the value itself. -/
def V.NoNil : V → Prop
  | .nil => False
  | .msg vs => NoNilAll vs
  | .slice vs => NoNilAll vs
  | .map _ vs => NoNilAll vs
  | _ => True
def NoNilAll : List V → Prop
  | [] => True
  | v :: vs => v.NoNil ∧ NoNilAll vs
end

/-- Lengths a 32-bit size can express: strings and byte slices below 2^32 bytes. -/
def Scalar.Fits : Scalar → Prop
  | .string v => v.length < 2 ^ 32
  | .bytes v => v.length < 2 ^ 32
  | _ => True

mutual
/-- All strings and byte slices inside the value have such lengths. -/
def V.Fits : V → Prop
  | .scalar s => s.Fits
  | .msg vs => FitsAll vs
  | .slice vs => FitsAll vs
  | .map ks vs => (∀ s ∈ ks, s.Fits) ∧ FitsAll vs
  | _ => True
def FitsAll : List V → Prop
  | [] => True
  | v :: vs => v.Fits ∧ FitsAll vs
end

/-- Lengths the v2 encoder gets right: strings below 2^32 bytes, byte slices below 2^28. -/
def Scalar.FitsV2 : Scalar → Prop
  | .string v => v.length < 2 ^ 32
  | .bytes v => v.length < 2 ^ 28
  | _ => True

mutual
/-- All strings and byte slices inside the value have such lengths. -/
def V.FitsV2 : V → Prop
  | .scalar s => s.FitsV2
  | .msg vs => FitsV2All vs
  | .slice vs => FitsV2All vs
  | .map ks vs => (∀ s ∈ ks, s.FitsV2) ∧ FitsV2All vs
  | _ => True
def FitsV2All : List V → Prop
  | [] => True
  | v :: vs => v.FitsV2 ∧ FitsV2All vs
end

/-- The fields for which the generated Go code exists and compiles: no groups, no repeated enums or repeated
bytes, no maps with bytes values.  (Protobuf itself has no maps with bytes, enum, float,
double or message keys; the model compares float keys by their bits, Go would not.) -/
def Field.GoSupported : Field → Prop
  | .one k _ _ => k ≠ .group
  | .many k _ => k ≠ .group ∧ k ≠ .enum ∧ k ≠ .bytes
  | .map kk k _ => kk ≠ .group ∧ kk ≠ .message ∧ kk ≠ .bytes ∧ k ≠ .group ∧ k ≠ .bytes

/-- All fields of all message types are of that kind, and no message type has maps only: the generated Go code
would declare a variable `err` it does not use. -/
def Schema.GoSupported (S : Schema) : Prop :=
  ∀ fs ∈ S.messages, (∀ f ∈ fs, f.GoSupported) ∧ (fs = [] ∨ ∃ f ∈ fs, f.IsMap = false)

/-- The message type a field refers to exists. -/
def Field.Closed (S : Schema) : Field → Prop
  | .one k r _ => k = .message → r < S.messages.length
  | .many k r => k = .message → r < S.messages.length
  | .map _ k r => k = .message → r < S.messages.length

/-- All message types that are referred to exist. -/
def Schema.Closed (S : Schema) : Prop := ∀ fs ∈ S.messages, ∀ f ∈ fs, f.Closed S

/-- Every message type has a scalar or repeated field, or a map as its first field. -/
def Schema.Anchored (S : Schema) : Prop :=
  ∀ fs ∈ S.messages, (∃ f ∈ fs, f.Leaf = true) ∨ ∃ f, fs.head? = some f ∧ f.IsMap = true

end Gen
