import Verif.Props.GoRunsDecode
import Verif.Text.GoRunMono

/-!
# C86, C87: any call stack

The theorems of `GoRuns.lean` and `GoRunsDecode.lean` give a size of call stack that is enough.  Here: with any size the outcome is the
same, unless the stack is exceeded.
-/

namespace Props

open Utils Text GoAst GoText GoRun Gen
open GoGen (v2 Decode)
open GoV2 (Runtime)

variable {lib : Lib}

/-- **C86 (any stack).** Running the printed `Encode` of a value exceeds the call stack or makes the encoder calls of the layout and
leaves the value; with twice the nesting depth of the value it is not exceeded. -/
theorem C86_any_stack (f : FileD) (h : f.Plain) (m : Nat) (t : Bytes × List FieldD) (ht : f.types[m]? = some t) (x : V)
    (hx : x.OfField f.schema (.one .message m false)) (depth : Nat) (rd : GoGen.Codec) (inp : Bytes) :
    (callMethod (program f) rd depth (camel t.1) go!"Encode" (.data x) [.buffer] inp = .fault .overflow ∧ depth < 2 * x.depth) ∨
    callMethod (program f) rd depth (camel t.1) go!"Encode" (.data x) [.buffer] inp = .ok [] (some (.data x)) (f.schema.layout m x) inp := by
  by_cases hd : 2 * x.depth ≤ depth
  · exact .inr (C86_encode f h m t ht x hx depth hd rd inp)
  · rcases callMethod_mono (program f) rd (d := depth) (d' := 2 * x.depth) (by omega) (camel t.1) go!"Encode" (.data x) [.buffer] inp with h1 | h1
    · exact .inl ⟨h1, by omega⟩
    · rw [h1]; exact .inr (C86_encode f h m t ht x hx _ (Nat.le_refl _) rd inp)

/-- **C87 (any stack).** Running the printed `Decode` exceeds the call stack or returns what the model of generated decoders
returns (if that is not an overflow itself). -/
theorem C87_any_stack (f : FileD) (h : f.Plain) (hu : f.Unhidden) (m : Nat) (t : Bytes × List FieldD) (ht : f.types[m]? = some t) (x : V)
    (hx : x.OfField f.schema (.one .message m false)) (b : Bytes) (fuel depth : Nat)
    (ho : Decode ver f.schema fuel m x b ≠ .overflow) (inp : Bytes) :
    (callMethod (program f) ver.codec depth (camel t.1) go!"Decode" (.data x) [.data (.scalar (.bytes b))] inp = .fault .overflow ∧ depth < 2 * fuel + 1) ∨
    Returns (callMethod (program f) ver.codec depth (camel t.1) go!"Decode" (.data x) [.data (.scalar (.bytes b))] inp) (Decode ver f.schema fuel m x b) := by
  by_cases hd : 2 * fuel + 1 ≤ depth
  · exact .inr (C87_decode f h hu m t ht x hx b fuel depth hd ho inp)
  · rcases callMethod_mono (program f) ver.codec (d := depth) (d' := 2 * fuel + 1) (by omega) (camel t.1) go!"Decode" (.data x) [.data (.scalar (.bytes b))] inp with h1 | h1
    · exact .inl ⟨h1, by omega⟩
    · rw [h1]; exact .inr (C87_decode f h hu m t ht x hx b fuel _ (Nat.le_refl _) ho inp)

/-- **C87 (determined).** Two runs of the printed `Decode` of the same input into the same struct, with whatever call stacks, return the
same if both return. -/
theorem C87_determined (P : List Decl) (rd : GoGen.Codec) (d d' : Nat) (T m : Ident) (r : Value) (as : List Value) (inp : Bytes)
    (h : callMethod P rd d T m r as inp ≠ .fault .overflow) (h' : callMethod P rd d' T m r as inp ≠ .fault .overflow) :
    callMethod P rd d T m r as inp = callMethod P rd d' T m r as inp := by
  rcases Nat.le_total d d' with hd | hd
  · exact (callMethod_mono P rd hd T m r as inp).resolve_left h
  · exact ((callMethod_mono P rd hd T m r as inp).resolve_left h').symm

/-- A stack that is exceeded, and one that is not. -/
example : (match callMethod (program shopFile) ver.codec 3 go!"ShopV1Order" go!"Encode" (.data (.msg order2)) [.buffer] [] with
      | .fault .overflow => false | .ok [] (some _) _ _ => true | _ => false) = true ∧
    (match callMethod (program shopFile) ver.codec 1 go!"ShopV1Order" go!"Encode" (.data (.msg order2)) [.buffer] [] with
      | .fault .overflow => true | _ => false) = true := by
  constructor <;> cases lib <;> decide +kernel

end Props
