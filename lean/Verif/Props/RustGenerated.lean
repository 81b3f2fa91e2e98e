import Verif.Gen.RustMain
import Verif.Gen.RustLayout
import Verif.Gen.SettledFacts
import Verif.Props.GoGenerated
import Verif.Props.RustCodec

/-!
# C43, C63, C64: code generated for Rust, and Go and Rust together

`RustGen.Encode S m x = some calls` are the encoder calls of the generated `x.encode(b)`; `RustGen.decode std S fuel m`
is the generated `T::decode(b)` on a cursor, where `fuel` bounds the depth of the call stack and `std` is a
behaviour of the standard library the code cannot rely on.  `RustOk` says a value occurs in a Rust struct.
-/

namespace Props

open Gen Spec
open Rust (Cursor Std)
open GoV2 (Runtime)

/-- Input that is empty, or at least two bytes of which the first is neither nil nor error. -/
def CleanTail (t : Bytes) : Prop := t = [] ∨ ∃ a b u, t = a :: b :: u ∧ a ≠ kNil ∧ a ≠ kError

/-- Items of a message, when its values occur in a Rust struct. -/
theorem rust_good (std : Std) {S : Schema} (hS : S.RustSupported) {m : Nat} {vs : List V}
    (hv : (V.msg vs).OfField S (.one .message m false)) (hr : (V.msg vs).RustOk S (.one .message m false)) :
    ∃ calls, RustGen.Encode S m (.msg vs) = some calls ∧ (∀ i ∈ calls, i.Fits) ∧ (∀ i ∈ calls, Rust.Item.KindsOk i) ∧
      ∀ fuel, (V.msg vs).depth ≤ fuel → ∀ before after, CleanTail after →
        RustGen.decode std S fuel m ⟨before ++ (wireAll calls ++ after), before.length⟩ =
          (.ok (some vs), ⟨before ++ (wireAll calls ++ after), before.length + (wireAll calls).length⟩) := by
  simp only [V.OfField] at hv
  simp only [V.RustOk] at hr
  obtain ⟨cs, h1, h2, _⟩ := RustGen.good std hS (depths vs + 1) m vs hv.2 hr (Nat.le_refl _)
  refine ⟨cs, h1, fun i hi => (h2 i hi).fits, fun i hi => (h2 i hi).kinds, ?_⟩
  intro fuel hfuel before after ha
  simp only [V.depth] at hfuel
  obtain ⟨cs', h1', _, h3⟩ := RustGen.good std hS fuel m vs hv.2 hr hfuel
  rw [h1] at h1'; simp at h1'; subst h1'
  exact h3 ⟨before ++ (wireAll cs ++ after), before.length⟩ after (by simp) (by simp [Cursor.rest]) ha

/-! ## A schema and a value for which the hypotheses hold

`message 0 { string a; repeated string b; map<string, Msg1> c; Msg1 d; Enum e; bytes f; map<string, Enum> g; }`,
`message 1 { bool x; repeated Msg1 y; Msg2 z; }`, `message 2 { }`. -/

def both : Schema := ⟨[
  [.one .string 0 false, .many .string 0, .map .string .message 1, .one .message 1 false, .one .enum 0 false, .one .bytes 0 false,
    .map .string .enum 0],
  [.one .bool 0 false, .many .message 1, .one .message 2 false],
  []], [3]⟩

def bothInner : V := .msg [.scalar (.bool true), .slice [.msg [.scalar (.bool false), .slice [], .msg []]], .msg []]

def bothValue : List V := [.scalar (.string [104, 105]), .slice [.scalar (.string []), .scalar (.string [97])],
  .map [.string [49], .string [50]] [bothInner, .msg [.scalar (.bool false), .slice [], .msg []]],
  bothInner, .scalar (.enum 2), .scalar (.bytes [0, 255]), .map [.string [49]] [.scalar (.enum 1)]]

theorem both_go : both.GoSupported := by
  intro fs hfs
  simp [both] at hfs
  rcases hfs with rfl | rfl | rfl <;> simp [Field.GoSupported, Field.IsMap]

theorem both_rust : both.RustSupported := by
  intro fs hfs
  simp [both] at hfs
  rcases hfs with rfl | rfl | rfl <;> simp [Field.RustSupported]

theorem both_typed : (V.msg bothValue).OfField both (.one .message 0 false) := by
  simp [bothValue, bothInner, both, V.OfField, OfFields, OfElems, Schema.fields, Scalar.OfKind]

theorem both_fits : (V.msg bothValue).FitsV2 := by
  simp [bothValue, bothInner, V.FitsV2, FitsV2All, Scalar.FitsV2]

theorem both_ok : (V.msg bothValue).RustOk both (.one .message 0 false) := by
  simp [bothValue, bothInner, both, V.RustOk, RustOkF, RustOkE, Schema.fields, Scalar.RustOk]
  decide

theorem both_settled : settledAll bothValue = bothValue := by
  simp [bothValue, bothInner, settledAll, V.settled]

/-! ## C43: fields are written in the order of the layout -/

/-- Generated Go code writes exactly the items of the specified layout (Gen/Layout.lean), for every message value
including those with nil messages and nil maps. -/
theorem C43_go_layout (S : Schema) (hS : S.GoSupported) (m : Nat) (x : V) (hx : x.OfField S (.one .message m false)) :
    GoGen.Encode S m x = some (S.layout m x) := GoGen.encode_layout hS m x hx

/-- Generated Rust code writes exactly the items of the same layout. -/
theorem C43_rust_layout (S : Schema) (hS : S.RustSupported) (m : Nat) (x : V) (hx : x.OfField S (.one .message m false))
    (hr : x.RustOk S (.one .message m false)) : RustGen.Encode S m x = some (S.layout m x) := RustGen.encode_layout hS m x hx hr

/-- Bytes: what a fresh v2 buffer, a new v1 buffer and an empty Rust vector hold after the message has been encoded
is the wire encoding of the layout. -/
theorem C43_bytes (rt1 rt2 : Runtime) (b0 : GoV2.Buffer) (hb : GoV2.Fresh b0) (S : Schema) (hg : S.GoSupported)
    (hs : S.RustSupported) (m : Nat) (vs : List V) (hv : (V.msg vs).OfField S (.one .message m false))
    (hf : (V.msg vs).FitsV2) (hr : (V.msg vs).RustOk S (.one .message m false)) :
    ∃ calls calls' b1 b2 c, GoGen.Encode S m (.msg vs) = some calls ∧ RustGen.Encode S m (.msg vs) = some calls' ∧
      GoV1.encodeItems rt1 GoV1.NewBuffer calls = .ok b1 ∧ GoV2.encodeItems rt2 b0 calls = .ok b2 ∧
      Rust.encodeItems calls' ⟨[], 0⟩ = (.ok (), c) ∧
      b1.Bytes = wireAll (S.layout m (.msg vs)) ∧ b2.Bytes = .ok (wireAll (S.layout m (.msg vs))) ∧
      c.vec = wireAll (S.layout m (.msg vs)) := by
  obtain ⟨cs, g1, g2, g3, _⟩ := rust_good ⟨true⟩ hs hv hr
  have e1 := GoGen.encode_layout hg m _ hv
  have e2 := RustGen.encode_layout hs m _ hv hr
  rw [e2] at g1; simp at g1; subst g1
  obtain ⟨b1, h1, h2⟩ := encoded_v1 rt1 g2
  obtain ⟨b2, h3, h4⟩ := encoded_v2 rt2 hb (layout_fitsV2 S hf m)
  refine ⟨_, _, b1, b2, _, e1, e2, h1, h3, C31_message_appends_wire _ g3 g2 [], h2, h4, by simp⟩

example (rt : Runtime) : ∃ calls calls' b1 b2 c, GoGen.Encode both 0 (.msg bothValue) = some calls ∧
    RustGen.Encode both 0 (.msg bothValue) = some calls' ∧
    GoV1.encodeItems rt GoV1.NewBuffer calls = .ok b1 ∧ GoV2.encodeItems rt GoV2.NewBuffer calls = .ok b2 ∧
    Rust.encodeItems calls' ⟨[], 0⟩ = (.ok (), c) ∧
    b1.Bytes = wireAll (both.layout 0 (.msg bothValue)) ∧ b2.Bytes = .ok (wireAll (both.layout 0 (.msg bothValue))) ∧
    c.vec = wireAll (both.layout 0 (.msg bothValue)) :=
  C43_bytes rt rt GoV2.NewBuffer (.inl rfl) both both_go both_rust 0 bothValue both_typed both_fits both_ok

/-- What the layout of that value begins with: scalars first, then the repeated field, then the map. -/
example : (both.layout 0 (.msg bothValue)).take 7 =
    [.string [104, 105], .uint32 2, .bytes [0, 255], .slice 2 kString, .string [], .string [97], .map 2 kString kAny] := rfl

/-! ## C63: Rust `decode` inverts Rust `encode` -/

/-- For every schema for which Rust code is generated and compiles, and every value: encoding into an empty vector
and decoding gives the value back and consumes exactly its bytes, at any place in the input. -/
theorem C63_roundtrip (std : Std) (S : Schema) (hS : S.RustSupported) (m : Nat) (vs : List V)
    (hv : (V.msg vs).OfField S (.one .message m false)) (hr : (V.msg vs).RustOk S (.one .message m false)) :
    ∃ calls c, RustGen.Encode S m (.msg vs) = some calls ∧ Rust.encodeItems calls ⟨[], 0⟩ = (.ok (), c) ∧
      ∀ fuel, (V.msg vs).depth ≤ fuel → ∀ before after, CleanTail after →
        RustGen.decode std S fuel m ⟨before ++ (c.vec ++ after), before.length⟩ =
          (.ok (some vs), ⟨before ++ (c.vec ++ after), before.length + c.vec.length⟩) := by
  obtain ⟨cs, g1, g2, g3, g4⟩ := rust_good std hS hv hr
  exact ⟨cs, _, g1, C31_message_appends_wire cs g3 g2 [], by simpa using g4⟩

example (std : Std) : ∃ calls c, RustGen.Encode both 0 (.msg bothValue) = some calls ∧
    Rust.encodeItems calls ⟨[], 0⟩ = (.ok (), c) ∧
    ∀ fuel, (V.msg bothValue).depth ≤ fuel → ∀ before after, CleanTail after →
      RustGen.decode std both fuel 0 ⟨before ++ (c.vec ++ after), before.length⟩ =
        (.ok (some bothValue), ⟨before ++ (c.vec ++ after), before.length + c.vec.length⟩) :=
  C63_roundtrip std both both_rust 0 bothValue both_typed both_ok

/-! ## C64: Go and Rust code understand each other -/

/-- Rust code decodes what v2 Go code encoded, if the Go value occurs in a Rust struct once its nil maps are taken
as empty maps. -/
theorem C64_go_v2_to_rust_partial (std : Std) (rt : Runtime) (b0 : GoV2.Buffer) (hb : GoV2.Fresh b0) (S : Schema)
    (hg : S.GoSupported) (hs : S.RustSupported) (m : Nat) (vs : List V)
    (hv : (V.msg vs).OfField S (.one .message m false)) (hf : (V.msg vs).FitsV2)
    (hr : (V.msg (settledAll vs)).RustOk S (.one .message m false)) :
    ∃ calls b bs, GoGen.Encode S m (.msg vs) = some calls ∧ GoV2.encodeItems rt b0 calls = .ok b ∧ b.Bytes = .ok bs ∧
      ∀ fuel, (V.msg vs).depth ≤ fuel → ∀ after, CleanTail after →
        RustGen.decode std S fuel m ⟨bs ++ after, 0⟩ = (.ok (some (settledAll vs)), ⟨bs ++ after, bs.length⟩) := by
  have hv' : (V.msg (settledAll vs)).OfField S (.one .message m false) := by simpa [V.settled] using settled_typed hv
  obtain ⟨cs, g1, g2, g3, g4⟩ := rust_good std hs hv' hr
  rw [RustGen.encode_layout hs m _ hv' hr] at g1; simp at g1; subst g1
  have hl : S.layout m (.msg (settledAll vs)) = S.layout m (.msg vs) := by simpa [V.settled] using layout_settled hv
  rw [hl] at g4
  obtain ⟨b2, h3, h4⟩ := encoded_v2 rt hb (layout_fitsV2 S hf m)
  refine ⟨_, b2, _, GoGen.encode_layout hg m _ hv, h3, h4, ?_⟩
  intro fuel hfuel after ha
  have hd := (depth_settled (sizeOf (V.msg vs))).1 _ (Nat.le_refl _)
  simp only [V.settled] at hd
  have := g4 fuel (by omega) [] after ha
  simpa using this

/-- Rust code decodes what v1 Go code encoded. -/
theorem C64_go_v1_to_rust_partial (std : Std) (rt : Runtime) (S : Schema)
    (hg : S.GoSupported) (hs : S.RustSupported) (m : Nat) (vs : List V)
    (hv : (V.msg vs).OfField S (.one .message m false))
    (hr : (V.msg (settledAll vs)).RustOk S (.one .message m false)) :
    ∃ calls b, GoGen.Encode S m (.msg vs) = some calls ∧ GoV1.encodeItems rt GoV1.NewBuffer calls = .ok b ∧
      ∀ fuel, (V.msg vs).depth ≤ fuel → ∀ after, CleanTail after →
        RustGen.decode std S fuel m ⟨b.Bytes ++ after, 0⟩ = (.ok (some (settledAll vs)), ⟨b.Bytes ++ after, b.Bytes.length⟩) := by
  have hv' : (V.msg (settledAll vs)).OfField S (.one .message m false) := by simpa [V.settled] using settled_typed hv
  obtain ⟨cs, g1, g2, g3, g4⟩ := rust_good std hs hv' hr
  rw [RustGen.encode_layout hs m _ hv' hr] at g1; simp at g1; subst g1
  have hl : S.layout m (.msg (settledAll vs)) = S.layout m (.msg vs) := by simpa [V.settled] using layout_settled hv
  rw [hl] at g4 g2
  obtain ⟨b1, h3, h4⟩ := encoded_v1 rt g2
  refine ⟨_, b1, GoGen.encode_layout hg m _ hv, h3, ?_⟩
  intro fuel hfuel after ha
  have hd := (depth_settled (sizeOf (V.msg vs))).1 _ (Nat.le_refl _)
  simp only [V.settled] at hd
  rw [h4]
  have := g4 fuel (by omega) [] after ha
  simpa using this

/-- Go code, v2 and v1, decodes everything Rust code encodes, into a struct that held anything before. -/
theorem C64_rust_to_go (S : Schema) (hg : S.GoSupported) (hs : S.RustSupported) (m : Nat) (vs olds : List V)
    (hv : (V.msg vs).OfField S (.one .message m false)) (ho : (V.msg olds).OfField S (.one .message m false))
    (hr : (V.msg vs).RustOk S (.one .message m false)) :
    ∃ calls c, RustGen.Encode S m (.msg vs) = some calls ∧ Rust.encodeItems calls ⟨[], 0⟩ = (.ok (), c) ∧
      (∀ fuel, (V.msg vs).depth < fuel → ∀ t, t.head? ≠ some kNil →
        GoGen.Decode GoGen.v2 S fuel m (.msg olds) (c.vec ++ t) = .ok vs) ∧
      (∀ w : Style, w.IsV1 S → ∃ N, ∀ fuel, N ≤ fuel → ∀ t, t.head? ≠ some kNil →
        GoGen.Decode GoGen.v1 S fuel m (.msg olds) (c.vec ++ t) = .ok vs) := by
  obtain ⟨cs, g1, g2, g3, _⟩ := rust_good ⟨true⟩ hs hv hr
  rw [RustGen.encode_layout hs m _ hv hr] at g1; simp at g1; subst g1
  have hst : settledAll vs = vs := by simpa [V.settled] using V.RustOk.settled hv hr
  refine ⟨_, _, RustGen.encode_layout hs m _ hv hr, C31_message_appends_wire _ g3 g2 [], ?_, ?_⟩
  · intro fuel hfuel t ht
    obtain ⟨calls, h1, h2, h3⟩ := GoGen.decode_noNil (GoGen.setup_v2 hg) hv (V.RustOk.noNil hv hr) (V.RustOk.fits hv hr) ho
    rw [GoGen.encode_layout hg m _ hv] at h1; simp at h1; subst h1
    have := decode_v2 (h3 _ GoGen.law_v2 fuel (by omega) t ht)
    rw [hst] at this
    simpa using this
  · intro w hw
    obtain ⟨N, hN⟩ := GoGen.setup_v1 hg hw
    refine ⟨(V.msg vs).depth + N, ?_⟩
    intro fuel hfuel t ht
    obtain ⟨calls, h1, h2, h3⟩ := GoGen.decode_noNil hN hv (V.RustOk.noNil hv hr) (V.RustOk.fits hv hr) ho
    rw [GoGen.encode_layout hg m _ hv] at h1; simp at h1; subst h1
    have := decode_v1 (h3 _ GoGen.law_v1 fuel hfuel t ht)
    rw [hst] at this
    simpa using this

example (std : Std) (rt : Runtime) : ∃ calls b bs, GoGen.Encode both 0 (.msg bothValue) = some calls ∧
    GoV2.encodeItems rt GoV2.NewBuffer calls = .ok b ∧ b.Bytes = .ok bs ∧
    ∀ fuel, (V.msg bothValue).depth ≤ fuel → ∀ after, CleanTail after →
      RustGen.decode std both fuel 0 ⟨bs ++ after, 0⟩ = (.ok (some bothValue), ⟨bs ++ after, bs.length⟩) := by
  have := C64_go_v2_to_rust_partial std rt GoV2.NewBuffer (.inl rfl) both both_go both_rust 0 bothValue both_typed both_fits
    (by rw [both_settled]; exact both_ok)
  rwa [both_settled] at this

example : ∃ calls c, RustGen.Encode both 0 (.msg bothValue) = some calls ∧ Rust.encodeItems calls ⟨[], 0⟩ = (.ok (), c) ∧
    ∀ fuel, (V.msg bothValue).depth < fuel → ∀ t, t.head? ≠ some kNil →
      GoGen.Decode GoGen.v2 both fuel 0 (.msg bothValue) (c.vec ++ t) = .ok bothValue := by
  obtain ⟨calls, c, h1, h2, h3, _⟩ := C64_rust_to_go both both_go both_rust 0 bothValue bothValue both_typed both_typed both_ok
  exact ⟨calls, c, h1, h2, h3⟩

/-- Decoding a message whose first field, a bool, is there. -/
theorem rust_first_bool (std : Std) {S : Schema} {m : Nat} {f : Field} {d : RustGen.DecodingFields} (hm : S.fields m = [.one .bool 0 false, f])
    (hd : RustGen.getDecodingFields (S.fields m) = some d) (ds : List Nat) (ho : d.other = 0 :: ds) (v : Bool) (rest : Bytes)
    (fuel : Nat) (e : RustGen.Fail) (c : Cursor)
    (h : (RustGen.forFields (RustGen.decValue std S) (S.fields m) ds [.scalar (.bool v), .nil] >>= fun x =>
      RustGen.forFields (RustGen.decSlice std (RustGen.decode std S fuel)) (S.fields m) d.sliceFields x >>= fun x =>
        RustGen.forFields (RustGen.decMessage std S (RustGen.decode std S fuel)) (S.fields m) d.messageFields x)
      ⟨wire (.bool v) ++ rest, 2⟩ = (.err e, c)) :
    RustGen.decode std S (fuel + 1) m ⟨wire (.bool v) ++ rest, 0⟩ = (.err e, c) := by
  have hcl : RustGen.Clean (Cursor.rest ⟨wire (.bool v) ++ rest, 0⟩) := by
    simpa [Cursor.rest] using RustGen.clean_wire (i := .bool v) (by simp) (by simp) rest
  have h1 : Cursor.rest ⟨wire (.bool v) ++ rest, 0⟩ = kBool :: (if v then 1 else 0) :: rest := by
    simp [Cursor.rest, wire]
  have h2 : Cursor.rest (Cursor.adv ⟨wire (.bool v) ++ rest, 0⟩ 1) = (if v then 1 else 0) :: rest := by
    rw [Rust.adv_rest, h1]; simp
  have hv : Rust.decode_bool std ⟨wire (.bool v) ++ rest, 0⟩ = (.ok v, ⟨wire (.bool v) ++ rest, 2⟩) := by
    rw [Rust.decode_bool, Rust.bind_ok (Rust.read_u8_or_cons std _ h1)]
    rw [if_pos (by rfl), Rust.bind_ok (Rust.read_u8_or_cons std _ h2)]
    cases v <;> simp [Rust.pure_apply, Cursor.adv]
  have hx : RustGen.decValue std S (.one .bool 0 false) ⟨wire (.bool v) ++ rest, 0⟩ =
      (.ok (.scalar (.bool v)), ⟨wire (.bool v) ++ rest, 2⟩) := by
    simp only [RustGen.decValue, Field.Kind, RustGen.decodeLUT, RustGen.findValue, RustGen.findElem, RustGen.typeLUT]
    simp
    rw [RustGen.assign, if_pos (by rfl), RustGen.decScalar]
    rw [RustGen.bind_ok (RustGen.bind_ok (RustGen.call_ok hv) _)]
    rfl
  rw [RustGen.decode, RustGen.bind_ok (RustGen.call_ok (RustGen.decode_none_clean std (by simp) hcl))]
  simp only [Bool.false_eq_true, if_false]
  rw [RustGen.bind_ok (RustGen.probe_clean std (by simp) hcl)]
  simp only [hd]
  rw [RustGen.decBody, ho, RustGen.bind_def]
  have : (RustGen.forFields (RustGen.decValue std S) (S.fields m) (0 :: ds) (List.replicate (S.fields m).length .nil))
      ⟨wire (.bool v) ++ rest, 0⟩ =
      (RustGen.forFields (RustGen.decValue std S) (S.fields m) ds [.scalar (.bool v), .nil]) ⟨wire (.bool v) ++ rest, 2⟩ := by
    rw [RustGen.forFields]
    simp only [hm, List.getElem?_cons_zero]
    rw [RustGen.bind_ok hx]
    rfl
  rw [RustGen.bind_def, this, ← RustGen.bind_def, h]

/-- A nil message of a Go struct, which Go code encodes and decodes, is an error for Rust code. -/
theorem C64_nil_false (std : Std) (S : Schema) (hg : S.GoSupported) (m r : Nat)
    (hm : S.fields m = [.one .bool 0 false, .one .message r false]) (v : Bool) :
    ∃ calls, GoGen.Encode S m (.msg [.scalar (.bool v), .nil]) = some calls ∧ ∀ fuel,
      RustGen.decode std S (fuel + 2) m ⟨wireAll calls, 0⟩ = (.err (.decoding .InvalidStruct), ⟨wireAll calls, 3⟩) := by
  refine ⟨_, GoGen.encode_layout hg m _ (by simp [V.OfField, OfFields, hm, Scalar.OfKind]), fun fuel => ?_⟩
  have hl : S.layout m (.msg [.scalar (.bool v), .nil]) = [.bool v, .nil] := by
    simp [Schema.layout, V.items, hm, itemsOf, Field.group, Scalar.item]
  rw [hl, show wireAll [.bool v, .nil] = wire (.bool v) ++ [kNil] by simp [wireAll, wire]]
  refine rust_first_bool std hm (d := ⟨[1], [], [0]⟩) (by rw [hm]; rfl) [] rfl v [kNil] (fuel + 1) _ _ ?_
  have hn : Rust.decode_none std ⟨wire (.bool v) ++ [kNil], 2⟩ = (.ok true, ⟨wire (.bool v) ++ [kNil], 3⟩) := by
    rw [Rust.decode_none_spec]
    simp [Cursor.rest, wire, Cursor.adv]
  show (RustGen.forFields (RustGen.decMessage std S (RustGen.decode std S (fuel + 1))) (S.fields m) [1] _) _ = _
  rw [RustGen.forFields]
  simp only [hm, List.getElem?_cons_succ, List.getElem?_cons_zero]
  have hd : RustGen.decode std S (fuel + 1) r ⟨wire (.bool v) ++ [kNil], 2⟩ = (.ok none, ⟨wire (.bool v) ++ [kNil], 3⟩) := by
    rw [RustGen.decode, RustGen.bind_ok (RustGen.call_ok hn)]; rfl
  rw [RustGen.bind_def, RustGen.decMessage, RustGen.nested, RustGen.bind_ok hd]
  rfl

/-- An enum number that is no declared constant, which Go code encodes and decodes, is an error for Rust code. -/
theorem C64_enum_false (std : Std) (S : Schema) (hg : S.GoSupported) (m r : Nat)
    (hm : S.fields m = [.one .bool 0 false, .one .enum r false]) (v : Bool) (n : BitVec 32) (hn : S.enums[r]?.getD 0 ≤ n.toNat) :
    ∃ calls, GoGen.Encode S m (.msg [.scalar (.bool v), .scalar (.enum n)]) = some calls ∧ ∀ fuel,
      RustGen.decode std S (fuel + 1) m ⟨wireAll calls, 0⟩ = (.err (.decoding .InvalidEnum), ⟨wireAll calls, (wireAll calls).length⟩) := by
  refine ⟨_, GoGen.encode_layout hg m _ (by simp [V.OfField, OfFields, hm, Scalar.OfKind]), fun fuel => ?_⟩
  have hl : S.layout m (.msg [.scalar (.bool v), .scalar (.enum n)]) = [.bool v, .uint32 n] := by
    simp [Schema.layout, V.items, hm, itemsOf, Field.group, Scalar.item]
  rw [hl, show wireAll [.bool v, .uint32 n] = wire (.bool v) ++ wire (.uint32 n) by simp [wireAll]]
  refine rust_first_bool std hm (d := ⟨[], [], [0, 1]⟩) (by rw [hm]; rfl) [1] rfl v (wire (.uint32 n)) fuel _ _ ?_
  have hu : RustGen.call (Rust.decode_u32 std) ⟨wire (.bool v) ++ wire (.uint32 n), 2⟩ =
      (.ok n, ⟨wire (.bool v) ++ wire (.uint32 n), (wire (.bool v) ++ wire (.uint32 n)).length⟩) := by
    have hy := RustGen.reads std (q := .u32) (x := Rust.decode_u32 std) (g := Item.uint32) rfl (a := n) (by simp) (by constructor) trivial trivial
    have := hy ⟨wire (.bool v) ++ wire (.uint32 n), 2⟩ [] (by simp [wire]) (by simp [Cursor.rest, wire, wireAll]) (.inl rfl)
    rw [this]
    simp [Cursor.adv, wireAll, wire]; omega
  show (RustGen.forFields (RustGen.decValue std S) (S.fields m) [1] _ >>= _) _ = _
  rw [RustGen.bind_def, RustGen.forFields]
  simp only [hm, List.getElem?_cons_succ, List.getElem?_cons_zero]
  have hnot : RustGen.try_from S r n = none := by
    rw [RustGen.try_from, if_neg]
    simp [RustGen.discriminants]; omega
  have hx : RustGen.decValue std S (.one .enum r false) ⟨wire (.bool v) ++ wire (.uint32 n), 2⟩ =
      (.err (.decoding .InvalidEnum), ⟨wire (.bool v) ++ wire (.uint32 n), (wire (.bool v) ++ wire (.uint32 n)).length⟩) := by
    simp only [RustGen.decValue, Field.Kind, RustGen.decodeLUT, RustGen.findValue, RustGen.findElem, RustGen.typeLUT]
    simp only [if_true]
    rw [RustGen.bind_ok hu, hnot]
    rfl
  rw [RustGen.bind_def, hx]

/-- Both cases exist: `message 0 { bool a; Msg0 b; }`, `message 1 { bool a; Enum0 b; }` with an enum of two constants. -/
example : let S : Schema := ⟨[[.one .bool 0 false, .one .message 1 false], [.one .bool 0 false, .one .enum 0 false]], [2]⟩
    S.GoSupported ∧ S.RustSupported ∧ S.fields 0 = [.one .bool 0 false, .one .message 1 false] ∧
    S.fields 1 = [.one .bool 0 false, .one .enum 0 false] ∧ S.enums[0]?.getD 0 ≤ (2 : BitVec 32).toNat := by
  refine ⟨?_, ?_, rfl, rfl, by decide⟩
  · intro fs hfs
    simp at hfs
    rcases hfs with rfl | rfl <;> simp [Field.GoSupported, Field.IsMap]
  · intro fs hfs
    simp at hfs
    rcases hfs with rfl | rfl <;> simp [Field.RustSupported]

end Props
