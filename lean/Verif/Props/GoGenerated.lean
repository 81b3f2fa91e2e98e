import Verif.Gen.GoLayout
import Verif.Gen.LayoutFacts
import Verif.Props.V2Roundtrip
import Verif.GoV1.Log

/-!
# C41, C42, C60, C62: code generated for Go

`S` is a set of protobuf message types, `m` one of them (by index), `V` its values (Gen/Schema.lean).
`Encode S m x = some calls` are the encoder calls the generated `x.Encode(b)` makes; `Decode ver S fuel m x b` is the
generated `x.Decode(b)`, where `fuel` bounds the depth of the call stack.  `settledAll` replaces nil maps by empty
maps and changes nothing else: maps are compared as sets of entries.
-/

namespace Props

open Gen Spec GoGen
open GoV2 (Runtime)

/-- The bytes in the buffer after `x.Encode(b)` on a fresh v2 buffer. -/
theorem encoded_v2 (rt : Runtime) {b0 : GoV2.Buffer} (hb : GoV2.Fresh b0) {calls : List Item} (hf : ∀ i ∈ calls, i.FitsV2) :
    ∃ b, GoV2.encodeItems rt b0 calls = .ok b ∧ b.Bytes = .ok (wireAll calls) := by
  obtain ⟨b, h1, h2⟩ := GoV2.encodeItems_spec rt calls b0 hb.usable hf
  refine ⟨b, h1, ?_⟩
  rw [h2.usable.bytes, h2.written, hb.written, List.nil_append]

/-- The items of a message with lengths the v2 encoder gets right. -/
theorem calls_fitsV2 {S : Schema} (hS : S.GoSupported) {m : Nat} {x : V} (hx : x.OfField S (.one .message m false)) (hf : x.FitsV2)
    {calls : List Item} (hc : Encode S m x = some calls) : ∀ i ∈ calls, i.FitsV2 := by
  rw [encode_layout hS m x hx] at hc
  simp at hc
  subst hc
  exact layout_fitsV2 S hf m

/-- The bytes in the buffer after `x.Encode(b)` on a new v1 buffer. -/
theorem encoded_v1 (rt : Runtime) {calls : List Item} (hf : ∀ i ∈ calls, i.Fits) :
    ∃ b, GoV1.encodeItems rt GoV1.NewBuffer calls = .ok b ∧ b.Bytes = wireAll calls := by
  obtain ⟨b, h1, h2⟩ := GoV1.encodeItems_spec rt calls _ GoV1.NewBuffer_ok.1 hf
  refine ⟨b, h1, ?_⟩
  rw [h2.2.1, GoV1.NewBuffer_ok.2, List.nil_append]

theorem decode_v2 {S : Schema} {fuel m : Nat} {olds res : List V} {b r : Bytes}
    (h : decode v2 GoV2.readItem S fuel m olds b = .ok r res) : Decode v2 S fuel m (.msg olds) b = .ok res := by
  simp only [Decode, show v2.codec = GoV2.readItem from rfl, h]

theorem decode_v1 {S : Schema} {fuel m : Nat} {olds res : List V} {b r : Bytes}
    (h : decode v1 v1Codec S fuel m olds b = .ok r res) : Decode v1 S fuel m (.msg olds) b = .ok res := by
  simp only [Decode, show v1.codec = v1Codec from rfl, h]

/-! ## A schema and a value for which the hypotheses hold

`message 0 { string a; repeated int32 b; map<string, Msg1> c; Msg1 d; Enum e; bytes f; }`,
`message 1 { Msg0 x; bool y; repeated Msg1 z; }`. -/

def demo : Schema := ⟨[
  [.one .string 0 false, .many .int32 0, .map .string .message 1, .one .message 1 false, .one .enum 0 false, .one .bytes 0 false],
  [.one .message 0 false, .one .bool 0 false, .many .message 1]], [3]⟩

def demoInner : V := .msg [.nil, .scalar (.bool true), .slice [.msg [.nil, .scalar (.bool false), .slice []]]]

def demoValue : List V := [.scalar (.string [104, 105]), .slice [.scalar (.int32 7), .scalar (.int32 (-1))],
  .map [.string [1], .string [2]] [demoInner, .msg [.nil, .scalar (.bool false), .slice []]],
  demoInner, .scalar (.enum 2), .scalar (.bytes [0, 255])]

theorem demo_supported : demo.GoSupported := by
  intro fs hfs
  simp [demo] at hfs
  rcases hfs with rfl | rfl <;> simp [Field.GoSupported, Field.IsMap]

theorem demo_closed : demo.Closed := by
  intro fs hfs
  simp [demo] at hfs
  rcases hfs with rfl | rfl <;> simp [Field.Closed, demo]

theorem demo_anchored : demo.Anchored := by
  intro fs hfs
  simp [demo] at hfs
  rcases hfs with rfl | rfl <;> simp [Field.Leaf]

theorem demo_typed : (V.msg demoValue).OfField demo (.one .message 0 false) := by
  simp [demoValue, demoInner, demo, V.OfField, OfFields, OfElems, Schema.fields, Scalar.OfKind]

theorem demo_fits : (V.msg demoValue).FitsV2 := by
  simp [demoValue, demoInner, V.FitsV2, FitsV2All, Scalar.FitsV2]

theorem demo_elems : (V.msg demoValue).NoNilElems := by
  simp [demoValue, demoInner, V.NoNilElems, NoNilElemsAll]

/-! ## C41: v2 `Decode` inverts v2 `Encode` -/

/-- For values in which every message writes something other than nil first (`Anchored`) and no element of a
repeated field or map is nil: encoding into a fresh buffer and decoding into a fresh struct gives the message back,
whatever follows it in the input. -/
theorem C41_roundtrip_partial (rt : Runtime) (b0 : GoV2.Buffer) (hb : GoV2.Fresh b0) (S : Schema) (hS : S.GoSupported) (m : Nat)
    (vs : List V) (hv : (V.msg vs).OfField S (.one .message m false)) (hf : (V.msg vs).FitsV2)
    (ha : (V.msg vs).Anchored S (.one .message m false)) (hn : (V.msg vs).NoNilElems) :
    ∃ calls b bs, Encode S m (.msg vs) = some calls ∧ GoV2.encodeItems rt b0 calls = .ok b ∧ b.Bytes = .ok bs ∧
      ∀ fuel, (V.msg vs).depth < fuel → ∀ t, Decode v2 S fuel m (.msg (S.fresh m)) (bs ++ t) = .ok (settledAll vs) := by
  obtain ⟨calls, h1, h2, h3⟩ := decode_encoded (setup_v2 hS) hv ha hf.fits
    (by simp only [V.OfField]; exact ⟨trivial, fresh_typed hS m⟩)
  obtain ⟨b, h4, h5⟩ := encoded_v2 rt hb (calls_fitsV2 hS hv hf h1)
  refine ⟨calls, b, _, h1, h4, h5, ?_⟩
  intro fuel hfuel t
  apply decode_v2 (r := t)
  rw [h3 _ law_v2 fuel (by omega) t]
  congr 1
  simp only [V.OfField] at hv
  simp only [V.NoNilElems] at hn
  exact (over_fresh S (sizeOf vs)).2.2.1 vs (Nat.le_refl _) (S.fields m) hv.2 hn

/-- The same with hypotheses on the schema: every message type has a scalar or repeated field or starts with a map. -/
theorem C41_schema_roundtrip_partial (rt : Runtime) (b0 : GoV2.Buffer) (hb : GoV2.Fresh b0) (S : Schema) (hS : S.GoSupported)
    (hc : S.Closed) (ha : S.Anchored) (m : Nat) (hm : m < S.messages.length)
    (vs : List V) (hv : (V.msg vs).OfField S (.one .message m false)) (hf : (V.msg vs).FitsV2) (hn : (V.msg vs).NoNilElems) :
    ∃ calls b bs, Encode S m (.msg vs) = some calls ∧ GoV2.encodeItems rt b0 calls = .ok b ∧ b.Bytes = .ok bs ∧
      ∀ fuel, (V.msg vs).depth < fuel → ∀ t, Decode v2 S fuel m (.msg (S.fresh m)) (bs ++ t) = .ok (settledAll vs) :=
  C41_roundtrip_partial rt b0 hb S hS m vs hv hf
    ((anchored_all S ha hc (sizeOf (V.msg vs))).1 _ (Nat.le_refl _) _ (fun _ => hm) hv) hn

example (rt : Runtime) : ∃ calls b bs, Encode demo 0 (.msg demoValue) = some calls ∧
    GoV2.encodeItems rt GoV2.NewBuffer calls = .ok b ∧ b.Bytes = .ok bs ∧
    ∀ fuel, (V.msg demoValue).depth < fuel → ∀ t, Decode v2 demo fuel 0 (.msg (demo.fresh 0)) (bs ++ t) = .ok demoValue := by
  have h := C41_schema_roundtrip_partial rt GoV2.NewBuffer (.inl rfl) demo demo_supported demo_closed demo_anchored 0
    (by simp [demo]) demoValue demo_typed demo_fits demo_elems
  rwa [show settledAll demoValue = demoValue by simp [demoValue, demoInner, settledAll, V.settled]] at h

/-- For values in which no message is nil the shape of the types does not matter (message types without fields are
allowed), if the input after the message does not start with the nil byte; and the struct may hold anything before. -/
theorem C41_no_nil_partial (rt : Runtime) (b0 : GoV2.Buffer) (hb : GoV2.Fresh b0) (S : Schema) (hS : S.GoSupported) (m : Nat)
    (vs olds : List V) (hv : (V.msg vs).OfField S (.one .message m false)) (ho : (V.msg olds).OfField S (.one .message m false))
    (hf : (V.msg vs).FitsV2) (hn : (V.msg vs).NoNil) :
    ∃ calls b bs, Encode S m (.msg vs) = some calls ∧ GoV2.encodeItems rt b0 calls = .ok b ∧ b.Bytes = .ok bs ∧
      ∀ fuel, (V.msg vs).depth < fuel → ∀ t, t.head? ≠ some kNil →
        Decode v2 S fuel m (.msg olds) (bs ++ t) = .ok (settledAll vs) := by
  obtain ⟨calls, h1, h2, h3⟩ := decode_noNil (setup_v2 hS) hv hn hf.fits ho
  obtain ⟨b, h4, h5⟩ := encoded_v2 rt hb (calls_fitsV2 hS hv hf h1)
  exact ⟨calls, b, _, h1, h4, h5, fun fuel hfuel t ht => decode_v2 (r := t) (h3 _ law_v2 fuel (by omega) t ht)⟩

/-- A case with a message type without fields: `message 0 { Msg1 a; repeated Msg1 b; Msg2 c; }`, `message 1 { }`,
`message 2 { Msg1 x; }`. -/
example : let S : Schema := ⟨[[.one .message 1 false, .many .message 1, .one .message 2 false], [], [.one .message 1 false]], []⟩
    let x : List V := [.msg [], .slice [.msg [], .msg []], .msg [.msg []]]
    S.GoSupported ∧ (V.msg x).OfField S (.one .message 0 false) ∧ (V.msg x).FitsV2 ∧ (V.msg x).NoNil ∧ settledAll x = x := by
  refine ⟨?_, ?_, ?_, ?_, ?_⟩
  · intro fs hfs
    simp at hfs
    rcases hfs with rfl | rfl | rfl <;> simp [Field.GoSupported, Field.IsMap]
  · simp [V.OfField, OfFields, OfElems, Schema.fields]
  · simp [V.FitsV2, FitsV2All]
  · simp [V.NoNil, NoNilAll]
  · simp [settledAll, V.settled]

/-- The full property fails: if the type has singular message fields only and the first is nil, the encoding
starts with the nil byte, `Decode` stops there and the other fields are lost. -/
theorem C41_false (S : Schema) (hS : S.GoSupported) (m : Nat) (hm : ∀ f ∈ S.fields m, ∃ r c, f = .one .message r c)
    (vs : List V) (hv : (V.msg (.nil :: vs)).OfField S (.one .message m false)) :
    ∃ calls, Encode S m (.msg (.nil :: vs)) = some calls ∧
      ∀ fuel t, Decode v2 S (fuel + 1) m (.msg (S.fresh m)) (wireAll calls ++ t) = .ok (S.fresh m) := by
  obtain ⟨rest, h⟩ := encode_messages hS hm hv (cs := [.nil]) (by intros; simp [part])
  refine ⟨_, h, ?_⟩
  intro fuel t
  apply decode_v2
  rw [wireAll_append, List.append_assoc]
  exact decode_nil law_v2 S fuel m _ _

/-- Example of lost data: `message 0 { Msg1 a; Msg1 b; }` with `a` nil and `b` not. -/
example : let S : Schema := ⟨[[.one .message 1 false, .one .message 1 false], [.one .bool 0 false]], []⟩
    let x : List V := [.nil, .msg [.scalar (.bool true)]]
    S.GoSupported ∧ (V.msg x).OfField S (.one .message 0 false) ∧
    (∀ f ∈ S.fields 0, ∃ r c, f = .one .message r c) ∧ S.fresh 0 = [.nil, .nil] := by
  refine ⟨?_, ?_, ?_, rfl⟩
  · intro fs hfs
    simp at hfs
    rcases hfs with rfl | rfl <;> simp [Field.GoSupported, Field.IsMap]
  · simp [V.OfField, OfFields, Schema.fields, Scalar.OfKind]
  · simp [Schema.fields]

/-- A nil element of a repeated message field comes back as a message with zero fields. -/
theorem C41_nil_element_false (S : Schema) (hS : S.GoSupported) (m r : Nat) (hm : S.fields m = [.many .message r]) :
    ∃ calls, Encode S m (.msg [.slice [.nil]]) = some calls ∧ ∀ fuel t,
      Decode v2 S (fuel + 3) m (.msg (S.fresh m)) (wireAll calls ++ t) = .ok [.slice [.msg (S.fresh r)]] := by
  obtain ⟨calls, h1, h2, h3⟩ := decode_encoded (setup_v2 hS) (m := m) (vs := [.slice [.nil]]) (olds := S.fresh m)
    (by simp [V.OfField, hm, OfFields, OfElems]) (by simp [V.Anchored, hm, AnchoredF, AnchoredE, Field.Leaf])
    (by simp [V.Fits, FitsAll]) (by simp only [V.OfField]; exact ⟨trivial, fresh_typed hS m⟩)
  refine ⟨calls, h1, ?_⟩
  intro fuel t
  apply decode_v2 (r := t)
  rw [h3 _ law_v2 (fuel + 3) (by simp [V.depth, depths]) t]
  simp [hm, Schema.fresh, Field.fresh, oversF, V.over, oversE, V.overElem, Style.into, Style.v2]

/-- A message type without fields writes nothing, so a nil message after it is taken for it: of two fields of that
type the first comes back nil and the second as a message, though it was the other way round. -/
theorem C41_empty_message_false (S : Schema) (hS : S.GoSupported) (m e : Nat) (he : S.fields e = [])
    (hm : S.fields m = [.one .bool 0 false, .one .message e false, .one .message e false]) (v : Bool) :
    ∃ calls, Encode S m (.msg [.scalar (.bool v), .msg [], .nil]) = some calls ∧ ∀ fuel,
      Decode v2 S (fuel + 3) m (.msg (S.fresh m)) (wireAll calls) = .ok [.scalar (.bool v), .nil, .msg []] := by
  refine ⟨[.bool v, .nil], ?_, ?_⟩
  · simp [Encode, part, hm, he, parts, GetEncodingFields, encLoop, encodeLUT, Field.Kind, Field.Cardinality, arrange, concatM,
      emitValue, emitMessage, emitScalar, callEnc]
  · intro fuel
    apply decode_v2 (r := [])
    have hsup := fields_supported hS m
    have d : GetDecodingFields (S.fields m) = some ⟨[1, 2], [], [0]⟩ := by rw [hm]; rfl
    have u : errUsed (S.fields m) ⟨[1, 2], [], [0]⟩ = true := by rw [hm]; rfl
    have s0 : decValue GoV2.readItem v2.bytesScratch (.one .bool 0 false) (.scalar (.bool false)) (wire (.bool v) ++ wire .nil) =
        .ok (wire .nil) (.scalar (.bool v)) :=
      decValue_wire law_v2 (k := .bool) (s := .bool v) (by simp [Scalar.OfKind]) 0 false _ _ (by simp [Scalar.Fits])
    have s1 : ∀ rec, decMessage v2 GoV2.readItem rec (.one .message e false) .nil (wire .nil) = .ok [] .nil := by
      intro rec
      have := isNil_nil law_v2 []
      rw [List.append_nil] at this
      rw [decMessage, if_pos (by rfl), bind_ok this]
      rfl
    have hempty : decode v2 GoV2.readItem S (fuel + 2) e [] [] = .ok [] [] := by
      rw [decode, bind_ok (isNil_no law_v2 (by simp))]
      rw [he]
      rfl
    have s2 : decMessage v2 GoV2.readItem (callees v2 GoV2.readItem S (fuel + 2)) (.one .message e false) .nil [] = .ok [] (.msg []) := by
      rw [decMessage, if_pos (by rfl), bind_ok (isNil_no law_v2 (by simp))]
      simp only [Bool.false_eq_true, if_false]
      have hn : (callees v2 GoV2.readItem S (fuel + 2)).new e [] = .ok [] [] := by
        simp [callees, callNew, New, he, newFields]
      rw [decInto]
      have hc : current (callees v2 GoV2.readItem S (fuel + 2)) e .nil [] = .ok [] [] := hn
      rw [bind_ok hc]
      show (decode v2 GoV2.readItem S (fuel + 2) e [] >>= _) [] = _
      rw [bind_ok hempty]; rfl
    rw [decode, show wireAll [.bool v, .nil] = wire (.bool v) ++ wire .nil by simp [wireAll],
      bind_ok (isNil_no law_v2 (by simp [wire, kNil, kBool]))]
    simp only [Bool.false_eq_true, if_false, d, u, if_true]
    show decBody v2 GoV2.readItem (callees v2 GoV2.readItem S (fuel + 2)) _ _ _ _ = _
    have f0 : forFields (decValue GoV2.readItem v2.bytesScratch) (S.fields m) [0] (S.fresh m) (wire (.bool v) ++ wire .nil) =
        .ok (wire .nil) [.scalar (.bool v), .nil, .nil] := by
      simp only [forFields, Schema.fresh, hm, List.map, List.getElem?_cons_zero, Field.fresh]
      rw [bind_ok s0]; rfl
    have f2 : forFields (decMessage v2 GoV2.readItem (callees v2 GoV2.readItem S (fuel + 2))) (S.fields m) [1, 2]
        [.scalar (.bool v), .nil, .nil] (wire .nil) = .ok [] [.scalar (.bool v), .nil, .msg []] := by
      simp only [forFields, hm, List.getElem?_cons_succ, List.getElem?_cons_zero]
      rw [bind_ok (s1 _)]
      simp only [List.set, List.getElem?_cons_succ, List.getElem?_cons_zero]
      rw [bind_ok s2]; rfl
    rw [decBody, bind_ok f0]
    exact f2

/-- `Decode` on a nil pointer is an error. -/
theorem C41_nil_target (S : Schema) (fuel m : Nat) (b : Bytes) : Decode v2 S fuel m .nil b = .errDecodeNil := rfl

/-! ## C42: decoding into a used struct -/

/-- What the struct holds afterwards, exactly, whatever it held before. -/
theorem C42_exact (rt : Runtime) (b0 : GoV2.Buffer) (hb : GoV2.Fresh b0) (S : Schema) (hS : S.GoSupported) (m : Nat)
    (vs olds : List V) (hv : (V.msg vs).OfField S (.one .message m false)) (ho : (V.msg olds).OfField S (.one .message m false))
    (hf : (V.msg vs).FitsV2) (ha : (V.msg vs).Anchored S (.one .message m false)) :
    ∃ calls b bs, Encode S m (.msg vs) = some calls ∧ GoV2.encodeItems rt b0 calls = .ok b ∧ b.Bytes = .ok bs ∧
      ∀ fuel, (V.msg vs).depth < fuel → ∀ t,
        Decode v2 S fuel m (.msg olds) (bs ++ t) = .ok (oversF (.v2 S) S (S.fields m) olds vs) := by
  obtain ⟨calls, h1, h2, h3⟩ := decode_encoded (setup_v2 hS) hv ha hf.fits ho
  obtain ⟨b, h4, h5⟩ := encoded_v2 rt hb (calls_fitsV2 hS hv hf h1)
  refine ⟨calls, b, _, h1, h4, h5, ?_⟩
  intro fuel hfuel t
  exact decode_v2 (r := t) (h3 _ law_v2 fuel (by omega) t)

/-- If no message inside the value is nil, the old contents do not matter. -/
theorem C42_same_as_fresh_partial (rt : Runtime) (b0 : GoV2.Buffer) (hb : GoV2.Fresh b0) (S : Schema) (hS : S.GoSupported)
    (m : Nat) (vs olds : List V) (hv : (V.msg vs).OfField S (.one .message m false))
    (ho : (V.msg olds).OfField S (.one .message m false))
    (hf : (V.msg vs).FitsV2) (ha : (V.msg vs).Anchored S (.one .message m false)) (hn : (V.msg vs).NoNil) :
    ∃ calls b bs, Encode S m (.msg vs) = some calls ∧ GoV2.encodeItems rt b0 calls = .ok b ∧ b.Bytes = .ok bs ∧
      ∀ fuel, (V.msg vs).depth < fuel → ∀ t,
        Decode v2 S fuel m (.msg olds) (bs ++ t) = .ok (settledAll vs) ∧
        Decode v2 S fuel m (.msg (S.fresh m)) (bs ++ t) = .ok (settledAll vs) := by
  obtain ⟨calls, h1, h2, h3⟩ := decode_encoded (setup_v2 hS) hv ha hf.fits ho
  obtain ⟨calls', h1', _, h3'⟩ := decode_encoded (setup_v2 hS) (olds := S.fresh m) hv ha hf.fits
    (by simp only [V.OfField]; exact ⟨trivial, fresh_typed hS m⟩)
  rw [h1] at h1'; simp at h1'; subst h1'
  obtain ⟨b, h4, h5⟩ := encoded_v2 rt hb (calls_fitsV2 hS hv hf h1)
  refine ⟨calls, b, _, h1, h4, h5, ?_⟩
  intro fuel hfuel t
  simp only [V.OfField] at hv ho
  simp only [V.NoNil] at hn
  have key := (over_noNil (.v2 S) S (fun m => fresh_typed hS m) (sizeOf vs)).2.2.1 vs (Nat.le_refl _) (S.fields m)
  constructor
  · apply decode_v2 (r := t)
    rw [h3 _ law_v2 fuel (by omega) t, key olds hv.2 hn ho.2]
  · apply decode_v2 (r := t)
    rw [h3' _ law_v2 fuel (by omega) t, key _ hv.2 hn (fresh_typed hS m)]

/-- The full property fails: a field that is a nil message keeps what the struct held before. -/
theorem C42_false (S : Schema) (hS : S.GoSupported) (m : Nat) (vs olds : List V)
    (hv : (V.msg vs).OfField S (.one .message m false)) (ho : (V.msg olds).OfField S (.one .message m false))
    (hf : (V.msg vs).Fits) (ha : (V.msg vs).Anchored S (.one .message m false)) (i : Nat) (hi : vs[i]? = some .nil) :
    ∃ calls res, Encode S m (.msg vs) = some calls ∧ res[i]? = olds[i]? ∧
      ∀ fuel, (V.msg vs).depth < fuel → ∀ t, Decode v2 S fuel m (.msg olds) (wireAll calls ++ t) = .ok res := by
  obtain ⟨calls, h1, h2, h3⟩ := decode_encoded (setup_v2 hS) hv ha hf ho
  refine ⟨calls, _, h1, ?_, fun fuel hfuel t => decode_v2 (r := t) (h3 _ law_v2 fuel (by omega) t)⟩
  simp only [V.OfField] at hv ho
  have hl := ofFields_length S _ _ hv.2
  have hlt : i < vs.length := by
    rcases Nat.lt_or_ge i vs.length with h | h
    · exact h
    · rw [List.getElem?_eq_none h] at hi; simp at hi
  have hfi : (S.fields m)[i]? = some (S.fields m)[i] := List.getElem?_eq_getElem (by omega)
  obtain ⟨old, g1, g2⟩ := ofFields_get S _ _ i _ ho.2 hfi
  obtain ⟨v, g3, g4⟩ := ofFields_get S _ _ i _ hv.2 hfi
  rw [hi] at g3; simp at g3; subst g3
  rw [oversF_get _ S _ _ _ i _ old .nil hfi g1 hi, g1]
  generalize (S.fields m)[i] = f at g4
  cases f <;> simp [V.OfField] at g4
  simp [V.over, Style.v2]

/-- Concrete case: the used struct has a message where the new value has nil. -/
example : let S : Schema := ⟨[[.one .bool 0 false, .one .message 0 false]], []⟩
    let x : List V := [.scalar (.bool true), .nil]
    let old : List V := [.scalar (.bool false), .msg [.scalar (.bool true), .nil]]
    S.GoSupported ∧ (V.msg x).OfField S (.one .message 0 false) ∧ (V.msg old).OfField S (.one .message 0 false) ∧
    (V.msg x).Fits ∧ (V.msg x).Anchored S (.one .message 0 false) ∧ x[1]? = some .nil ∧ old[1]? ≠ some .nil := by
  refine ⟨?_, ?_, ?_, ?_, ?_, rfl, ?_⟩
  · intro fs hfs
    simp at hfs
    subst hfs; simp [Field.GoSupported, Field.IsMap]
  · simp [V.OfField, OfFields, Schema.fields, Scalar.OfKind]
  · simp [V.OfField, OfFields, Schema.fields, Scalar.OfKind]
  · simp [V.Fits, FitsAll, Scalar.Fits]
  · simp [V.Anchored, AnchoredF, Schema.fields, Field.Leaf]
  · simp

/-! ## C60: generated v1 code -/

/-- For types that do not contain themselves through singular message fields (`Style.IsV1`: `New` terminates), and
values without nil messages: v1 code decodes what it encoded, into a struct that holds anything. -/
theorem C60_roundtrip_partial (rt : Runtime) (S : Schema) (hS : S.GoSupported) (w : Style) (hw : w.IsV1 S)
    (m : Nat) (vs olds : List V) (hv : (V.msg vs).OfField S (.one .message m false))
    (ho : (V.msg olds).OfField S (.one .message m false))
    (hf : (V.msg vs).Fits) (ha : (V.msg vs).Anchored S (.one .message m false)) (hn : (V.msg vs).NoNil) :
    ∃ calls b N, Encode S m (.msg vs) = some calls ∧ GoV1.encodeItems rt GoV1.NewBuffer calls = .ok b ∧
      ∀ fuel, N ≤ fuel → ∀ t, Decode v1 S fuel m (.msg olds) (b.Bytes ++ t) = .ok (settledAll vs) := by
  obtain ⟨N, hN⟩ := setup_v1 hS hw
  obtain ⟨calls, h1, h2, h3⟩ := decode_encoded hN hv ha hf ho
  obtain ⟨b, h4, h5⟩ := encoded_v1 rt h2
  refine ⟨calls, b, (V.msg vs).depth + N, h1, h4, ?_⟩
  intro fuel hfuel t
  simp only [V.OfField] at hv ho
  simp only [V.NoNil] at hn
  rw [h5]
  apply decode_v1 (r := t)
  rw [h3 _ law_v1 fuel hfuel t]
  congr 1
  exact (over_noNil w S hN.typed (sizeOf vs)).2.2.1 vs (Nat.le_refl _) (S.fields m) olds hv.2 hn ho.2

/-- The same for any types (message types without fields are allowed), if the input after the message does not start
with the nil byte. -/
theorem C60_no_nil_partial (rt : Runtime) (S : Schema) (hS : S.GoSupported) (w : Style) (hw : w.IsV1 S)
    (m : Nat) (vs olds : List V) (hv : (V.msg vs).OfField S (.one .message m false))
    (ho : (V.msg olds).OfField S (.one .message m false)) (hf : (V.msg vs).Fits) (hn : (V.msg vs).NoNil) :
    ∃ calls b N, Encode S m (.msg vs) = some calls ∧ GoV1.encodeItems rt GoV1.NewBuffer calls = .ok b ∧
      ∀ fuel, N ≤ fuel → ∀ t, t.head? ≠ some kNil → Decode v1 S fuel m (.msg olds) (b.Bytes ++ t) = .ok (settledAll vs) := by
  obtain ⟨N, hN⟩ := setup_v1 hS hw
  obtain ⟨calls, h1, h2, h3⟩ := decode_noNil hN hv hn hf ho
  obtain ⟨b, h4, h5⟩ := encoded_v1 rt h2
  refine ⟨calls, b, (V.msg vs).depth + N, h1, h4, ?_⟩
  intro fuel hfuel t ht
  rw [h5]
  exact decode_v1 (r := t) (h3 _ law_v1 fuel hfuel t ht)

/-- In general: exactly what the struct holds afterwards. -/
theorem C60_exact (rt : Runtime) (S : Schema) (hS : S.GoSupported) (w : Style) (hw : w.IsV1 S)
    (m : Nat) (vs olds : List V) (hv : (V.msg vs).OfField S (.one .message m false))
    (ho : (V.msg olds).OfField S (.one .message m false))
    (hf : (V.msg vs).Fits) (ha : (V.msg vs).Anchored S (.one .message m false)) :
    ∃ calls b N, Encode S m (.msg vs) = some calls ∧ GoV1.encodeItems rt GoV1.NewBuffer calls = .ok b ∧
      ∀ fuel, N ≤ fuel → ∀ t, Decode v1 S fuel m (.msg olds) (b.Bytes ++ t) = .ok (oversF w S (S.fields m) olds vs) := by
  obtain ⟨N, hN⟩ := setup_v1 hS hw
  obtain ⟨calls, h1, h2, h3⟩ := decode_encoded hN hv ha hf ho
  obtain ⟨b, h4, h5⟩ := encoded_v1 rt h2
  refine ⟨calls, b, (V.msg vs).depth + N, h1, h4, ?_⟩
  intro fuel hfuel t
  rw [h5]
  exact decode_v1 (r := t) (h3 _ law_v1 fuel hfuel t)

/-- A nil message comes back as an allocated one (the full property fails). -/
theorem C60_nil_false (rt : Runtime) (S : Schema) (hS : S.GoSupported) (w : Style) (hw : w.IsV1 S) (m r : Nat)
    (hm : S.fields m = [.one .bool 0 false, .one .message r false]) (v : Bool) (olds : List V)
    (ho : (V.msg olds).OfField S (.one .message m false)) :
    ∃ calls b N, Encode S m (.msg [.scalar (.bool v), .nil]) = some calls ∧
      GoV1.encodeItems rt GoV1.NewBuffer calls = .ok b ∧
      ∀ fuel, N ≤ fuel → ∀ t, ∃ ws, Decode v1 S fuel m (.msg olds) (b.Bytes ++ t) = .ok [.scalar (.bool v), .msg ws] := by
  obtain ⟨calls, b, N, h1, h2, h3⟩ := C60_exact rt S hS w hw m [.scalar (.bool v), .nil] olds
    (by simp [V.OfField, OfFields, hm, Scalar.OfKind]) ho (by simp [V.Fits, FitsAll, Scalar.Fits])
    (by simp [V.Anchored, AnchoredF, hm, Field.Leaf])
  refine ⟨calls, b, N, h1, h2, fun fuel hf t => ?_⟩
  simp only [V.OfField, hm] at ho
  match olds, ho.2 with
  | [a, b], ho => exact ⟨_, by rw [h3 fuel hf t, hm, oversF, oversF, over_scalar, V.over, hw.merge, if_pos rfl, oversF] <;> simp⟩

/-- For a type that contains itself through a singular field, `New` never returns: the stack overflows. -/
theorem C60_new_overflows (S : Schema) (m : Nat) (c : Bool) (hm : .one .message m c ∈ S.fields m) :
    ∀ fuel, New v1 S fuel m = none := by
  have key : ∀ (new : Nat → Option (List V)), new m = none → ∀ fs : List Field, .one .message m c ∈ fs →
      newFields v1 new fs = none := by
    intro new h fs
    induction fs with
    | nil => intro h; simp at h
    | cons f fs ih =>
      intro hf
      rcases List.mem_cons.mp hf with rfl | hf
      · have : (Field.one .message m c).Cardinality ≠ .repeated := by cases c <;> simp [Field.Cardinality]
        simp [newFields, newField, v1, Field.Kind, this, h]
      · rw [newFields, ih hf]
        cases newField v1 new f <;> rfl
  intro fuel
  induction fuel with
  | zero => rfl
  | succ fuel ih => exact key _ ih _ hm

/-! ## C62: v1 and v2 code understand each other -/

/-- Generated v1 and v2 encoders write the same bytes, for every message (or nil). -/
theorem C62_same_bytes (rt1 rt2 : Runtime) (b0 : GoV2.Buffer) (hb : GoV2.Fresh b0) (S : Schema) (hS : S.GoSupported) (m : Nat)
    (x : V) (hx : x.OfField S (.one .message m false)) (hf : x.FitsV2) :
    ∃ calls b1 b2, Encode S m x = some calls ∧ GoV1.encodeItems rt1 GoV1.NewBuffer calls = .ok b1 ∧
      GoV2.encodeItems rt2 b0 calls = .ok b2 ∧ b2.Bytes = .ok b1.Bytes := by
  have h2 := layout_fitsV2 S hf m
  obtain ⟨b1, h3, h4⟩ := encoded_v1 rt1 (fun i hi => (h2 i hi).fits)
  obtain ⟨b2, h5, h6⟩ := encoded_v2 rt2 hb h2
  exact ⟨_, b1, b2, encode_layout hS m x hx, h3, h5, by rw [h6, h4]⟩

/-- v2 code decodes what v1 code encoded, as exactly as v2 code would. -/
theorem C62_v1_to_v2 (rt : Runtime) (S : Schema) (hS : S.GoSupported) (m : Nat) (vs olds : List V)
    (hv : (V.msg vs).OfField S (.one .message m false)) (ho : (V.msg olds).OfField S (.one .message m false))
    (hf : (V.msg vs).Fits) (ha : (V.msg vs).Anchored S (.one .message m false)) :
    ∃ calls b, Encode S m (.msg vs) = some calls ∧ GoV1.encodeItems rt GoV1.NewBuffer calls = .ok b ∧
      ∀ fuel, (V.msg vs).depth < fuel → ∀ t,
        Decode v2 S fuel m (.msg olds) (b.Bytes ++ t) = .ok (oversF (.v2 S) S (S.fields m) olds vs) := by
  obtain ⟨calls, h1, h2, h3⟩ := decode_encoded (setup_v2 hS) hv ha hf ho
  obtain ⟨b, h4, h5⟩ := encoded_v1 rt h2
  refine ⟨calls, b, h1, h4, ?_⟩
  intro fuel hfuel t
  rw [h5]
  exact decode_v2 (r := t) (h3 _ law_v2 fuel (by omega) t)

/-- v1 code decodes what v2 code encoded, as exactly as v1 code would. -/
theorem C62_v2_to_v1 (rt : Runtime) (b0 : GoV2.Buffer) (hb : GoV2.Fresh b0) (S : Schema) (hS : S.GoSupported) (w : Style)
    (hw : w.IsV1 S) (m : Nat) (vs olds : List V)
    (hv : (V.msg vs).OfField S (.one .message m false)) (ho : (V.msg olds).OfField S (.one .message m false))
    (hf : (V.msg vs).FitsV2) (ha : (V.msg vs).Anchored S (.one .message m false)) :
    ∃ calls b bs N, Encode S m (.msg vs) = some calls ∧ GoV2.encodeItems rt b0 calls = .ok b ∧ b.Bytes = .ok bs ∧
      ∀ fuel, N ≤ fuel → ∀ t, Decode v1 S fuel m (.msg olds) (bs ++ t) = .ok (oversF w S (S.fields m) olds vs) := by
  obtain ⟨N, hN⟩ := setup_v1 hS hw
  obtain ⟨calls, h1, h2, h3⟩ := decode_encoded hN hv ha hf.fits ho
  obtain ⟨b, h4, h5⟩ := encoded_v2 rt hb (calls_fitsV2 hS hv hf h1)
  refine ⟨calls, b, _, (V.msg vs).depth + N, h1, h4, h5, ?_⟩
  intro fuel hfuel t
  exact decode_v1 (r := t) (h3 _ law_v1 fuel hfuel t)

/-- A schema for v1: `message 0 { bool a; Msg1 b; repeated Msg1 c; }`, `message 1 { bytes x; map<string, int32> y; }`. -/
def demo1 : Schema := ⟨[
  [.one .bool 0 false, .one .message 1 false, .many .message 1],
  [.one .bytes 0 false, .map .string .int32 0]], []⟩

/-- What `NewMsg0()`, `NewMsg1()` return. -/
def demo1Style : Style := ⟨fun m => match m with
  | 0 => [.scalar (.bool false), .msg [.scalar (.bytes []), .nilMap], .slice []]
  | 1 => [.scalar (.bytes []), .nilMap]
  | _ => [], true⟩

theorem demo1_style : demo1Style.IsV1 demo1 := by
  refine ⟨?_, rfl⟩
  have h1 : AllocatedAll demo1 (demo1.fields 1) [.scalar (.bytes []), .nilMap] := by
    refine .cons _ _ _ _ (.other (.one .bytes 0 false) ?_) (.cons _ _ _ _ (.other (.map .string .int32 0) ?_) .nil) <;>
      (intro _ _ h; cases h)
  intro m
  match m with
  | 0 =>
    refine .cons _ _ _ _ (.other (.one .bool 0 false) ?_) (.cons _ _ _ _ (.message 1 _ _ h1)
      (.cons _ _ _ _ (.other (.many .message 1) ?_) .nil)) <;> (intro _ _ h; cases h)
  | 1 => exact h1
  | m + 2 =>
    have : demo1.fields (m + 2) = [] := by simp [Schema.fields, demo1]
    rw [this]; exact .nil

def demo1Value : List V := [.scalar (.bool true), .msg [.scalar (.bytes [7]), .map [.string [1]] [.scalar (.int32 3)]],
  .slice [.msg [.scalar (.bytes []), .nilMap], .msg [.scalar (.bytes [2, 3]), .map [] []]]]

example (rt : Runtime) : ∃ calls b N, Encode demo1 0 (.msg demo1Value) = some calls ∧
    GoV1.encodeItems rt GoV1.NewBuffer calls = .ok b ∧
    ∀ fuel, N ≤ fuel → ∀ t, Decode v1 demo1 fuel 0 (.msg demo1Value) (b.Bytes ++ t) = .ok (settledAll demo1Value) := by
  have hv : (V.msg demo1Value).OfField demo1 (.one .message 0 false) := by
    simp [demo1Value, demo1, V.OfField, OfFields, OfElems, Schema.fields, Scalar.OfKind]
  refine C60_roundtrip_partial rt demo1 ?_ demo1Style demo1_style 0 demo1Value demo1Value hv hv ?_ ?_ ?_
  · intro fs hfs
    simp [demo1] at hfs
    rcases hfs with rfl | rfl <;> simp [Field.GoSupported, Field.IsMap]
  · simp [demo1Value, V.Fits, FitsAll, Scalar.Fits]
  · simp [demo1Value, V.Anchored, AnchoredF, AnchoredE, demo1, Schema.fields, Field.Leaf]
  · simp [demo1Value, V.NoNil, NoNilAll]

end Props
