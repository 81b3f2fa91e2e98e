import Verif.Props.GoReuse
import Verif.Gen.NewChain

/-!
# C60, C62, C92: the programs that the v1 generator prints
-/

namespace Props

open Utils Text GoAst GoText GoRun Gen
open GoGen (Decode New v1)
open GoV2 (Runtime)

/-- **C60 (constructors).** For every schema of supported fields and every message type: the constructor that v1 code has for it
returns, given enough call stack, unless there is an endless chain of types, each with a singular field of the next; then it exceeds any
call stack. -/
theorem C60_new_iff (S : Schema) (hS : S.GoSupported) (m : Nat) : (∃ N, ∀ fuel, N ≤ fuel → New v1 S fuel m ≠ none) ↔ ¬ S.Endless m := by
  rw [← GoGen.new_endless hS]
  constructor
  · rintro ⟨N, hN⟩ h
    exact hN N (Nat.le_refl _) (h N)
  · intro h
    obtain ⟨n, hn⟩ := Classical.not_forall.mp h
    cases hv : New v1 S n m with
    | none => exact absurd hv hn
    | some vs =>
      obtain ⟨N, hN⟩ := GoGen.new_stable hS hv
      exact ⟨N, fun k hk => by rw [hN k hk]; simp⟩

/-- **C60 (no hypothesis about what `New` returns).** For values without nil messages, of types without endless chains. -/
theorem C60_roundtrip_finite_partial (rt : Runtime) (S : Schema) (hS : S.GoSupported) (hfin : ∀ m, ¬ S.Endless m)
    (m : Nat) (vs olds : List V) (hv : (V.msg vs).OfField S (.one .message m false))
    (ho : (V.msg olds).OfField S (.one .message m false))
    (hf : (V.msg vs).Fits) (ha : (V.msg vs).Anchored S (.one .message m false)) (hn : (V.msg vs).NoNil) :
    ∃ calls b N, GoGen.Encode S m (.msg vs) = some calls ∧ GoV1.encodeItems rt GoV1.NewBuffer calls = .ok b ∧
      ∀ fuel, N ≤ fuel → ∀ t, Decode v1 S fuel m (.msg olds) (b.Bytes ++ t) = .ok (settledAll vs) := by
  obtain ⟨w, hw⟩ := style_v1 ((endless_iff hS).mpr hfin)
  exact C60_roundtrip_partial rt S hS w hw m vs olds hv ho hf ha hn

/-- A tree type: its constructor never returns.  A list type, through a repeated field: it does. -/
example : (⟨[[.one .bool 0 false, .one .message 0 false], [.many .message 1]], []⟩ : Schema).Endless 0 ∧
    ¬ (⟨[[.one .bool 0 false, .one .message 0 false], [.many .message 1]], []⟩ : Schema).Endless 1 := by
  refine ⟨⟨fun _ => 0, rfl, fun _ => ⟨false, by simp [Schema.fields]⟩⟩, ?_⟩
  rintro ⟨c, h0, hc⟩
  obtain ⟨r, hr⟩ := hc 0
  rw [h0] at hr
  simp [Schema.fields] at hr

section
open LibV1

/-- **C92 (New).** About the program that the v1 generator prints, for every supported file and each of its message types: `NewT()`,
given enough call stack, returns a message in which scalar fields are zero, repeated fields and maps empty, and every singular message
field, at any depth, is allocated in the same way (`AllocatedAll`), unless there is an endless chain of types. -/
theorem C92_new (f : FileD) (h : f.Plain) (m : Nat) (t : Bytes × List FieldD) (ht : f.types[m]? = some t) (hm : ¬ f.schema.Endless m) :
    ∃ N vs, AllocatedAll f.schema (f.schema.fields m) vs ∧ ∀ rd depth inp, N ≤ depth →
      callFunc (program f) rd depth (go!"New" ++ camel t.1) [] inp = .ok [.data (.msg vs)] none [] inp := by
  rw [← GoGen.new_endless h.supported] at hm
  obtain ⟨n, hn⟩ := Classical.not_forall.mp hm
  cases hv : New v1 f.schema n m with
  | none => exact absurd hv hn
  | some vs =>
    refine ⟨n, vs, allocated_of_new h.supported n m vs hv, fun rd depth inp hd => ?_⟩
    rw [callFunc, find_new h (List.mem_of_getElem? ht)]
    simp only []
    rw [run_new h n depth m t vs _ hd ht hv]
    rfl

/-- **C92 (New, refuted for chains).** If there is one, e.g. if the type has a singular field of its own type, `NewT()` exceeds every call
stack. -/
theorem C92_new_endless_false (f : FileD) (h : f.Plain) (m : Nat) (t : Bytes × List FieldD) (ht : f.types[m]? = some t) (hm : f.schema.Endless m) :
    ∀ rd depth inp, callFunc (program f) rd depth (go!"New" ++ camel t.1) [] inp = .fault .overflow := by
  intro rd depth inp
  rw [callFunc, find_new h (List.mem_of_getElem? ht)]
  simp only []
  rw [run_new_none h depth m t _ ht ((GoGen.new_endless h.supported m).mpr hm depth)]

/-- **C92 (round trip).** End to end, about the printed program and the v1 library, for files without endless chains: `Encode` of a message
without nil messages makes calls that the encoder turns into bytes, and `Decode` of these bytes into what `NewT()` returns, or into any
other message of the type, returns nil and gives the message back.  `tail`, the input after the message, must not begin with the byte of
nil, for a message type without fields takes that for itself. -/
theorem C92_roundtrip_partial (f : FileD) (h : f.Plain) (hu : f.Unhidden) (hfin : ∀ m, ¬ f.schema.Endless m) : ∃ R, ∀ m t, f.types[m]? = some t →
    ∃ fresh, (∀ depth, R ≤ depth → callFunc (program f) v1.codec depth (go!"New" ++ camel t.1) [] [] = .ok [.data (.msg fresh)] none [] []) ∧
      (V.msg fresh).OfField f.schema (.one .message m false) ∧
      ∀ vs, (V.msg vs).OfField f.schema (.one .message m false) → (V.msg vs).Fits → (V.msg vs).NoNil → ∀ depth, 2 * ((V.msg vs).depth + R) + 1 ≤ depth →
      ∃ calls, callMethod (program f) v1.codec depth (camel t.1) go!"Encode" (.data (.msg vs)) [.buffer] [] = .ok [] (some (.data (.msg vs))) calls [] ∧
        ∀ rt : Runtime, ∃ b, GoV1.encodeItems rt GoV1.NewBuffer calls = .ok b ∧
          ∀ olds, (V.msg olds).OfField f.schema (.one .message m false) → ∀ tail, tail.head? ≠ some Spec.kNil →
          ∃ unread, callMethod (program f) v1.codec depth (camel t.1) go!"Decode" (.data (.msg olds)) [.data (.scalar (.bytes (b.Bytes ++ tail)))] [] =
            .ok [.err none] (some (.data (.msg (settledAll vs)))) [] unread := by
  obtain ⟨R1, hR1⟩ := roundtrip_any (lib := .v1) f.schema h.supported ((endless_iff h.supported).mpr hfin)
  obtain ⟨w, hw⟩ := style_v1 ((endless_iff h.supported).mpr hfin)
  obtain ⟨R2, hR2⟩ := GoGen.new_all h.supported hw
  refine ⟨max R1 R2, fun m t ht => ⟨w.fresh m, ?_, ?_, ?_⟩⟩
  · intro depth hd
    rw [callFunc, find_new h (List.mem_of_getElem? ht)]
    simp only []
    rw [run_new h depth depth m t _ _ (Nat.le_refl _) ht (hR2 depth (by omega) m)]
    rfl
  · simp only [V.OfField]
    exact ⟨trivial, GoGen.allocatedAll_typed h.supported (GoGen.fields_supported h.supported m) (hw.fresh m)⟩
  · intro vs hv hf hn depth hd
    obtain ⟨calls, h1, h2, _⟩ := hR1 m vs vs hv hv hf hn
    have hl := GoGen.encode_layout h.supported m (.msg vs) hv
    rw [h1, Option.some.injEq] at hl
    refine ⟨calls, by rw [hl]; exact C86_encode f h m t ht _ hv depth (by omega) _ _, fun rt => ?_⟩
    obtain ⟨bs, b, h3, h4⟩ := h2 rt
    refine ⟨b, h3, fun olds ho tail htl => ?_⟩
    obtain ⟨calls', h1', _, h6⟩ := hR1 m vs olds hv ho hf hn
    rw [h1] at h1'
    cases h1'
    have h7 := h6 rt b.Bytes ⟨b, h3, rfl⟩ tail htl ((V.msg vs).depth + R1) (Nat.le_refl _)
    have h8 := C87_decode f h hu m t ht (.msg olds) ho (b.Bytes ++ tail) ((V.msg vs).depth + R1) depth (by omega) (by rw [h7]; simp) []
    rw [h7] at h8
    show ∃ unread, callMethod (program f) ver.codec _ _ _ _ _ _ = _
    generalize callMethod (program f) ver.codec depth (camel t.1) go!"Decode" (.data (.msg olds)) [.data (.scalar (.bytes (b.Bytes ++ tail)))] [] = c at h8
    cases h8
    exact ⟨_, rfl⟩

theorem shopFile_chains : ∀ m, ¬ shopFile.schema.Endless m := (endless_iff (shopFile_plain (lib := .v1)).supported).mp shopFile_finite

/-- The message of C87's example. -/
example : ∃ R fresh, ∀ depth, R ≤ depth →
    callFunc (program shopFile) v1.codec depth go!"NewShopV1Order" [] [] = .ok [.data (.msg fresh)] none [] [] ∧
    ∃ calls, callMethod (program shopFile) v1.codec depth go!"ShopV1Order" go!"Encode" (.data (.msg order2)) [.buffer] [] = .ok [] (some (.data (.msg order2))) calls [] ∧
      ∀ rt : Runtime, ∃ b, GoV1.encodeItems rt GoV1.NewBuffer calls = .ok b ∧ ∃ unread,
        callMethod (program shopFile) v1.codec depth go!"ShopV1Order" go!"Decode" (.data (.msg fresh)) [.data (.scalar (.bytes b.Bytes))] [] =
          .ok [.err none] (some (.data (.msg order2))) [] unread := by
  obtain ⟨R, h⟩ := C92_roundtrip_partial shopFile shopFile_plain shopFile_unhidden shopFile_chains
  obtain ⟨fresh, h1, h2, h3⟩ := h 1 (str!"shop.v1.Order", _) (by rfl)
  rw [show camel str!"shop.v1.Order" = go!"ShopV1Order" by decide +kernel] at h1
  refine ⟨2 * ((V.msg order2).depth + R) + 1, fresh, fun depth hd => ⟨h1 depth (by omega), ?_⟩⟩
  obtain ⟨calls, h4, h5⟩ := h3 order2 order2_typed (by simp [order2, V.Fits, FitsAll, Scalar.Fits]) (by simp [order2, V.NoNil, NoNilAll]) depth (by omega)
  rw [show camel str!"shop.v1.Order" = go!"ShopV1Order" by decide +kernel] at h4 h5
  refine ⟨calls, h4, fun rt => ?_⟩
  obtain ⟨b, h6, h7⟩ := h5 rt
  obtain ⟨u, h8⟩ := h7 fresh h2 [] (by simp)
  rw [List.append_nil] at h8
  exact ⟨b, h6, u, h8⟩

/-- A file whose type contains itself. -/
def nodeFile : FileD :=
  { shopFile with package := [], enums := [], messages := [.mk str!"Node" false [⟨str!"leaf", .one false, .bool, []⟩, ⟨str!"next", .one false, .message, str!"Node"⟩] [] []] }

theorem nodeFile_plain : nodeFile.Plain where
  wf := by
    have hident : ∀ {s}, identB s = true → IsIdent s := isIdent_of
    have hd : IsDotted str!"Node" := .one (hident (by decide))
    refine ⟨.inl rfl, fun _ => hident (by decide), by decide +kernel, by simp [nodeFile], ?_⟩
    intro m hm
    simp only [nodeFile, List.mem_singleton] at hm
    subst hm
    refine .mk (hident (by decide)) ?_ (by simp) (by simp)
    intro g hg
    simp only [List.mem_cons, List.not_mem_nil, or_false] at hg
    rcases hg with rfl | rfl
    · exact ⟨hident (by decide), by decide, by simp, by simp, by simp⟩
    · exact ⟨hident (by decide), by decide, fun _ => hd, by simp, by simp⟩
  closed := by unfold FileD.Closed; decide +kernel
  distinct := by unfold Distinct; decide +kernel
  fields := by decide +kernel
  supported := by
    have : nodeFile.schema = ⟨[[.one .bool 1 false, .one .message 0 false]], []⟩ := by decide +kernel
    rw [this]
    intro fs hfs
    simp only [List.mem_cons, List.not_mem_nil, or_false] at hfs
    subst hfs
    simp [Field.GoSupported, Field.IsMap]

example : ∀ rd depth inp, callFunc (program nodeFile) rd depth go!"NewNode" [] inp = .fault .overflow := by
  have hs : nodeFile.schema = ⟨[[.one .bool 1 false, .one .message 0 false]], []⟩ := by decide +kernel
  have := C92_new_endless_false nodeFile nodeFile_plain 0 (str!"Node", _) (by rfl)
    (by rw [hs]; exact ⟨fun _ => 0, rfl, fun _ => ⟨false, by simp [Schema.fields]⟩⟩)
  rw [show go!"New" ++ camel str!"Node" = go!"NewNode" by decide +kernel] at this
  exact this

end

/-! ## C62 about printed programs -/

/-- The printed `Encode` of a message of the type makes these calls of the encoder. -/
def Encodes [Lib] (f : FileD) (t : Bytes × List FieldD) (depth : Nat) (vs : List V) (calls : List Spec.Item) : Prop :=
  callMethod (program f) ver.codec depth (camel t.1) go!"Encode" (.data (.msg vs)) [.buffer] [] = .ok [] (some (.data (.msg vs))) calls []

/-- The printed `Decode` of an input into a struct that holds `olds` returns nil and leaves `vs` in it. -/
def Decodes [Lib] (f : FileD) (t : Bytes × List FieldD) (depth : Nat) (olds : List V) (b : Bytes) (vs : List V) : Prop :=
  ∃ unread, callMethod (program f) ver.codec depth (camel t.1) go!"Decode" (.data (.msg olds)) [.data (.scalar (.bytes b))] [] =
    .ok [.err none] (some (.data (.msg vs))) [] unread

theorem decodes_of [lib : Lib] {f : FileD} (h : f.Plain) (hu : f.Unhidden) {m : Nat} {t : Bytes × List FieldD} (ht : f.types[m]? = some t) {olds vs : List V}
    (ho : (V.msg olds).OfField f.schema (.one .message m false)) {b : Bytes} {fuel depth : Nat} (hd : 2 * fuel + 1 ≤ depth)
    (h7 : Decode ver f.schema fuel m (.msg olds) b = .ok vs) : Decodes f t depth olds b vs := by
  have h8 := C87_decode f h hu m t ht (.msg olds) ho b fuel depth hd (by rw [h7]; simp) []
  rw [h7] at h8
  unfold Decodes
  generalize callMethod (program f) ver.codec depth (camel t.1) go!"Decode" (.data (.msg olds)) [.data (.scalar (.bytes b))] [] = c at h8
  cases h8
  exact ⟨_, rfl⟩

/-- **C62 (programs).** The programs that the two generators print for the same file, each with its own library: for a message without nil
messages, `Encode` of both leads to the same bytes, and `Decode` of both turns these bytes back into the message, whatever struct it is
called on. -/
theorem C62_programs_partial (f : FileD) (h1 : @FileD.Plain .v1 f) (h2 : @FileD.Plain .v2 f) (hu : f.Unhidden)
    (hfin : ∀ m, ¬ f.schema.Endless m) : ∃ R, ∀ m t, f.types[m]? = some t →
    ∀ vs, (V.msg vs).OfField f.schema (.one .message m false) → (V.msg vs).FitsV2 → (V.msg vs).NoNil → ∀ depth, 2 * ((V.msg vs).depth + R) + 1 ≤ depth →
    ∃ calls1 calls2, @Encodes .v1 f t depth vs calls1 ∧ @Encodes .v2 f t depth vs calls2 ∧
      ∀ (rt1 rt2 : Runtime) (b0 : GoV2.Buffer), GoV2.Fresh b0 → ∃ b1 b2,
        GoV1.encodeItems rt1 GoV1.NewBuffer calls1 = .ok b1 ∧ GoV2.encodeItems rt2 b0 calls2 = .ok b2 ∧ b2.Bytes = .ok b1.Bytes ∧
        ∀ olds, (V.msg olds).OfField f.schema (.one .message m false) → ∀ tail, tail.head? ≠ some Spec.kNil →
          @Decodes .v1 f t depth olds (b1.Bytes ++ tail) (settledAll vs) ∧ @Decodes .v2 f t depth olds (b1.Bytes ++ tail) (settledAll vs) := by
  have hS := @FileD.Plain.supported .v1 f h1
  obtain ⟨R1, hR1⟩ := roundtrip_any (lib := .v1) f.schema hS ((endless_iff hS).mpr hfin)
  obtain ⟨R2, hR2⟩ := roundtrip_any (lib := .v2) f.schema hS ((endless_iff hS).mpr hfin)
  refine ⟨max R1 R2, fun m t ht vs hv hf hn depth hd => ?_⟩
  refine ⟨f.schema.layout m (.msg vs), f.schema.layout m (.msg vs), @C86_encode .v1 f h1 m t ht _ hv depth (by omega) _ _, @C86_encode .v2 f h2 m t ht _ hv depth (by omega) _ _, ?_⟩
  intro rt1 rt2 b0 hb
  obtain ⟨calls, b1, b2, g1, g2, g3, g4⟩ := C62_same_bytes rt1 rt2 b0 hb f.schema hS m (.msg vs) hv hf
  have hl := GoGen.encode_layout hS m (.msg vs) hv
  rw [g1, Option.some.injEq] at hl
  subst hl
  refine ⟨b1, b2, g2, g3, g4, fun olds ho tail htl => ⟨?_, ?_⟩⟩
  · obtain ⟨calls', k1, _, k3⟩ := hR1 m vs olds hv ho (V.FitsV2.fits hf) hn
    rw [g1] at k1
    cases k1
    exact @decodes_of .v1 f h1 hu m t ht olds _ ho _ _ depth (by omega) (k3 rt1 b1.Bytes ⟨b1, g2, rfl⟩ tail htl ((V.msg vs).depth + R1) (Nat.le_refl _))
  · obtain ⟨calls', k1, _, k3⟩ := hR2 m vs olds hv ho hf hn
    rw [g1] at k1
    cases k1
    exact @decodes_of .v2 f h2 hu m t ht olds _ ho _ _ depth (by omega) (k3 rt2 b1.Bytes ⟨b0, b2, hb, g3, g4⟩ tail htl ((V.msg vs).depth + R2) (Nat.le_refl _))

/-- Its hypotheses are met by the file and the message of the examples above. -/
example : @FileD.Plain .v1 shopFile ∧ @FileD.Plain .v2 shopFile ∧ shopFile.Unhidden ∧ (∀ m, ¬ shopFile.schema.Endless m) ∧
    (V.msg order2).OfField shopFile.schema (.one .message 1 false) ∧ (V.msg order2).FitsV2 ∧ (V.msg order2).NoNil :=
  ⟨shopFile_plain, shopFile_plain, shopFile_unhidden, shopFile_chains, order2_typed,
    by simp [order2, V.FitsV2, FitsV2All, Scalar.FitsV2], by simp [order2, V.NoNil, NoNilAll]⟩

end Props
