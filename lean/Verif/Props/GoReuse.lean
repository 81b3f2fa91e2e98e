import Verif.Props.GoRunsDecode
import Verif.Text.GoRunMono
import Verif.Gen.V1Style

/-!
# C91: a struct in use, whatever was decoded into it before

The struct behind a `*T` lives on between calls.  Here it is followed through any history of calls of the printed `Decode` and
`Encode`, including calls of `Decode` that returned an error, which leave a half-filled struct behind.
-/

namespace Props

open Utils Text GoAst GoText GoRun Gen
open GoGen (v2 Decode)
open GoV2 (Runtime)

variable {lib : Lib}

/-- The struct held `x` and holds `y` after some calls of the methods `Decode` and `Encode` of the type `T`, all of which returned;
each call may have its own bound on the call stack. -/
inductive Used [Lib] (P : List Decl) (T : Ident) (x : V) : V → Prop where
  | start : Used P T x x
  | decode {y z : V} {b unread : Bytes} {depth : Nat} {res : List Value} {out : List Spec.Item} : Used P T x y →
      callMethod P ver.codec depth T go!"Decode" (.data y) [.data (.scalar (.bytes b))] [] = .ok res (some (.data z)) out unread → Used P T x z
  | encode {y z : V} {unread : Bytes} {depth : Nat} {res : List Value} {out : List Spec.Item} : Used P T x y →
      callMethod P ver.codec depth T go!"Encode" (.data y) [.buffer] [] = .ok res (some (.data z)) out unread → Used P T x z

/-- A call that returned would have returned the same with any larger call stack. -/
theorem ok_mono {P : List Decl} {rd : GoGen.Codec} {d : Nat} {T m : Ident} {r : Value} {as : List Value} {inp : Bytes} {res x out u}
    (h : callMethod P rd d T m r as inp = .ok res x out u) (n : Nat) : callMethod P rd (max d n) T m r as inp = .ok res x out u := by
  rcases callMethod_mono P rd (Nat.le_max_left d n) T m r as inp with h' | h'
  · rw [h] at h'; cases h'
  · rw [← h', h]

/-- The bytes `bs` are what the library makes of these calls of an encoder, in an empty buffer. -/
def Encoded [Lib] (rt : Runtime) (calls : List Spec.Item) (bs : Bytes) : Prop := Lib.pick
  (∃ b, GoV1.encodeItems rt GoV1.NewBuffer calls = .ok b ∧ b.Bytes = bs)
  (∃ b0 b, GoV2.Fresh b0 ∧ GoV2.encodeItems rt b0 calls = .ok b ∧ b.Bytes = .ok bs)

/-- Strings and byte slices are as short as the encoder of the library needs: below 2³² bytes in v1, 2²⁸ in v2. -/
def Sized [Lib] (v : V) : Prop := Lib.pick v.Fits v.FitsV2

/-- What a caller can rely on about a struct `y` of the type `t` of the file. -/
structure Usable [Lib] (P : List Decl) (f : FileD) (R m : Nat) (t : Bytes × List FieldD) (y : List V) : Prop where
  /-- It is a value of its type. -/
  typed : (V.msg y).OfField f.schema (.one .message m false)
  /-- `Encode` returns, writes the fields in order and leaves the struct as it is. -/
  encode : ∀ depth, 2 * (V.msg y).depth ≤ depth →
    callMethod P ver.codec depth (camel t.1) go!"Encode" (.data (.msg y)) [.buffer] [] = .ok [] (some (.data (.msg y))) (f.schema.layout m (.msg y)) []
  /-- `Decode` of any input, if its last byte is less than 128, returns nil or an error of the library. -/
  decode : ∀ (b : Bytes) depth, (b.length + 1) * R ≤ depth → (∀ c, b.getLast? = some c → c.toNat < 128) →
    ∃ res z unread, callMethod P ver.codec depth (camel t.1) go!"Decode" (.data (.msg y)) [.data (.scalar (.bytes b))] [] =
      .ok [.err res] (some (.data (.msg z))) [] unread ∧ (res = none ∨ ∃ e, res = some (.lib e))
  /-- `Decode` of the encoding of a message without nil messages in it returns nil and leaves exactly that message, whatever the
  struct held. -/
  roundtrip : ∀ vs, (V.msg vs).OfField f.schema (.one .message m false) → Sized (.msg vs) → (V.msg vs).NoNil →
    ∃ calls,
      (∀ depth, 2 * (V.msg vs).depth ≤ depth →
        callMethod P ver.codec depth (camel t.1) go!"Encode" (.data (.msg vs)) [.buffer] [] = .ok [] (some (.data (.msg vs))) calls []) ∧
      (∀ rt, ∃ bs, Encoded rt calls bs) ∧
      ∀ rt bs, Encoded rt calls bs → ∀ tail, tail.head? ≠ some Spec.kNil → ∀ depth, 2 * ((V.msg vs).depth + R) + 1 ≤ depth →
        ∃ unread, callMethod P ver.codec depth (camel t.1) go!"Decode" (.data (.msg y)) [.data (.scalar (.bytes (bs ++ tail)))] [] =
          .ok [.err none] (some (.data (.msg (settledAll vs)))) [] unread

/-- The model of generated code decodes what it encodes, with a call stack of the depth of the message and `R`. -/
def RoundTrips [Lib] (S : Schema) (R : Nat) : Prop :=
  ∀ m (vs y : List V),
    (V.msg vs).OfField S (.one .message m false) → (V.msg y).OfField S (.one .message m false) → Sized (.msg vs) → (V.msg vs).NoNil →
    ∃ calls, GoGen.Encode S m (.msg vs) = some calls ∧ (∀ rt, ∃ bs, Encoded rt calls bs) ∧
      ∀ rt bs, Encoded rt calls bs → ∀ tail, tail.head? ≠ some Spec.kNil → ∀ fuel, (V.msg vs).depth + R ≤ fuel →
        Decode ver S fuel m (.msg y) (bs ++ tail) = .ok (settledAll vs)

theorem RoundTrips.mono {S : Schema} {R R' : Nat} (h : RoundTrips S R) (hR : R ≤ R') : RoundTrips S R' := by
  intro m vs y hv hy hf hn
  obtain ⟨calls, h1, h2, h3⟩ := h m vs y hv hy hf hn
  exact ⟨calls, h1, h2, fun rt bs hb tail htl fuel hfuel => h3 rt bs hb tail htl fuel (by omega)⟩

/-- Round trip of generated code in terms of the model of generated code, for both versions. -/
theorem roundtrip_any (S : Schema) (hS : S.GoSupported) (hfin : S.FiniteSize) : ∃ R, RoundTrips S R := by
  cases lib with
  | v1 =>
    obtain ⟨w, hw⟩ := style_v1 hfin
    obtain ⟨N, hN⟩ := GoGen.setup_v1 hS hw
    refine ⟨N, ?_⟩
    intro m vs y hv hy hf hn
    obtain ⟨calls, h1, h2, h3⟩ := GoGen.decode_noNil hN hv hn hf hy
    refine ⟨calls, h1, fun rt => ?_, ?_⟩
    · obtain ⟨b, h4, h5⟩ := encoded_v1 rt h2
      exact ⟨_, b, h4, h5⟩
    · rintro rt bs ⟨b, h4, rfl⟩ tail htl fuel hfuel
      obtain ⟨b', h4', h5⟩ := encoded_v1 rt h2
      rw [h4] at h4'
      cases h4'
      rw [h5]
      exact decode_v1 (r := tail) (h3 _ GoGen.law_v1 fuel hfuel tail htl)
  | v2 =>
    refine ⟨1, ?_⟩
    intro m vs y hv hy hf hn
    obtain ⟨calls, h1, h2, h3⟩ := GoGen.decode_noNil (GoGen.setup_v2 hS) hv hn (V.FitsV2.fits hf) hy
    have hfc := calls_fitsV2 hS hv hf h1
    refine ⟨calls, h1, fun rt => ?_, ?_⟩
    · obtain ⟨b, h4, h5⟩ := encoded_v2 rt (b0 := GoV2.NewBuffer) (.inl rfl) hfc
      exact ⟨_, _, b, .inl rfl, h4, h5⟩
    · rintro rt bs ⟨b0, b, hb, h4, h5⟩ tail htl fuel hfuel
      obtain ⟨b', h4', h5'⟩ := encoded_v2 rt hb hfc
      rw [h4] at h4'
      cases h4'
      rw [h5] at h5'
      cases h5'
      exact decode_v2 (r := tail) (h3 _ GoGen.law_v2 fuel hfuel tail htl)

theorem usable_of_typed (f : FileD) (h : f.Plain) (hu : f.Unhidden) {R : Nat}
    (hR : ∀ m t, f.types[m]? = some t → ∀ olds : List V,
      (V.msg olds).OfField f.schema (.one .message m false) → ∀ (b : Bytes) (depth : Nat), (b.length + 1) * R ≤ depth →
      match callMethod (program f) ver.codec depth (camel t.1) go!"Decode" (.data (.msg olds)) [.data (.scalar (.bytes b))] [] with
      | .ok res x out _ => out = [] ∧ ∃ vs, x = some (.data (.msg vs)) ∧ (V.msg vs).OfField f.schema (.one .message m false) ∧
          ((∃ e, res = [.err (some (.lib e))]) ∨
            res = [.err none] ∧ ((V.msg olds).Fits ∧ (V.msg olds).NoNilElems → (V.msg vs).Fits ∧ (V.msg vs).NoNilElems))
      | .fault e => e = .panic ∧ ∃ c, b.getLast? = some c ∧ 128 ≤ c.toNat)
    (hE : RoundTrips f.schema R)
    (m : Nat) (t : Bytes × List FieldD) (ht : f.types[m]? = some t) (y : List V) (hy : (V.msg y).OfField f.schema (.one .message m false)) :
    Usable (program f) f R m t y where
  typed := hy
  encode := fun depth hd => C86_encode f h m t ht _ hy depth hd _ _
  decode := by
    intro b depth hd hl
    have h1 := hR m t ht y hy b depth hd
    generalize callMethod (program f) ver.codec depth (camel t.1) go!"Decode" (.data (.msg y)) [.data (.scalar (.bytes b))] [] = c at h1
    cases c with
    | ok res x out u =>
      obtain ⟨rfl, vs, rfl, _, ⟨e, rfl⟩ | ⟨rfl, _⟩⟩ := h1
      · exact ⟨_, _, _, rfl, .inr ⟨e, rfl⟩⟩
      · exact ⟨_, _, _, rfl, .inl rfl⟩
    | fault e =>
      obtain ⟨_, c, hc, h2⟩ := h1
      have := hl c hc
      omega
  roundtrip := by
    intro vs hv hf hn
    obtain ⟨calls, h1, h2, h3⟩ := hE m vs y hv hy hf hn
    have hl := GoGen.encode_layout h.supported m (.msg vs) hv
    rw [h1, Option.some.injEq] at hl
    refine ⟨calls, ?_, h2, ?_⟩
    · intro depth hd
      rw [hl]
      exact C86_encode f h m t ht _ hv depth hd _ _
    · intro rt bs hbs tail htl depth hd
      have h5 := h3 rt bs hbs tail htl ((V.msg vs).depth + R) (Nat.le_refl _)
      have h6 := C87_decode f h hu m t ht (.msg y) hy (bs ++ tail) ((V.msg vs).depth + R) depth (by omega) (by rw [h5]; simp) []
      rw [h5] at h6
      generalize callMethod (program f) ver.codec depth (camel t.1) go!"Decode" (.data (.msg y)) [.data (.scalar (.bytes (bs ++ tail)))] [] = c at h6
      cases h6
      exact ⟨_, rfl⟩

/-- **C91.** For every supported file without types that contain themselves through singular fields: whatever inputs were decoded
into a struct before, with whatever outcome, the struct is a value of its type, can be encoded, can be decoded into again, and
after decoding the encoding of a message without nil messages it holds exactly that message: nothing of the earlier inputs shows.
What is missing from the full claim: calls that panicked, and messages with nil fields (`C42_false`). -/
theorem C91_reuse_partial (f : FileD) (h : f.Plain) (hu : f.Unhidden) (hfin : f.schema.FiniteSize) : ∃ R, ∀ m t, f.types[m]? = some t → ∀ x : List V,
    (V.msg x).OfField f.schema (.one .message m false) → ∀ z, Used (program f) (camel t.1) (.msg x) z → ∃ y, z = .msg y ∧ Usable (program f) f R m t y := by
  obtain ⟨R1, hR1⟩ := C87_any_input_partial f h hu hfin
  obtain ⟨R2, hR2⟩ := roundtrip_any (lib := lib) f.schema h.supported hfin
  let R := max R1 R2
  have hR := fun m t ht olds ho (b : Bytes) depth (hd : (b.length + 1) * R ≤ depth) =>
    hR1 m t ht olds ho b depth (Nat.le_trans (Nat.mul_le_mul_left _ (Nat.le_max_left R1 R2)) hd)
  have hE : RoundTrips f.schema R := hR2.mono (Nat.le_max_right R1 R2)
  refine ⟨R, ?_⟩
  intro m t ht x hx z hz
  induction hz with
  | start => exact ⟨x, rfl, usable_of_typed f h hu hR hE m t ht x hx⟩
  | @decode y z b u depth res out _ hc ih =>
    obtain ⟨y, rfl, hy⟩ := ih
    have h1 := hR m t ht y hy.typed b (max depth ((b.length + 1) * R)) (Nat.le_max_right _ _)
    rw [ok_mono hc] at h1
    obtain ⟨_, vs, hz, hv, _⟩ := h1
    cases hz
    exact ⟨vs, rfl, usable_of_typed f h hu hR hE m t ht vs hv⟩
  | @encode y z u depth res out _ hc ih =>
    obtain ⟨y, rfl, hy⟩ := ih
    have h1 := ok_mono hc (2 * (V.msg y).depth)
    rw [hy.encode _ (Nat.le_max_right _ _)] at h1
    cases h1
    exact ⟨y, rfl, hy⟩

/-- **C91 (from the text).** The same about the text that the generator prints. -/
theorem C91_text_partial (version : Bytes) (f : FileD) (h : f.Plain) (hu : f.Unhidden) (hfin : f.schema.FiniteSize)
    (hv : ∀ c ∈ version, c.toNat ≠ 0x0A) (hp : ∀ c ∈ f.path, c.toNat ≠ 0x0A) :
    ∃ txt P, Generates version f txt ∧ (∀ u, Generates version f u → u = txt) ∧ GoParse.Reads txt P ∧
      ∃ R, ∀ m t, f.types[m]? = some t → ∀ x : List V, (V.msg x).OfField f.schema (.one .message m false) → ∀ z, Used P (camel t.1) (.msg x) z →
        ∃ y, z = .msg y ∧ Usable P f R m t y := by
  obtain ⟨txt, h1, h2, h3⟩ := C85_reads version f h.wf hv hp
  exact ⟨txt, program f, h1, h2, (h3 _).2 rfl, C91_reuse_partial f h hu hfin⟩

/-! ## A history with a failed call -/

theorem shopFile_finite : shopFile.schema.FiniteSize := by
  rw [shopFile_schema]
  refine ⟨fun m => m, ?_⟩
  intro m f hf r c he
  subst he
  match m with
  | 0 => simp [Schema.fields] at hf
  | 1 => simp [Schema.fields] at hf; simp [hf.1]
  | m + 2 => simp [Schema.fields] at hf

/-- An input that announces two lines and ends after the number. -/
def cutInput : Bytes := [Spec.kString, Spec.kUint32, 1, 66, Spec.kUint32, 0, Spec.kSlice, Spec.kAny, Spec.kUint32, 2]

/-- Decoding it into the order of C87's example fails: the name is that of the input, the first line is a new one, the second is nil,
and the last field is as before. -/
theorem failed_example : ∃ a b n m, callMethod (program shopFile) ver.codec 9 go!"ShopV1Order" go!"Decode" (.data (.msg order2)) [.data (.scalar (.bytes cutInput))] [] =
    .ok [.err (some (.lib .InvalidString))] (some (.data (.msg [.scalar (.string [66]), a, .slice [.msg n, .nil], b, .msg (.scalar (.string [65, 66]) :: m)]))) [] [] := by
  have : (match callMethod (program shopFile) ver.codec 9 go!"ShopV1Order" go!"Decode" (.data (.msg order2)) [.data (.scalar (.bytes cutInput))] [] with
    | .ok [.err (some (.lib .InvalidString))] (some (.data (.msg [.scalar (.string [c]), _, .slice [.msg _, .nil], _, .msg (.scalar (.string [d, e]) :: _)]))) [] [] => c == 66 && d == 65 && e == 66
    | _ => false) = true := by cases lib <;> decide +kernel
  split at this
  · rename_i heq
    simp only [Bool.and_eq_true, beq_iff_eq] at this
    obtain ⟨⟨rfl, rfl⟩, rfl⟩ := this
    exact ⟨_, _, _, _, heq⟩
  · cases this

/-- The hypotheses of C91 are met, the history may contain this failed call, and the struct it leaves can be used. -/
example : ∃ R t y n, shopFile.types[1]? = some t ∧ y[2]? = some (.slice [.msg n, .nil]) ∧ Used (program shopFile) go!"ShopV1Order" (.msg order2) (.msg y) ∧
    Usable (program shopFile) shopFile R 1 t y := by
  obtain ⟨R, h⟩ := C91_reuse_partial shopFile shopFile_plain shopFile_unhidden shopFile_finite
  obtain ⟨a, b, n, k, hc⟩ := failed_example
  have hu := Used.decode (.start (P := program shopFile) (T := go!"ShopV1Order")) hc
  rw [← show camel str!"shop.v1.Order" = go!"ShopV1Order" by decide +kernel] at hu
  obtain ⟨y, hy, hus⟩ := h 1 (str!"shop.v1.Order", _) (by rfl) order2 order2_typed _ hu
  cases hy
  rw [show camel str!"shop.v1.Order" = go!"ShopV1Order" by decide +kernel] at hu
  exact ⟨R, _, _, n, by rfl, by rfl, hu, hus⟩

end Props
