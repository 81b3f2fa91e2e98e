import Verif.Text.GoRunDecodeApi
import Verif.Text.GoRunMono
import Verif.Props.GoRuns
import Verif.Props.GoUntrusted

/-!
# C87: running the generated `Decode`
-/

namespace Props

open Utils Text GoAst GoText GoRun Gen
open GoGen (v2 Decode)
open GoV2 (Runtime)

section
variable {lib : Lib}

/-- What a caller sees of `x.Decode(b)`: the error it returns and, if that is nil, the struct afterwards. -/
inductive Returns [Lib] : Outcome → GoGen.DecodeResult → Prop where
  | ok (fs : List V) (unread : Bytes) : Returns (.ok [.err none] (some (.data (.msg fs))) [] unread) (.ok fs)
  | errDecodeNil (unread : Bytes) : Returns (.ok [.err (some (.pkg errNil))] (some (.data .nil)) [] unread) .errDecodeNil
  | err (e : GoV2.Err) (fs : List V) (unread : Bytes) : Returns (.ok [.err (some (.lib e))] (some (.data (.msg fs))) [] unread) (.err e)
  | panic : Returns (.fault .panic) .panic

theorem ver_cases : (ver : GoGen.Version) = GoGen.v1 ∨ (ver : GoGen.Version) = v2 := by
  cases lib
  · exact .inl rfl
  · exact .inr rfl

theorem any_ver : GoGen.AnyLaw ver ver.codec := any_law (ver_cases (lib := lib))

/-- **C87 (Decode).** For every supported file, every message type of it, every value of that type as the receiver (nil or not) and
every input, running the printed method `Decode` returns what the model of generated decoders (`GoGen.Decode`, on which the
properties of C41, C61, C66, C67 and others are proved) returns, if that needs less than half of the call stack. -/
theorem C87_decode (f : FileD) (h : f.Plain) (hu : f.Unhidden) (m : Nat) (t : Bytes × List FieldD) (ht : f.types[m]? = some t) (x : V)
    (hx : x.OfField f.schema (.one .message m false)) (b : Bytes) (fuel depth : Nat) (hd : 2 * fuel + 1 ≤ depth)
    (ho : Decode ver f.schema fuel m x b ≠ .overflow) (inp : Bytes) :
    Returns (callMethod (program f) ver.codec depth (camel t.1) go!"Decode" (.data x) [.data (.scalar (.bytes b))] inp) (Decode ver f.schema fuel m x b) := by
  obtain ⟨d, rfl⟩ : ∃ d, depth = d + 1 := ⟨depth - 1, by omega⟩
  rw [callMethod, find_Decode h (List.mem_of_getElem? ht)]
  simp only []
  cases x with
  | nil =>
    rw [run_Decode_nil h]
    exact .errDecodeNil _
  | msg fs =>
    simp only [V.OfField, true_and] at hx
    have h1 := run_Decode (rd := ver.codec) h hu (any_ver (lib := lib)) (n := fuel) (d := d) (by omega) ht hx b ⟨[], [], inp⟩
    have h2 := (GoGen.typed_decode (any_ver (lib := lib)) h.supported fuel m fs hx b).1
    unfold Decode at ho ⊢
    simp only at ho ⊢
    cases hG : GoGen.decode ver ver.codec f.schema fuel m fs b with
    | ok r fs' => rw [hG] at h1; simp only at h1; rw [h1]; exact .ok _ _
    | err e => rw [hG] at h1; obtain ⟨w, s', ⟨⟨fs', rfl, _⟩, hout⟩, h1⟩ := h1; rw [h1]; simp only [hout]; exact .err _ _ _
    | panic => rw [hG] at h1; simp only at h1; rw [h1]; exact .panic
    | bad => exact absurd hG h2
    | overflow => rw [hG] at ho; exact absurd rfl ho
  | scalar y => simp only [V.OfField] at hx; cases y <;> exact hx.elim
  | slice => simp [V.OfField] at hx
  | map => simp [V.OfField] at hx
  | nilMap => simp [V.OfField] at hx

/-- What is in the struct after `Decode`, also if it returned an error: a value of its type, a struct if it was one. -/
theorem decode_leaves (f : FileD) (h : f.Plain) (hu : f.Unhidden) (m : Nat) (t : Bytes × List FieldD) (ht : f.types[m]? = some t) (fs : List V)
    (hx : (V.msg fs).OfField f.schema (.one .message m false)) (b : Bytes) (fuel depth : Nat) (hd : 2 * fuel + 1 ≤ depth)
    (ho : Decode ver f.schema fuel m (.msg fs) b ≠ .overflow) (inp : Bytes) :
    match callMethod (program f) ver.codec depth (camel t.1) go!"Decode" (.data (.msg fs)) [.data (.scalar (.bytes b))] inp with
    | .ok _ x _ _ => ∃ vs, x = some (.data (.msg vs)) ∧ (V.msg vs).OfField f.schema (.one .message m false)
    | .fault e => e = .panic := by
  obtain ⟨d, rfl⟩ : ∃ d, depth = d + 1 := ⟨depth - 1, by omega⟩
  rw [callMethod, find_Decode h (List.mem_of_getElem? ht)]
  simp only []
  simp only [V.OfField, true_and] at hx ⊢
  have h1 := run_Decode (rd := ver.codec) h hu (any_ver (lib := lib)) (n := fuel) (d := d) (by omega) ht hx b ⟨[], [], inp⟩
  have h2 := GoGen.typed_decode (any_ver (lib := lib)) h.supported fuel m fs hx b
  unfold Decode at ho
  simp only at ho
  cases hG : GoGen.decode ver ver.codec f.schema fuel m fs b with
  | ok r fs' => rw [hG] at h1; simp only at h1; rw [h1]; exact ⟨_, rfl, h2.2 r fs' hG⟩
  | err e => rw [hG] at h1; obtain ⟨w, s', ⟨⟨fs', rfl, hw⟩, _⟩, h1⟩ := h1; rw [h1]; exact ⟨_, rfl, hw⟩
  | panic => rw [hG] at h1; simp only at h1; rw [h1]
  | bad => exact absurd hG h2.1
  | overflow => rw [hG] at ho; exact absurd rfl ho

/-- Call a function of the package. -/
def callFunc [Lib] (P : List Decl) (rd : GoGen.Codec) (depth : Nat) (n : Ident) (args : List Value) (inp : Bytes) : Outcome :=
  match findFunc P n with
  | none => .fault .bad
  | some fn =>
    match runFn P rd depth fn none args ⟨[], [], inp⟩ with
    | .ok r s => .ok (r.2.map (·.val)) r.1 s.out s.inp
    | .fail e => .fault e

end

section
open LibV2

/-- **C87 (New).** The printed constructor of the v2 generator returns a message whose fields have the zero values of their Go types. -/
theorem C87_new (f : FileD) (h : f.Plain) (m : Nat) (t : Bytes × List FieldD) (ht : f.types[m]? = some t) (rd : GoGen.Codec) (depth : Nat) (inp : Bytes) :
    callFunc (program f) rd (depth + 1) (go!"New" ++ camel t.1) [] inp = .ok [.data (.msg (f.schema.fresh m))] none [] inp := by
  rw [callFunc, find_new h (List.mem_of_getElem? ht)]
  simp only []
  rw [run_new h 1 (depth + 1) m t _ _ (by omega) ht ((GoGen.setup_v2 h.supported).new 1 (Nat.le_refl _) m)]
  rfl

/-- **C87 (round trip).** End to end, about the printed program and the library: `Encode` of a message writes calls that the v2
encoder turns into bytes, and `Decode` of these bytes (and anything after them) into what `New` returns gives the message back. -/
theorem C87_roundtrip_partial (f : FileD) (h : f.Plain) (hu : f.Unhidden) (rt : Runtime) (b0 : GoV2.Buffer) (hb : GoV2.Fresh b0)
    (m : Nat) (t : Bytes × List FieldD) (ht : f.types[m]? = some t) (vs : List V) (hv : (V.msg vs).OfField f.schema (.one .message m false)) (hf : (V.msg vs).FitsV2)
    (ha : (V.msg vs).Anchored f.schema (.one .message m false)) (hn : (V.msg vs).NoNilElems) (depth : Nat) (hd : 2 * (V.msg vs).depth + 3 ≤ depth) :
    ∃ calls b bs fresh,
      callMethod (program f) GoV2.readItem depth (camel t.1) go!"Encode" (.data (.msg vs)) [.buffer] [] = .ok [] (some (.data (.msg vs))) calls [] ∧
      GoV2.encodeItems rt b0 calls = .ok b ∧ b.Bytes = .ok bs ∧
      callFunc (program f) GoV2.readItem depth (go!"New" ++ camel t.1) [] [] = .ok [.data fresh] none [] [] ∧
      ∀ tail, ∃ unread, callMethod (program f) GoV2.readItem depth (camel t.1) go!"Decode" (.data fresh) [.data (.scalar (.bytes (bs ++ tail)))] [] =
        .ok [.err none] (some (.data (.msg (settledAll vs)))) [] unread := by
  obtain ⟨calls, b, bs, h1, h2, h3, h4⟩ := C41_roundtrip_partial rt b0 hb f.schema h.supported m vs hv hf ha hn
  have hl := GoGen.encode_layout h.supported m (.msg vs) hv
  rw [h1, Option.some.injEq] at hl
  refine ⟨calls, b, bs, .msg (f.schema.fresh m), ?_, h2, h3, ?_, ?_⟩
  · rw [hl]; exact C86_encode f h m t ht _ hv depth (by omega) _ _
  · obtain ⟨d, rfl⟩ : ∃ d, depth = d + 1 := ⟨depth - 1, by omega⟩
    exact C87_new f h m t ht _ d []
  · intro tail
    have h5 : Decode ver f.schema ((V.msg vs).depth + 1) m (.msg (f.schema.fresh m)) (bs ++ tail) = _ := h4 ((V.msg vs).depth + 1) (by omega) tail
    have h6 := C87_decode f h hu m t ht (.msg (f.schema.fresh m)) (by simp only [V.OfField]; exact ⟨trivial, GoGen.fresh_typed h.supported m⟩) (bs ++ tail)
      ((V.msg vs).depth + 1) depth (by omega) (by rw [h5]; simp) []
    rw [h5] at h6
    show ∃ unread, callMethod (program f) ver.codec _ _ _ _ _ _ = _
    generalize hc : callMethod (program f) ver.codec depth (camel t.1) go!"Decode" (.data (.msg (f.schema.fresh m))) [.data (.scalar (.bytes (bs ++ tail)))] [] = c at h6
    cases h6
    exact ⟨_, rfl⟩

end

section
variable {lib : Lib}

/-- **C87 (any input).** Whatever the input and whatever the struct holds, if no type contains itself through singular message
fields: with a call stack that is linear in the length of the input, the printed `Decode` into a message returns nil or an error of
the library, or panics, and it panics only if the last byte of the input is 128 or more.  If it returns, the struct holds a value
of its type, also after an error. -/
theorem C87_any_input_partial (f : FileD) (h : f.Plain) (hu : f.Unhidden) (hfin : f.schema.FiniteSize) : ∃ R, ∀ m t, f.types[m]? = some t → ∀ olds : List V,
    (V.msg olds).OfField f.schema (.one .message m false) → ∀ (b : Bytes) (depth : Nat), (b.length + 1) * R ≤ depth →
    match callMethod (program f) ver.codec depth (camel t.1) go!"Decode" (.data (.msg olds)) [.data (.scalar (.bytes b))] [] with
    | .ok res x out _ => out = [] ∧ ∃ vs, x = some (.data (.msg vs)) ∧ (V.msg vs).OfField f.schema (.one .message m false) ∧
        ((∃ e, res = [.err (some (.lib e))]) ∨
          res = [.err none] ∧ ((V.msg olds).Fits ∧ (V.msg olds).NoNilElems → (V.msg vs).Fits ∧ (V.msg vs).NoNilElems))
    | .fault e => e = .panic ∧ ∃ c, b.getLast? = some c ∧ 128 ≤ c.toNat := by
  obtain ⟨R, hR⟩ := C61_bounded_partial f.schema h.supported hfin
  refine ⟨2 * R + 1, ?_⟩
  intro m t ht olds ho b depth hd
  have hstack := hR ver (ver_cases (lib := lib)) m olds ho ((b.length + 1) * R) b (Nat.le_refl _)
  have hdep : 2 * ((b.length + 1) * R) + 1 ≤ depth := by
    have : (b.length + 1) * (2 * R + 1) = 2 * ((b.length + 1) * R) + (b.length + 1) := by rw [Nat.mul_add, Nat.mul_left_comm, Nat.mul_one]
    omega
  have h1 := C87_decode f h hu m t ht (.msg olds) ho b ((b.length + 1) * R) depth hdep hstack []
  have h4 := decode_leaves f h hu m t ht olds ho b ((b.length + 1) * R) depth hdep hstack []
  have h2 := C66_well_formed ver (ver_cases (lib := lib)) f.schema h.supported m olds ho ((b.length + 1) * R) b
  have h3 := C66_no_panic_partial ver (ver_cases (lib := lib)) f.schema h.supported m olds ho ((b.length + 1) * R) b
  generalize hD : Decode ver f.schema ((b.length + 1) * R) m (.msg olds) b = D at *
  generalize callMethod (program f) ver.codec depth (camel t.1) go!"Decode" (.data (.msg olds)) [.data (.scalar (.bytes b))] [] = c at *
  cases h1 with
  | ok fs u => exact ⟨rfl, fs, rfl, (h2.2 fs rfl).1, .inr ⟨rfl, (h2.2 fs rfl).2⟩⟩
  | errDecodeNil u =>
    unfold Decode at hD
    simp only at hD
    split at hD <;> cases hD
  | err e x u =>
    obtain ⟨vs, hv, hty⟩ := h4
    cases hv
    exact ⟨rfl, _, rfl, hty, .inl ⟨e, rfl⟩⟩
  | panic =>
    refine ⟨rfl, ?_⟩
    cases hl : b.getLast? with
    | none => exact absurd rfl (h3 (by simp [hl]))
    | some c =>
      refine ⟨c, rfl, ?_⟩
      by_cases hc : c.toNat < 128
      · exact absurd rfl (h3 (by intro c' hc'; rw [hl] at hc'; cases hc'; exact hc))
      · omega

/-- **C87 (from the text).** The same about the text that the generator prints. -/
theorem C87_text (version : Bytes) (f : FileD) (h : f.Plain) (hu : f.Unhidden) (hv : ∀ c ∈ version, c.toNat ≠ 0x0A) (hp : ∀ c ∈ f.path, c.toNat ≠ 0x0A) :
    ∃ txt P, Generates version f txt ∧ (∀ u, Generates version f u → u = txt) ∧ GoParse.Reads txt P ∧
      ∀ m t, f.types[m]? = some t → ∀ x : V, x.OfField f.schema (.one .message m false) → ∀ (b : Bytes) (fuel depth : Nat), 2 * fuel + 1 ≤ depth →
        Decode ver f.schema fuel m x b ≠ .overflow → ∀ inp,
        Returns (callMethod P ver.codec depth (camel t.1) go!"Decode" (.data x) [.data (.scalar (.bytes b))] inp) (Decode ver f.schema fuel m x b) := by
  obtain ⟨txt, h1, h2, h3⟩ := C85_reads version f h.wf hv hp
  exact ⟨txt, program f, h1, h2, (h3 _).2 rfl, fun m t ht x hx b fuel d hd ho inp => C87_decode f h hu m t ht x hx b fuel d hd ho inp⟩

end

/-! ## Files that meet the hypotheses, and one that does not -/

/-- `Unhidden`, to compute with. -/
theorem unhidden_of {f : FileD} (h1 : ∀ t ∈ f.types, ∀ g ∈ t.2, g.kind = .enum → g.isValue → ∀ g' ∈ t.2, camel g.name ++ go!"Temp" ∉ g'.mentions t.1)
    (h2 : ∀ t ∈ f.types, ∀ g ∈ t.2, camel g.type ≠ go!"ValueTemp") : f.Unhidden where
  temp := by
    intro t ht before g after ho he r hs g' hg'
    have hmem : ∀ x ∈ decodingOrder t.2, x ∈ t.2 := by
      intro x hx
      unfold decodingOrder at hx
      simp only [List.mem_append, List.mem_filter] at hx
      rcases hx with h | h | h <;> exact h.1
    exact h1 t ht g (hmem g (by rw [ho]; simp)) he (by simp [FieldD.isValue, hs, he]) g' (hmem g' (by rw [ho]; exact List.mem_append_right _ hg'))
  valueTemp := fun t ht g hg _ _ _ => h2 t ht g hg

theorem shopFile_unhidden : shopFile.Unhidden := unhidden_of (by decide +kernel) (by decide +kernel)

/-- The value of C86's example without the nil element. -/
def order2 : List V :=
  let line : V := .msg [.scalar (.string [65, 66]), .scalar (.uint32 7)]
  [.scalar (.string [65]), .scalar (.enum 1), .slice [line], .map [.string [90]] [line], line]

theorem order2_typed : (V.msg order2).OfField shopFile.schema (.one .message 1 false) := by
  rw [shopFile_schema]
  simp [order2, V.OfField, OfFields, OfElems, Schema.fields, Scalar.OfKind]

section
open LibV2

/-- Round trip of a message with a nested message, a slice and a map. -/
example (rt : Runtime) : ∃ calls b bs fresh,
    callMethod (program shopFile) GoV2.readItem 9 go!"ShopV1Order" go!"Encode" (.data (.msg order2)) [.buffer] [] = .ok [] (some (.data (.msg order2))) calls [] ∧
    GoV2.encodeItems rt GoV2.NewBuffer calls = .ok b ∧ b.Bytes = .ok bs ∧
    callFunc (program shopFile) GoV2.readItem 9 go!"NewShopV1Order" [] [] = .ok [.data fresh] none [] [] ∧
    ∀ tail, ∃ unread, callMethod (program shopFile) GoV2.readItem 9 go!"ShopV1Order" go!"Decode" (.data fresh) [.data (.scalar (.bytes (bs ++ tail)))] [] =
      .ok [.err none] (some (.data (.msg order2))) [] unread := by
  have hs := shopFile_schema
  have := C87_roundtrip_partial shopFile shopFile_plain shopFile_unhidden rt GoV2.NewBuffer (.inl rfl) 1 (str!"shop.v1.Order", _) (by rfl) order2 order2_typed
    (by simp [order2, V.FitsV2, FitsV2All, Scalar.FitsV2]) (by rw [hs]; simp [order2, V.Anchored, AnchoredF, AnchoredE, Schema.fields]) (by simp [order2, V.NoNilElems, NoNilElemsAll]) 9 (by decide)
  rw [show camel str!"shop.v1.Order" = go!"ShopV1Order" by decide +kernel] at this
  exact this

end

/-- The hypothesis of `C87_any_input_partial`. -/
example : shopFile.schema.FiniteSize := by
  rw [shopFile_schema]
  refine ⟨fun m => m, ?_⟩
  intro m f hf r c he
  subst he
  match m with
  | 0 => simp [Schema.fields] at hf
  | 1 => simp [Schema.fields] at hf; simp [hf.1]
  | m + 2 => simp [Schema.fields] at hf

section
variable {lib : Lib}

/-- An enum whose Go name is that of the variable that the decoder of a field declares. -/
def hiddenFile : FileD :=
  { shopFile with package := [], enums := [⟨str!"ColorTemp", [str!"RED"]⟩], messages := [.mk str!"Order" false [⟨str!"color", .one false, .enum, str!"ColorTemp"⟩] [] []] }

/-- **C87 (refuted without `Unhidden`).** For this file, which is supported otherwise, `Decode` has no meaning: in
`x.Color = ColorTemp(ColorTemp)` the type is hidden by the variable. -/
theorem C87_hidden_enum_false : hiddenFile.schema.GoSupported ∧ ¬ hiddenFile.Unhidden ∧
    ∀ depth, callMethod (program hiddenFile) ver.codec (depth + 2) go!"Order" go!"Decode" (.data (.msg [.scalar (.enum 0)]))
      [.data (.scalar (.bytes [Spec.kUint32, 1]))] [] = .fault .bad := by
  refine ⟨?_, ?_, ?_⟩
  · have : hiddenFile.schema = ⟨[[.one .enum 0 false]], [1]⟩ := by decide +kernel
    rw [this]
    intro fs hfs
    simp only [List.mem_cons, List.not_mem_nil, or_false] at hfs
    subst hfs
    simp [Field.GoSupported, Field.IsMap]
  · intro h
    exact h.temp (str!"Order", [⟨str!"color", .one false, .enum, str!"ColorTemp"⟩]) (List.mem_of_getElem? (i := 0) rfl) [] _ [] rfl rfl false rfl _ (List.mem_cons_self ..)
      (by decide +kernel)
  · intro d
    have h2 : callMethod (program hiddenFile) ver.codec 2 go!"Order" go!"Decode" (.data (.msg [.scalar (.enum 0)]))
        [.data (.scalar (.bytes [Spec.kUint32, 1]))] [] = .fault .bad := by
      have : (match callMethod (program hiddenFile) ver.codec 2 go!"Order" go!"Decode" (.data (.msg [.scalar (.enum 0)]))
          [.data (.scalar (.bytes [Spec.kUint32, 1]))] [] with
        | .fault .bad => true
        | _ => false) = true := by cases lib <;> decide +kernel
      split at this
      · assumption
      · cases this
    rcases callMethod_mono (program hiddenFile) ver.codec (d := 2) (d' := d + 2) (by omega) go!"Order" go!"Decode" (.data (.msg [.scalar (.enum 0)]))
        [.data (.scalar (.bytes [Spec.kUint32, 1]))] [] with h | h
    · rw [h2] at h; cases h
    · rw [← h, h2]

/-- With another name for the enum the same call succeeds. -/
def shownFile : FileD :=
  { hiddenFile with enums := [⟨str!"Color", [str!"RED"]⟩], messages := [.mk str!"Order" false [⟨str!"color", .one false, .enum, str!"Color"⟩] [] []] }

example : (match callMethod (program shownFile) ver.codec 3 go!"Order" go!"Decode" (.data (.msg [.scalar (.enum 0)])) [.data (.scalar (.bytes [Spec.kUint32, 1]))] [] with
    | .ok [.err none] (some (.data (.msg [.scalar (.enum v)]))) _ _ => v == 1
    | _ => false) = true := by cases lib <;> decide +kernel

end

end Props
