import Verif.Gen.GoSafe
import Verif.Props.GoGenerated

/-!
# C61, C66, C67: generated Go code on input that was not produced by an encoder
-/

namespace Props

open Gen Spec GoGen
open GoV2 (Runtime)

/-- The two generators. -/
theorem any_law {ver : Version} (h : ver = v1 ∨ ver = v2) : AnyLaw ver ver.codec := by
  rcases h with rfl | rfl
  · exact any_v1
  · exact any_v2

theorem oks_msg {S : Schema} {m : Nat} {vs : List V} (h1 : (V.msg vs).OfField S (.one .message m false)) :
    Oks ((V.msg vs).Fits ∧ (V.msg vs).NoNilElems) S (S.fields m) vs := by
  rw [oks_iff]
  simp only [V.OfField, V.Fits, V.NoNilElems] at h1 ⊢
  exact ⟨h1.2, fun h => h⟩

/-- Whatever the input and whatever the struct held before: if `Decode` returns nil, the struct holds a well-formed message:
values of the declared types, fewer than 2^32 elements, distinct keys; and lengths below 2^32 and no nil elements in slices and
maps, if that was so before.  The generated code compiles, so `bad` is impossible. -/
theorem C66_well_formed (ver : Version) (hver : ver = v1 ∨ ver = v2) (S : Schema) (hS : S.GoSupported) (m : Nat) (olds : List V)
    (ho : (V.msg olds).OfField S (.one .message m false)) (fuel : Nat) (b : Bytes) :
    Decode ver S fuel m (.msg olds) b ≠ .bad ∧
    ∀ res, Decode ver S fuel m (.msg olds) b = .ok res →
      (V.msg res).OfField S (.one .message m false) ∧
      ((V.msg olds).Fits ∧ (V.msg olds).NoNilElems → (V.msg res).Fits ∧ (V.msg res).NoNilElems) := by
  have h := safe_decode_any (any_law hver) hS fuel m olds (oks_msg ho) b
  unfold Decode
  simp only
  cases hd : decode ver ver.codec S fuel m olds b with
  | ok r vs =>
    rw [hd] at h
    refine ⟨by simp, ?_⟩
    intro res he
    simp only [DecodeResult.ok.injEq] at he
    subst he
    have := oks_iff.mp h.1
    simp only [V.OfField, V.Fits, V.NoNilElems] at this ⊢
    exact ⟨⟨trivial, this.1⟩, this.2⟩
  | bad => rw [hd] at h; exact h.elim
  | err => exact ⟨by simp, by simp⟩
  | panic => exact ⟨by simp, by simp⟩
  | overflow => exact ⟨by simp, by simp⟩

/-- `Decode` panics only on inputs whose last byte is 128 or more. -/
theorem C66_no_panic_partial (ver : Version) (hver : ver = v1 ∨ ver = v2) (S : Schema) (hS : S.GoSupported) (m : Nat) (olds : List V)
    (ho : (V.msg olds).OfField S (.one .message m false)) (fuel : Nat) (b : Bytes) (hb : ∀ c, b.getLast? = some c → c.toNat < 128) : Decode ver S fuel m (.msg olds) b ≠ .panic := by
  have h := safe_decode_any (any_law hver) hS fuel m olds (oks_msg ho) b
  unfold Decode
  simp only
  cases hd : decode ver ver.codec S fuel m olds b with
  | panic =>
    rw [hd] at h
    obtain ⟨c, h1, h2⟩ := h
    have := hb c h1
    omega
  | ok r vs => simp
  | bad => simp
  | err => simp
  | overflow => simp

example : (V.msg demoValue).OfField demo (.one .message 0 false) ∧ (V.msg demoValue).Fits ∧ (V.msg demoValue).NoNilElems :=
  ⟨demo_typed, demo_fits.fits, demo_elems⟩

/-- A type with one scalar field reads that field, unless the input starts with the nil byte. -/
theorem decode_single {ver : Version} {rd : Codec} (hl : Law ver rd) (S : Schema) (m : Nat) {k : PKind} (hk : IsScalar k) {r : Nat} {c : Bool}
    (hm : S.fields m = [.one k r c]) (fuel : Nat) (old : V) {b : Bytes} (hb : b.head? ≠ some kNil) :
    decode ver rd S (fuel + 1) m [old] b =
      (decValue rd ver.bytesScratch (.one k r c) old >>= fun v => pure [v]) b := by
  rw [decode, bind_ok (isNil_no hl hb)]
  have d : GetDecodingFields [.one k r c] = some ⟨[], [], [0]⟩ := by
    cases k <;> cases c <;> simp [IsScalar] at hk <;> rfl
  simp only [Bool.false_eq_true, if_false, hm, d, errUsed, List.isEmpty_nil, Bool.true_or, if_true, decBody, forFields,
    List.getElem?_cons_zero, List.set]
  simp only [bind_def, pure_def]
  cases decValue rd ver.bytesScratch (.one k r c) old b <;> rfl

theorem assign_panic {rd : Codec} {m : Method} {s : Bytes} {t : GoType} (ht : m.type = t) {b : Bytes} (h : rd (m.req s) b = .panic) :
    assign rd m s t b = .panic := by
  rw [assign, if_pos ht, bind_def]
  simp only [GoGen.read, h]

theorem assign_err {rd : Codec} {m : Method} {s : Bytes} {t : GoType} (ht : m.type = t) {b r : Bytes} {e : GoV2.Err}
    (h : rd (m.req s) b = .ok (r, .error e)) : assign rd m s t b = .err e := by
  rw [assign, if_pos ht, bind_def]
  simp only [GoGen.read, h]

/-- The call that reads a scalar field. -/
def callFor (k : PKind) (sc : Bool) (old : V) : GoV2.Req :=
  ((decodeLUT k).getD .Bool).req (if k = .bytes then (if sc then scratchOf old else []) else [])

theorem decValue_panic {rd : Codec} {sc : Bool} {k : PKind} (hk : IsScalar k) {r : Nat} {c : Bool} {old : V} {b : Bytes}
    (h : rd (callFor k sc old) b = .panic) : decValue rd sc (.one k r c) old b = .panic := by
  rw [decValue_one]
  cases k <;> simp only [IsScalar, ne_eq, not_true, false_and, and_false, reduceCtorEq, not_false_eq_true, and_self] at hk <;>
    simp only [decodeLUT, FindElem, typeLUT, reduceCtorEq, if_false, if_true, Bool.false_eq_true] <;>
    first
    | (rw [bind_def, assign_panic (by rfl) (by exact h)])
    | (rw [bind_def, assignEnum, if_pos (by rfl), bind_def]
       have h : rd .uint32 b = .panic := h
       simp only [GoGen.read, Method.req, h])

theorem decValue_err {rd : Codec} {sc : Bool} {k : PKind} (hk : IsScalar k) {r : Nat} {c : Bool} {old : V} {b t : Bytes} {e : GoV2.Err}
    (h : rd (callFor k sc old) b = .ok (t, .error e)) : decValue rd sc (.one k r c) old b = .err e := by
  rw [decValue_one]
  cases k <;> simp only [IsScalar, ne_eq, not_true, false_and, and_false, reduceCtorEq, not_false_eq_true, and_self] at hk <;>
    simp only [decodeLUT, FindElem, typeLUT, reduceCtorEq, if_false, if_true, Bool.false_eq_true] <;>
    first
    | (rw [bind_def, assign_err (by rfl) (by exact h)])
    | (rw [bind_def, assignEnum, if_pos (by rfl), bind_def]
       have h : rd .uint32 b = .ok (t, .error e) := h
       simp only [GoGen.read, Method.req, h])

theorem go_law {ver : Version} (h : ver = v1 ∨ ver = v2) : Law ver ver.codec := by
  rcases h with rfl | rfl
  · exact law_v1
  · exact law_v2

/-- The full property is false: a type with one `uint32` field panics on a cut varint. -/
theorem C66_panic_false (ver : Version) (hver : ver = v1 ∨ ver = v2) (S : Schema) (m : Nat) (hm : S.fields m = [.one .uint32 0 false])
    (fuel : Nat) (old : V) : Decode ver S (fuel + 1) m (.msg [old]) [kUint32, 0x80] = .panic := by
  have h : ver.codec .uint32 [kUint32, 0x80] = .panic := by
    rcases hver with rfl | rfl
    · exact (GoV1.readItem_panic_iff .uint32 _).mpr ⟨_, _, [0x80], rfl, rfl, by decide⟩
    · exact (GoV2.readItem_panic_iff .uint32 _).mpr ⟨_, _, [0x80], rfl, rfl, by decide⟩
  have hk : IsScalar .uint32 := by simp [IsScalar]
  simp only [Decode, decode_single (go_law hver) S m hk hm fuel old (show [kUint32, (0x80 : Byte)].head? ≠ some kNil by decide),
    bind_def, decValue_panic (k := .uint32) hk (sc := ver.bytesScratch) (r := 0) (c := false) (old := old) h]

/-- After `Decode` of any input at all into a fresh struct, encoding and decoding again gives the same message
(up to nil maps): for types that always write something other than nil first. -/
theorem C66_reencode (rt : Runtime) (b0 : GoV2.Buffer) (hb : GoV2.Fresh b0) (S : Schema) (hS : S.GoSupported)
    (hc : S.Closed) (ha : S.Anchored) (m : Nat) (hm : m < S.messages.length) (fuel : Nat) (input : Bytes) (res : List V)
    (hd : Decode v2 S fuel m (.msg (S.fresh m)) input = .ok res) (hf : (V.msg res).FitsV2) :
    ∃ calls b bs, Encode S m (.msg res) = some calls ∧ GoV2.encodeItems rt b0 calls = .ok b ∧ b.Bytes = .ok bs ∧
      ∀ fuel, (V.msg res).depth < fuel → ∀ t, Decode v2 S fuel m (.msg (S.fresh m)) (bs ++ t) = .ok (settledAll res) := by
  have h0 := oks_iff.mp (fresh_oks (W := True) hS m)
  have h := (C66_well_formed v2 (.inr rfl) S hS m (S.fresh m) (by simp only [V.OfField]; exact ⟨trivial, h0.1⟩) fuel input).2 res hd
  exact C41_schema_roundtrip_partial rt b0 hb S hS hc ha m hm res h.1 hf (h.2 (by simp only [V.Fits, V.NoNilElems]; exact h0.2 trivial)).2

/-- A non-canonical input (the varint 5 in two bytes) that `Decode` accepts. -/
example : let S : Schema := ⟨[[.one .uint32 0 false]], []⟩
    ∀ fuel, Decode v2 S (fuel + 1) 0 (.msg (S.fresh 0)) [kUint32, 0x85, 0x00] = .ok [.scalar (.uint32 5)] := by
  intro S fuel
  simp only [Decode, decode, Schema.fields, Schema.fresh, S]
  rfl

/-! ## C61: the call stack -/

/-- If no type contains itself through singular message fields, the call stack of `Decode` is bounded by a linear function of
the length of the input, whatever the input. -/
theorem C61_bounded_partial (S : Schema) (hS : S.GoSupported) (hfin : S.FiniteSize) : ∃ R, ∀ (ver : Version), ver = v1 ∨ ver = v2 →
    ∀ (m : Nat) (olds : List V), (V.msg olds).OfField S (.one .message m false) →
    ∀ (fuel : Nat) (b : Bytes), (b.length + 1) * R ≤ fuel → Decode ver S fuel m (.msg olds) b ≠ .overflow := by
  obtain ⟨rank, R, hr, hR⟩ := bounded_rank hfin
  refine ⟨R + 1, ?_⟩
  intro ver hver m olds ho fuel b hfuel
  have h := safe_decode (any_law hver) hS hr hR fuel m olds (oks_msg ho) b
  unfold Decode
  simp only
  cases hd : decode ver ver.codec S fuel m olds b with
  | overflow =>
    rw [hd] at h
    have h : fuel ≤ b.length * (R + 1) + rank m := h
    have := hR m
    rw [Nat.add_mul] at hfuel
    omega
  | ok r vs => simp
  | bad => simp
  | err => simp
  | panic => simp

/-- `demo1` (a tree through repeated fields would do as well) is such a schema; so is any without singular message fields. -/
example : (⟨[[.one .string 0 false, .many .message 0, .map .string .message 0, .one .message 1 false], [.one .bool 0 false]], []⟩ : Schema).FiniteSize := by
  refine ⟨fun m => if m = 0 then 1 else 0, ?_⟩
  intro m f hf r c he
  subst he
  match m with
  | 0 => simp [Schema.fields] at hf; simp [hf.1]
  | 1 => simp [Schema.fields] at hf
  | m + 2 => simp [Schema.fields] at hf

/-- In general it is not bounded: a type whose only field is of that type itself (a linked list) exhausts any stack, on
every input that does not start with the nil byte, the empty input included. -/
theorem C61_list_false (S : Schema) (m : Nat) (c : Bool) (hm : S.fields m = [.one .message m c]) (b : Bytes)
    (hb : b.head? ≠ some kNil) : ∀ (fuel : Nat) (old : V), Decode v2 S fuel m (.msg [old]) b = .overflow := by
  have key : ∀ (fuel : Nat) (old : V), decode v2 GoV2.readItem S fuel m [old] b = .overflow := by
    intro fuel
    induction fuel with
    | zero => intro old; rfl
    | succ fuel ih =>
      intro old
      rw [decode, bind_ok (isNil_no law_v2 hb)]
      have d : GetDecodingFields (S.fields m) = some ⟨[0], [], []⟩ := by rw [hm]; cases c <;> rfl
      have u : errUsed (S.fields m) ⟨[0], [], []⟩ = true := by rw [hm]; rfl
      simp only [Bool.false_eq_true, if_false, d, u, if_true, decBody]
      rw [bind_ok (r := b) (a := [old]) rfl, bind_ok (r := b) (a := [old]) rfl]
      simp only [forFields, hm, List.getElem?_cons_zero]
      rw [bind_def]
      have : decMessage v2 GoV2.readItem ⟨callNew v2 S fuel, decode v2 GoV2.readItem S fuel⟩ (.one .message m c) old b = .overflow := by
        rw [decMessage, if_pos (by rfl), bind_ok (isNil_no law_v2 hb)]
        simp only [Bool.false_eq_true, if_false, decInto]
        rw [bind_def]
        cases fuel with
        | zero => rfl
        | succ fuel =>
          have hn : current ⟨callNew v2 S (fuel + 1), decode v2 GoV2.readItem S (fuel + 1)⟩ m .nil b = .ok b [.nil] := by
            show callNew v2 S (fuel + 1) m b = _
            simp [callNew, New, hm, newFields, newField, v2, FindValue, FindElem, typeLUT, zero]
          rw [hn]
          simp only
          rw [bind_def, ih .nil]
      rw [this]
  intro fuel old
  simp only [Decode, show v2.codec = GoV2.readItem from rfl, key fuel old]

example : (⟨[[.one .message 0 false]], []⟩ : Schema).fields 0 = [.one .message 0 false] := rfl

/-! ## C67: small inputs, large results -/

/-- A repeated field of a message type without fields: an input of at most 8 bytes is decoded to `n` messages, for every `n` a
32-bit size can express. -/
theorem C67_amplification (S : Schema) (hS : S.GoSupported) (m e : Nat) (hm : S.fields m = [.many .message e]) (he : S.fields e = [])
    (n : Nat) (hn : n < 2 ^ 32) : ∃ b : Bytes, b.length ≤ 8 ∧
      ∀ fuel, 2 < fuel → Decode v2 S fuel m (.msg (S.fresh m)) b = .ok [.slice (List.replicate n (.msg []))] := by
  have hel : ∀ v ∈ List.replicate n (V.msg []), v = .msg [] := fun v hv => (List.mem_replicate.mp hv).2
  have hv : (V.msg [.slice (List.replicate n (.msg []))]).OfField S (.one .message m false) := by
    simp only [V.OfField, hm, OfFields, List.length_replicate]
    refine ⟨trivial, ⟨hn, (ofElems_iff ..).mpr ?_⟩, trivial⟩
    intro v hv
    rw [hel v hv]
    simp [V.OfField, he, OfFields]
  have hdep : depths (List.replicate n (V.msg [])) ≤ 1 := by
    clear hv hel hn
    induction n with
    | zero => simp [depths]
    | succ n ih => simp only [List.replicate_succ, depths, V.depth]; omega
  have hset : settledAll (List.replicate n (V.msg [])) = List.replicate n (V.msg []) := by
    clear hv hel hdep hn
    induction n with
    | zero => simp [settledAll]
    | succ n ih => simp [List.replicate_succ, settledAll, V.settled, ih]
  obtain ⟨calls, h1, h2, h3⟩ := decode_noNil (setup_v2 hS) hv (by
      simp only [V.NoNil, NoNilAll, and_true, noNilAll_iff]
      intro v hv
      rw [hel v hv]; simp [V.NoNil, NoNilAll]) (by
      simp only [V.Fits, FitsAll, and_true, fitsAll_iff]
      intro v hv
      rw [hel v hv]; simp [V.Fits, FitsAll]) (olds := S.fresh m) (by simp only [V.OfField]; exact ⟨trivial, fresh_typed hS m⟩)
  have hcalls : calls = [.slice (BitVec.ofNat 32 n) kAny] := by
    rw [encode_layout hS m _ hv] at h1
    simp at h1
    subst h1
    have : itemsE S (.one .message e false) (List.replicate n (V.msg [])) = [] := by
      clear hv hel hdep hset hn h2 h3
      induction n with
      | zero => simp [itemsE]
      | succ n ih => simp [List.replicate_succ, itemsE, ih, V.items, he, itemsOf]
    simp [Schema.layout, V.items, hm, itemsOf, Field.group, this, PKind.announced]
  refine ⟨wireAll calls, ?_, ?_⟩
  · rw [hcalls]
    simp only [wireAll, List.flatMap_cons, List.flatMap_nil, List.append_nil, wire, size32, List.length_cons]
    have := leb128_length_le 4 (BitVec.ofNat 32 n).toNat (by have := (BitVec.ofNat 32 n).isLt; omega)
    omega
  · intro fuel hfuel
    apply decode_v2 (r := [])
    have := h3 _ law_v2 fuel (by simp [V.depth, depths]; omega) [] (by simp)
    rw [List.append_nil] at this
    rw [this]
    simp [settledAll, V.settled, hset]

theorem varint_head {q : GoV2.Req} {hd : Bytes} {n : Nat} (h : q.varint = some (hd, n)) (cs : Bytes) : (hd ++ cs).head? = some q.kind := by
  cases q <;> simp [GoV2.Req.varint] at h <;> obtain ⟨rfl, rfl⟩ := h <;> rfl

/-- A decoder call that does not report an error has found the kind it asks for. -/
theorem read_head {ver : Version} (hver : ver = v1 ∨ ver = v2) (q : GoV2.Req) (b : Bytes)
    (h : ver.codec q b = .panic ∨ ∃ t i, ver.codec q b = .ok (t, .value i)) : b.head? = some q.kind := by
  have hp : ∀ {p t : Bytes} {i : Item}, GoV2.Matches q i → Accepts p i → (p ++ t).head? = some q.kind := by
    intro p t i hm ha
    have := ha.head
    rw [hm.kind, List.head?_append, this]; rfl
  rcases hver with rfl | rfl
  · obtain ⟨q1, hq, he, _⟩ := v1_call q
    change v1Codec q b = .panic ∨ ∃ t i, v1Codec q b = .ok (t, .value i) at h
    rw [he] at h
    rcases h with h | ⟨t, i, h⟩
    · obtain ⟨hd, n, cs, h1, rfl, _⟩ := (GoV1.readItem_panic_iff hq b).mp h
      exact varint_head h1 cs
    · rcases (GoV1.readItem_value_iff hq b t i).mp h with ⟨j, p, hm, ha, rfl, _⟩ | ⟨rfl, c, _, rfl, _⟩
      · exact hp hm ha
      · cases hq; rfl
  · change GoV2.readItem q b = .panic ∨ ∃ t i, GoV2.readItem q b = .ok (t, .value i) at h
    rcases h with h | ⟨t, i, h⟩
    · obtain ⟨hd, n, cs, h1, rfl, _⟩ := (GoV2.readItem_panic_iff q b).mp h
      exact varint_head h1 cs
    · rcases (GoV2.readItem_value_iff q b t i).mp h with ⟨hm, p, ha, rfl⟩ | ⟨ret, cs, rfl, _, rfl, _⟩
      · exact hp hm ha
      · rfl

/-! ## C44: the tables of the Go generators -/

/-- The kind announced in the header of a repeated field or map of scalars is the first byte of every element, in what generated code
writes. -/
theorem announced_is_first_byte (k : PKind) (s : Scalar) (h : s.OfKind k) : (wire s.item).head? = some k.announced := by
  cases k <;> cases s <;> simp only [Scalar.OfKind] at h <;> rfl

/-- A decoder asks for exactly that kind: a scalar field is an error on any input that starts with another byte. -/
theorem C44_go_kind_checked (ver : Version) (hver : ver = v1 ∨ ver = v2) (S : Schema) (m : Nat) (k : PKind) (hk : k ≠ .message ∧ k ≠ .group)
    (r : Nat) (c : Bool) (hm : S.fields m = [.one k r c]) (fuel : Nat) (old : V) (b : Bytes)
    (hb : b.head? ≠ some k.announced) (hn : b.head? ≠ some kNil) :
    ∃ e, Decode ver S (fuel + 1) m (.msg [old]) b = .err e := by
  have hkind : (callFor k ver.bytesScratch old).kind = k.announced := by
    cases k <;> simp at hk <;> rfl
  have hq : callFor k ver.bytesScratch old ≠ .nil := by
    cases k <;> simp at hk <;> simp [callFor, decodeLUT, Method.req]
  cases h : ver.codec (callFor k ver.bytesScratch old) b with
  | panic => exact absurd (read_head hver _ b (.inl h)) (hkind ▸ hb)
  | ok p =>
    obtain ⟨t, o⟩ := p
    cases o with
    | value i => exact absurd (read_head hver _ b (.inr ⟨t, i, h⟩)) (hkind ▸ hb)
    | notNil => exact absurd ((any_law hver).notNil h).1 hq
    | error e =>
      refine ⟨e, ?_⟩
      simp only [Decode, decode_single (go_law hver) S m hk hm fuel old hn,
        bind_def, decValue_err hk (sc := ver.bytesScratch) (r := r) (c := c) (old := old) h]

/-- `message { fixed64 a; }` on an input that holds a string. -/
example : ∃ e, Decode v2 ⟨[[.one .fixed64 0 false]], []⟩ 1 0 (.msg [.scalar (.uint64 0)]) [kString, kUint32, 1, 65] = .err e :=
  C44_go_kind_checked v2 (.inr rfl) _ 0 .fixed64 (by simp) 0 false rfl 0 _ _ (by decide) (by decide)

end Props
