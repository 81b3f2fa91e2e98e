import Verif.Gen.RustSafe
import Verif.Props.RustGenerated
import Verif.Props.GoUntrusted

/-!
# C65, C67, C44: generated Rust code on arbitrary input

`RustGen.decode std S fuel m c` is the generated `T::decode(b)` at cursor `c`; `fuel` bounds the depth of the call stack.
`RustSupported` and `FiniteSize` are what rustc needs to accept the generated code.
-/

namespace Props

open Gen Spec
open Rust (Cursor Std)
open RustGen (R)

/-! ## C65 -/

/-- Whatever the input and wherever the cursor: the generated `decode` compiles, does not panic, does not change the input and leaves the
cursor inside it, not before where it was; a message it returns has the declared types in every field, all strings are
UTF-8, all enum values are declared. -/
theorem C65_safe (std : Std) (S : Schema) (hS : S.RustSupported) (hfin : S.FiniteSize) (fuel m : Nat) (c : Cursor) (hc : c.pos ≤ c.vec.length) :
    (RustGen.decode std S fuel m c).1 ≠ .panic ∧ (RustGen.decode std S fuel m c).1 ≠ .bad ∧
    (RustGen.decode std S fuel m c).2.vec = c.vec ∧ c.pos ≤ (RustGen.decode std S fuel m c).2.pos ∧
    (RustGen.decode std S fuel m c).2.pos ≤ c.vec.length ∧
    ∀ vs, (RustGen.decode std S fuel m c).1 = .ok (some vs) →
      (V.msg vs).OfField S (.one .message m false) ∧ (V.msg vs).RustOk S (.one .message m false) := by
  obtain ⟨rank, R, hr, hR⟩ := GoGen.bounded_rank hfin
  obtain ⟨h1, h2, h3, h4⟩ := RustGen.safe_decode std hS hr hR fuel m c hc
  refine ⟨?_, ?_, h1, h2, h3, ?_⟩
  · intro h; rw [h] at h4; exact h4
  · intro h; rw [h] at h4; exact h4
  · intro vs h
    rw [h] at h4
    exact RustGen.ok_msg.mpr (h4.1 vs rfl)

/-- The depth of the call stack is bounded by a constant of the schema times the number of unread bytes. -/
theorem C65_stack (S : Schema) (hS : S.RustSupported) (hfin : S.FiniteSize) : ∃ K, ∀ (std : Std) (fuel m : Nat) (c : Cursor),
    c.pos ≤ c.vec.length → (c.vec.length - c.pos + 1) * K ≤ fuel → (RustGen.decode std S fuel m c).1 ≠ .overflow := by
  obtain ⟨rank, R, hr, hR⟩ := GoGen.bounded_rank hfin
  refine ⟨R + 1, ?_⟩
  intro std fuel m c hc hfuel h
  obtain ⟨h1, h2, h3, h4⟩ := RustGen.safe_decode std hS hr hR fuel m c hc
  rw [h] at h4
  have h4 : fuel ≤ (c.vec.length - c.pos) * (R + 1) + rank m := h4
  have := hR m
  rw [Nat.add_mul] at hfuel
  omega

/-- Whatever `decode` accepts can be encoded again, and decoding that gives the same message. -/
theorem C65_reencode (std : Std) (S : Schema) (hS : S.RustSupported) (hfin : S.FiniteSize) (fuel m : Nat) (c : Cursor) (hc : c.pos ≤ c.vec.length)
    (vs : List V) (hd : (RustGen.decode std S fuel m c).1 = .ok (some vs)) :
    ∃ calls e, RustGen.Encode S m (.msg vs) = some calls ∧ Rust.encodeItems calls ⟨[], 0⟩ = (.ok (), e) ∧
      ∀ fuel, (V.msg vs).depth ≤ fuel → ∀ before after, CleanTail after →
        RustGen.decode std S fuel m ⟨before ++ (e.vec ++ after), before.length⟩ =
          (.ok (some vs), ⟨before ++ (e.vec ++ after), before.length + e.vec.length⟩) := by
  obtain ⟨_, _, _, _, _, h⟩ := C65_safe std S hS hfin fuel m c hc
  exact C63_roundtrip std S hS m vs (h vs hd).1 (h vs hd).2

/-- The schema of the examples has structs of finite size. -/
theorem both_finite : both.FiniteSize := by
  refine ⟨fun m => if m = 0 then 2 else if m = 1 then 1 else 0, ?_⟩
  intro m f hf r c he
  subst he
  match m with
  | 0 => simp [both, Schema.fields] at hf; simp [hf]
  | 1 => simp [both, Schema.fields] at hf; simp [hf]
  | 2 => simp [both, Schema.fields] at hf
  | m + 3 => simp [both, Schema.fields] at hf

example : ∃ K, ∀ (std : Std) (fuel m : Nat) (c : Cursor), c.pos ≤ c.vec.length → (c.vec.length - c.pos + 1) * K ≤ fuel →
    (RustGen.decode std both fuel m c).1 ≠ .overflow := C65_stack both both_rust both_finite

/-- An error written instead of the message comes back as the error of `decode`. -/
theorem C65_remote_error (std : Std) (S : Schema) (m fuel : Nat) (msg before t : Bytes) (hu : utf8 msg = true) (hl : msg.length < 2 ^ 32) :
    RustGen.decode std S (fuel + 1) m ⟨before ++ (wire (.error msg) ++ t), before.length⟩ =
      (.err (.remote msg), ⟨before ++ (wire (.error msg) ++ t), before.length + (wire (.error msg)).length⟩) := by
  have hr : (⟨before ++ (wire (.error msg) ++ t), before.length⟩ : Cursor).rest = wire (.error msg) ++ t := by simp [Cursor.rest]
  generalize hc : (⟨before ++ (wire (.error msg) ++ t), before.length⟩ : Cursor) = c at hr
  have h1 : Rust.decode_none std c = (.ok false, c) := by
    rw [Rust.decode_none_spec, hr]
    simp [wire, kError, kNil]
  have h2 : Rust.decode_error std c = (.ok msg, c.adv (wire (.error msg)).length) := by
    have := (Rust.readItem_value_iff std .error c (c.adv (wire (.error msg)).length) (.error msg)).mpr
      (.inl ⟨_, t, .error _, wire_accepts hl, hu, hr, rfl⟩)
    simp only [Rust.readItem] at this
    rw [Rust.map_ok_iff] at this
    obtain ⟨a, h, he⟩ := this
    simp at he; subst he; exact h
  rw [RustGen.decode, RustGen.bind_ok (RustGen.call_ok h1)]
  simp only [Bool.false_eq_true, if_false]
  rw [RustGen.bind_def]
  simp only [RustGen.probeError, h2]
  rw [← hc]; rfl

/-! ## C67 -/

/-- An input of at most 8 bytes is decoded to `n` messages, for every `n` a 32-bit size can express. -/
theorem C67_rust_amplification (std : Std) (S : Schema) (hS : S.RustSupported) (m e : Nat) (hm : S.fields m = [.many .message e]) (he : S.fields e = [])
    (n : Nat) (hn : n < 2 ^ 32) : ∃ b : Bytes, b.length ≤ 8 ∧
      ∀ fuel, 2 ≤ fuel → (RustGen.decode std S fuel m ⟨b, 0⟩).1 = .ok (some [.slice (List.replicate n (.msg []))]) := by
  have hel : ∀ v ∈ List.replicate n (V.msg []), v = .msg [] := fun v hv => (List.mem_replicate.mp hv).2
  have hv : (V.msg [.slice (List.replicate n (.msg []))]).OfField S (.one .message m false) := by
    simp only [V.OfField, hm, OfFields, List.length_replicate]
    refine ⟨trivial, ⟨hn, (GoGen.ofElems_iff ..).mpr ?_⟩, trivial⟩
    intro v hv
    rw [hel v hv]
    simp [V.OfField, he, OfFields]
  have hr : (V.msg [.slice (List.replicate n (.msg []))]).RustOk S (.one .message m false) := by
    simp only [V.RustOk, hm, RustOkF, and_true]
    refine (RustGen.rustOkE_iff ..).mpr ?_
    intro v hv
    rw [hel v hv]
    simp [V.RustOk, he, RustOkF]
  have hdep : depths (List.replicate n (V.msg [])) ≤ 1 := by
    clear hv hr hel hn
    induction n with
    | zero => simp [depths]
    | succ n ih => simp only [List.replicate_succ, depths, V.depth]; omega
  obtain ⟨calls, h1, h2, h2', h3⟩ := rust_good std hS hv hr
  have hcalls : calls = [.slice (BitVec.ofNat 32 n) kAny] := by
    rw [RustGen.encode_layout hS m _ hv hr] at h1
    simp at h1
    subst h1
    have : itemsE S (.one .message e false) (List.replicate n (V.msg [])) = [] := by
      clear hv hel hdep hn h2 h2' h3 hr
      induction n with
      | zero => simp [itemsE]
      | succ n ih => simp [List.replicate_succ, itemsE, ih, V.items, he, itemsOf]
    simp [Schema.layout, V.items, hm, itemsOf, Field.group, this, PKind.announced]
  refine ⟨wireAll calls, ?_, ?_⟩
  · rw [hcalls]
    simp only [wireAll, List.flatMap_cons, List.flatMap_nil, List.append_nil, wire, size32, List.length_cons]
    have := leb128_length_le 4 (BitVec.ofNat 32 n).toNat (by have := (BitVec.ofNat 32 n).isLt; omega)
    omega
  · intro fuel hfuel
    have := h3 fuel (by simp [V.depth, depths]; omega) [] [] (.inl rfl)
    simp only [List.nil_append, List.append_nil, List.length_nil] at this
    rw [this]

example : (⟨[[.many .message 1], []], []⟩ : Schema).fields 1 = [] := rfl

/-! ## C44 -/

theorem call_mismatch {α : Type} {std : Std} {q : Rust.Req} {x : Rust.Dec α} {g : α → Item}
    (hx : Rust.readItem std q = (do return g (← x))) {c : Cursor} {b : Byte} {t : Bytes} (hr : c.rest = b :: t)
    (hb : b ≠ q.kind) (ha : ∀ k, q ≠ .array k) (hm : ∀ k v, q ≠ .map k v) (he : q = .error → t ≠ []) :
    RustGen.call x c = (.err (.decoding q.mismatchError), c) := by
  have := Rust.readItem_mismatch std q c b t hr hb ha hm he
  rw [RustGen.fst_map hx c] at this
  unfold RustGen.call
  rcases hxc : x c with ⟨p, c1⟩
  rw [hxc] at this
  cases p <;> simp at this
  obtain ⟨rfl, rfl⟩ := this
  rfl

theorem bind_err' {α β : Type} {x : RustGen.D α} {c c1 : Cursor} {e : RustGen.Fail} (h : x c = (.err e, c1)) (f : α → RustGen.D β) :
    (x >>= f) c = (.err e, c1) := by rw [RustGen.bind_def, h]

/-- A scalar field is an error on input that starts with another kind than the announced one, and nothing is consumed.  (Two bytes at least:
the probe for errors reads two.) -/
theorem C44_rust_kind_checked (std : Std) (S : Schema) (m : Nat) (k : PKind) (hk : k ≠ .message ∧ k ≠ .group)
    (r : Nat) (o : Bool) (hm : S.fields m = [.one k r o]) (fuel : Nat) (c : Cursor) (b b2 : Byte) (t : Bytes) (hr : c.rest = b :: b2 :: t)
    (hb : b ≠ k.announced) (hn : b ≠ kNil) (he : b ≠ kError) :
    ∃ e, RustGen.decode std S (fuel + 1) m c = (.err (.decoding e), c) := by
  have h1 : Rust.decode_none std c = (.ok false, c) := by rw [Rust.decode_none_spec, hr]; simp [hn]
  have h2 : RustGen.probeError std c = (.ok (), c) := by
    have := Rust.readItem_mismatch std .error c b (b2 :: t) hr he (by simp) (by simp) (by simp)
    rw [RustGen.fst_map (q := .error) (x := Rust.decode_error std) (g := .error) rfl c] at this
    unfold RustGen.probeError
    rcases hx : Rust.decode_error std c with ⟨p, c1⟩
    rw [hx] at this
    cases p <;> simp at this
    obtain ⟨_, rfl⟩ := this
    rfl
  have h3 : ∃ e, RustGen.decValue std S (.one k r o) c = (.err (.decoding e), c) := by
    have fin : ∀ {α : Type} {q : Rust.Req} {x : Rust.Dec α} {g : α → Item} {h : α → Scalar}, Rust.readItem std q = (do return g (← x)) →
        q.kind = k.announced → (∀ k, q ≠ .array k) → (∀ k v, q ≠ .map k v) → q ≠ .error →
        ∃ e, ((do return h (← RustGen.call x) : RustGen.D Scalar) >>= fun s => (pure (.scalar s) : RustGen.D V)) c = (.err (.decoding e), c) := by
      intro α q x g h hx hq ha hm' he'
      exact ⟨_, bind_err' (bind_err' (call_mismatch hx hr (by rw [hq]; exact hb) ha hm' (fun h => absurd h he')) _) _⟩
    cases k <;> simp at hk
    case bool => exact fin (q := .bool) (g := .bool) rfl rfl (by simp) (by simp) (by simp)
    case enum =>
      exact ⟨_, bind_err' (call_mismatch (q := .u32) (g := .uint32) rfl hr hb (by simp) (by simp) (by simp)) _⟩
    case string => exact fin (q := .string) (g := .string) rfl rfl (by simp) (by simp) (by simp)
    case bytes => exact fin (q := .bytes) (g := .bytes) rfl rfl (by simp) (by simp) (by simp)
    case float => exact fin (q := .f32) (g := .float32) rfl rfl (by simp) (by simp) (by simp)
    case double => exact fin (q := .f64) (g := .float64) rfl rfl (by simp) (by simp) (by simp)
    all_goals first
      | exact fin (q := .i32) (g := .int32) rfl rfl (by simp) (by simp) (by simp)
      | exact fin (q := .u32) (g := .uint32) rfl rfl (by simp) (by simp) (by simp)
      | exact fin (q := .i64) (g := .int64) rfl rfl (by simp) (by simp) (by simp)
      | exact fin (q := .u64) (g := .uint64) rfl rfl (by simp) (by simp) (by simp)
  obtain ⟨e, h3⟩ := h3
  refine ⟨e, ?_⟩
  rw [RustGen.decode, RustGen.bind_ok (RustGen.call_ok h1)]
  simp only [Bool.false_eq_true, if_false]
  rw [RustGen.bind_ok h2]
  have hd : RustGen.getDecodingFields (S.fields m) = some ⟨[], [], [0]⟩ := by
    rw [hm]; cases k <;> simp at hk <;> cases o <;> rfl
  rw [hd]
  simp only [RustGen.decBody, RustGen.forFields, hm, List.getElem?_cons_zero]
  exact bind_err' (bind_err' (bind_err' h3 _) _) _

/-- `message { fixed64 a; }` on an input that holds a string. -/
example (std : Std) : ∃ e, RustGen.decode std ⟨[[.one .fixed64 0 false]], []⟩ 1 0 ⟨[kString, kUint32, 1, 65], 0⟩ =
    (.err (.decoding e), ⟨[kString, kUint32, 1, 65], 0⟩) :=
  C44_rust_kind_checked std _ 0 .fixed64 (by simp) 0 false rfl 0 _ kString kUint32 [1, 65] rfl (by decide) (by decide) (by decide)

end Props
