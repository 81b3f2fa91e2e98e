import Verif.TS.Forward
import Verif.Props.RustCodec

/-!
# Properties of the TypeScript codec (C35 - C38, C55, C56)

`TS.encodeItem i e` is one call on an `Encoder` with state `e` (its array `e.buf`, a window into an
`ArrayBuffer`, and its position); `TS.read js q d` one call on a `Decoder`.  Both give the outcome (a value or
an exception) and the state afterwards.  `e.bytes` is the `bytes` getter.  `e.Ok`: the array lies inside its
buffer and the position inside the array; `e.Whole`: the array covers its buffer, as for `new Encoder()`.
`e.written` is the array up to the position.
-/

namespace Props

open Spec
open TS (Encoder Decoder View Platform JsError)
open GoV2 (Runtime)

/-! ## C35 -/

/-- With room for the encoding, every call succeeds and appends exactly the wire encoding. -/
theorem C35_appends_wire (i : Item) (hf : i.Fits) (e : Encoder) (ho : e.Ok)
    (hroom : e.pos + (wire i).length ≤ e.buf.len) :
    ∃ e', TS.encodeItem i e = (.ok (), e') ∧ e'.written = e.written ++ wire i ∧ e'.Ok := by
  obtain ⟨e', h, a⟩ := TS.encodeItem_puts i hf e ho hroom
  exact ⟨e', h, a.written, a.ok⟩

/-- The same through the `bytes` getter, for any sequence of calls. -/
theorem C35_message_bytes (is : List Item) (hf : ∀ i ∈ is, i.Fits) (e : Encoder) (ho : e.Ok) (hw : e.Whole)
    (hroom : e.pos + (wireAll is).length ≤ e.buf.len) :
    ∃ e' old, e.bytes = .ok old ∧ TS.encodeItems is e = (.ok (), e') ∧ e'.bytes = .ok (old ++ wireAll is) := by
  obtain ⟨e', h, a⟩ := TS.encodeItems_puts is hf e ho hroom
  exact ⟨e', _, hw.bytes ho, h, by rw [(a.whole hw).bytes a.ok, a.written]⟩

/-- `new Encoder(new Uint8Array(n))` is such an encoder, for every `n`; `new Encoder()` has `n = 512`. -/
theorem newEncoder_ok (n : Nat) : (TS.newEncoder (some (View.zeros n))).Ok ∧ (TS.newEncoder (some (View.zeros n))).Whole ∧
    (TS.newEncoder (some (View.zeros n))).buf.len = n ∧ (TS.newEncoder (some (View.zeros n))).pos = 0 := by
  refine ⟨⟨?_, Nat.zero_le _⟩, ⟨rfl, rfl⟩, ?_, rfl⟩ <;> simp [View.Ok, View.zeros, View.ofBytes, TS.newEncoder]

theorem newEncoder_default : TS.newEncoder none = TS.newEncoder (some (View.zeros 512)) := rfl

/-- A message of at most 512 bytes written with `new Encoder()` is exactly the wire format. -/
theorem C35_new_encoder (is : List Item) (hf : ∀ i ∈ is, i.Fits) (hl : (wireAll is).length ≤ 512) :
    ∃ e', TS.encodeItems is (TS.newEncoder none) = (.ok (), e') ∧ e'.bytes = .ok (wireAll is) := by
  rw [newEncoder_default]
  obtain ⟨h1, h2, h3, h4⟩ := newEncoder_ok 512
  generalize TS.newEncoder (some (View.zeros 512)) = e at h1 h2 h3 h4 ⊢
  obtain ⟨e', old, h5, h6, h7⟩ := C35_message_bytes is hf _ h1 h2 (by omega)
  refine ⟨e', h6, ?_⟩
  have : old = [] := by
    rw [h2.bytes h1] at h5
    injection h5 with h5
    rw [← h5, Encoder.written, h4]; rfl
  rw [h7, this]; rfl

/-- The encoder also takes a window into a larger buffer, but then `bytes` shows the start of that buffer
instead of what was written. -/
theorem C35_false_for_subarrays (v : View) (ho : v.Ok) (hoff : 0 < v.off) (hlen : 0 < v.len) :
    ∃ e', TS.encodeItem .nil (TS.newEncoder (some v)) = (.ok (), e') ∧ e'.written = [kNil] ∧
      e'.bytes = .ok (v.buffer.take 1) := by
  have hr : TS.resize 1 (TS.newEncoder (some v)) = (.ok (), TS.newEncoder (some v)) := by
    obtain ⟨e', h1, _, h2, _⟩ := TS.resize_spec 1 (TS.newEncoder (some v)) ⟨ho, Nat.zero_le _⟩
    rw [h1, h2 (by simp [TS.newEncoder]; omega)]
  obtain ⟨e', h1, a⟩ := TS.put_puts TS.Kind.Null (TS.newEncoder (some v)) ⟨ho, Nat.zero_le _⟩ (by simp [TS.newEncoder]; omega)
  have he : e' = ⟨v.store 0 TS.Kind.Null, 1⟩ := by
    have : TS.put TS.Kind.Null (TS.newEncoder (some v)) = (.ok (), ⟨v.store 0 TS.Kind.Null, 1⟩) := rfl
    rw [this] at h1
    simp only [Prod.mk.injEq, true_and] at h1
    exact h1.symm
  refine ⟨e', ?_, ?_, ?_⟩
  · rw [show TS.encodeItem .nil = (TS.resize 1 >>= fun _ => TS.put TS.Kind.Null) from rfl, TS.bind_ok hr, h1]
  · rw [a.written]; simp [Encoder.written, TS.newEncoder]; rfl
  · subst he
    unfold View.Ok at ho
    simp only [Encoder.bytes]
    rw [if_pos (by simp; omega)]
    simp only [View.store, hlen, if_true, Nat.add_zero]
    rw [List.take_set_of_le (by omega)]

/-- Same bytes as the Go v2 encoder, hence readable by every decoder (C05, C23, C32). -/
theorem C35_same_bytes_as_go (rt : Runtime) (b2 : GoV2.Buffer) (hb2 : GoV2.Fresh b2) (is : List Item)
    (hf : ∀ i ∈ is, i.FitsV2) (hl : (wireAll is).length ≤ 512) :
    ∃ e' c2 bs, TS.encodeItems is (TS.newEncoder none) = (.ok (), e') ∧ e'.bytes = .ok bs ∧
      GoV2.encodeItems rt b2 is = .ok c2 ∧ c2.Bytes = .ok bs := by
  obtain ⟨e', h1, h2⟩ := C35_new_encoder is (fun i hi => (hf i hi).fits) hl
  obtain ⟨c2, h3, a2⟩ := GoV2.encodeItems_spec rt is b2 hb2.usable hf
  exact ⟨e', c2, _, h1, h2, h3, by rw [a2.usable.bytes, a2.written, hb2.written]; rfl⟩

example : (wireAll [.map 2 5 12, .string [104, 105], .int32 (-300)]).length ≤ 512 ∧
    (View.mk [9, 0, 0, 0] 1 3).Ok := by
  refine ⟨?_, by unfold View.Ok; decide⟩
  simp [wireAll, wire, size32, leb128, zigzag]

/-! ## C36 -/

/-- How much each method asks `resize` for before it writes. -/
def reserve : Item → Nat
  | .nil => 1
  | .map .. => 3
  | .slice .. => 2
  | .bytes v => 5 + v.length
  | .string v => 5 + v.length
  | .error m => 6 + m.length
  | .bool _ => 2
  | .uint8 _ => 2
  | .uint16 _ => 3
  | .uint32 _ => 5
  | .uint64 _ => 9
  | .int32 _ => 5
  | .int64 _ => 9
  | .float32 _ => 5
  | .float64 _ => 9

theorem reserve_eq (i : Item) : reserve i = (TS.body i).1 := by cases i <;> rfl

/-- A call works if the encoding fits, or if the method asks for more than there is and the encoding fits
after doubling.  Missing: everything else, where the claim is false. -/
theorem C36_grows_partial (i : Item) (hf : i.Fits) (e : Encoder) (ho : e.Ok) (hw : e.Whole)
    (hroom : e.pos + (wire i).length ≤ e.buf.len ∨
      (e.buf.len < e.pos + reserve i ∧ e.pos + (wire i).length ≤ 2 * e.buf.len)) :
    ∃ e' old, e.bytes = .ok old ∧ TS.encodeItem i e = (.ok (), e') ∧ e'.bytes = .ok (old ++ wire i) ∧
      e'.Ok ∧ e'.Whole ∧ e.buf.len ≤ e'.buf.len := by
  rw [TS.encodeItem_body]
  rw [reserve_eq] at hroom
  obtain ⟨e', h1, a⟩ := (TS.body_puts i hf).resized (TS.body i).1 e ho (by rw [← hw.2]; exact hroom)
  exact ⟨e', _, hw.bytes ho, h1, by rw [(a.whole hw).bytes a.ok, a.written], a.ok, a.whole hw, a.len⟩

/-- Items of fixed size. -/
def FixedSize : Item → Prop
  | .nil | .bool _ | .uint8 _ | .float32 _ | .float64 _ => True
  | _ => False

/-- Messages of fixed-size items may be of any length: the encoder grows as needed. -/
theorem C36_fixed_size (is : List Item) (hi : ∀ i ∈ is, FixedSize i) (n : Nat) (hn : 9 ≤ n) :
    ∃ e', TS.encodeItems is (TS.newEncoder (some (View.zeros n))) = (.ok (), e') ∧ e'.bytes = .ok (wireAll is) := by
  have key : ∀ (is : List Item), (∀ i ∈ is, FixedSize i) → ∀ (e : Encoder) (old : Bytes), e.Ok → e.Whole → 9 ≤ e.buf.len →
      e.bytes = .ok old → ∃ e', TS.encodeItems is e = (.ok (), e') ∧ e'.bytes = .ok (old ++ wireAll is) := by
    intro is
    induction is with
    | nil => intro _ e old _ _ _ h; exact ⟨e, rfl, by rw [h]; simp [wireAll]⟩
    | cons i is ih =>
      intro hi e old ho hw h9 hb
      have h0 := hi i (by simp)
      have hl : (wire i).length = reserve i ∧ reserve i ≤ 9 ∧ i.Fits := by
        cases i <;> first | exact h0.elim | simp [wire, reserve, Item.Fits]
      have hp := ho.2
      obtain ⟨e1, old', h1, h2, h3, h4, h5, h6⟩ := C36_grows_partial i hl.2.2 e ho hw (by omega)
      rw [h1] at hb; injection hb with hb; subst hb
      obtain ⟨e2, h7, h8⟩ := ih (fun j hj => hi j (by simp [hj])) e1 _ h4 h5 (by omega) h3
      refine ⟨e2, ?_, ?_⟩
      · show (TS.encodeItem i >>= fun _ => TS.encodeItems is) e = _
        rw [TS.bind_ok h2, h7]
      · rw [h8]; simp [wireAll]
  obtain ⟨h1, h2, h3, h4⟩ := newEncoder_ok n
  have := key is hi _ [] h1 h2 (by omega) (by rw [h2.bytes h1, Encoder.written, h4]; rfl)
  simpa using this

/-- Varint methods reserve one byte (64-bit: two bytes) too few: when the array has room for what is
reserved but not for the encoding, the last bytes are dropped without an exception and `bytes` throws. -/
theorem C36_false_varint (i : Item) (hi : TS.IsVarint i) (e : Encoder) (ho : e.Ok) (hw : e.Whole)
    (h1 : e.pos + reserve i ≤ e.buf.len) (h2 : e.buf.len < e.pos + (wire i).length) :
    ∃ e', TS.encodeItem i e = (.ok (), e') ∧ e'.bytes = .error .RangeError := by
  rw [TS.encodeItem_body]
  rw [reserve_eq] at h1
  obtain ⟨e1, h3, _, h4, _⟩ := TS.resize_spec (TS.body i).1 e ho
  obtain ⟨e2, h5, h6, _, h8⟩ := TS.body_runs i hi e
  refine ⟨e2, ?_, ?_⟩
  · rw [TS.bind_ok h3, h4 h1, h5]
  · unfold Encoder.bytes
    rw [if_neg (by rw [h6, h8, ← hw.2]; omega)]

/-- Such states are reached with `new Encoder()`: 507 nulls followed by any 32-bit number from 2^28 on. -/
theorem C36_false_reachable (v : BitVec 32) (hv : 2 ^ 28 ≤ v.toNat) :
    ∃ e', TS.encodeItems (List.replicate 507 .nil ++ [.uint32 v]) (TS.newEncoder none) = (.ok (), e') ∧
      e'.bytes = .error .RangeError := by
  rw [newEncoder_default]
  obtain ⟨h1, h2, h3, h4⟩ := newEncoder_ok 512
  generalize TS.newEncoder (some (View.zeros 512)) = e at h1 h2 h3 h4 ⊢
  have key : ∀ (k : Nat) (e : Encoder), e.Ok → e.Whole → e.buf.len = 512 → e.pos + k = 507 →
      ∃ e', TS.encodeItems (List.replicate k .nil ++ [.uint32 v]) e = (.ok (), e') ∧ e'.bytes = .error .RangeError := by
    intro k
    induction k with
    | zero =>
      intro e ho hw hl hp
      have hw5 : (wire (.uint32 v)).length = 6 := by
        have h5 : (leb128 v.toNat).length = 5 := by
          have := v.isLt
          rw [leb128, if_neg (by omega), leb128, if_neg (by omega), leb128, if_neg (by omega), leb128, if_neg (by omega),
            leb128, if_pos (by omega)]; rfl
        simp [wire, h5]
      obtain ⟨e', h1, h2⟩ := C36_false_varint (.uint32 v) trivial e ho hw (by simp only [reserve]; omega) (by omega)
      refine ⟨e', ?_, h2⟩
      show (TS.encodeItem (.uint32 v) >>= fun _ => TS.encodeItems []) e = _
      rw [TS.bind_ok h1]; rfl
    | succ k ih =>
      intro e ho hw hl hp
      obtain ⟨e0, r1, _, r2, _⟩ := TS.resize_spec 1 e ho
      rw [r2 (by omega)] at r1
      obtain ⟨e1, h1, a⟩ := TS.put_puts TS.Kind.Null e ho (by simp only [List.length_singleton]; omega)
      have hn : TS.encodeItem .nil e = (.ok (), e1) := by
        rw [show TS.encodeItem .nil = (TS.resize 1 >>= fun _ => TS.put TS.Kind.Null) from rfl, TS.bind_ok r1, h1]
      have hl1 : e1.buf.len = 512 := by
        obtain ⟨e2, h2, _, h3, _⟩ := TS.put_runs TS.Kind.Null e
        rw [h1] at h2; simp only [Prod.mk.injEq, true_and] at h2; rw [h2, h3, hl]
      have hp1 := a.pos
      simp only [List.length_singleton] at hp1
      obtain ⟨e', h3, h4⟩ := ih e1 a.ok (a.whole hw) hl1 (by omega)
      refine ⟨e', ?_, h4⟩
      rw [List.replicate_succ, List.cons_append]
      show (TS.encodeItem .nil >>= fun _ => TS.encodeItems _) e = _
      rw [TS.bind_ok hn, h3]
  exact key 507 e h1 h2 h3 (by omega)

/-- Worse, if something else is written before `bytes` is used, the array grows again and the message is
silently corrupted: the last byte of the number has become 0. -/
theorem C36_false_corruption :
    ∃ e', TS.encodeItems [.uint32 0xFFFFFFFF, .bool true] (TS.newEncoder (some (View.zeros 5))) = (.ok (), e') ∧
      e'.bytes = .ok [10, 255, 255, 255, 255, 0, 7, 1] ∧
      wireAll [.uint32 0xFFFFFFFF, .bool true] = [10, 255, 255, 255, 255, 15, 7, 1] := by
  refine ⟨⟨View.ofBytes ([10, 255, 255, 255, 255, 0, 7, 1] ++ [0, 0]), 8⟩, ?_, rfl, ?_⟩
  · have h : TS.encodeItems [.uint32 0xFFFFFFFF, .bool true] (TS.newEncoder (some (View.zeros 5))) =
      (do TS.resize 5; TS.storeAt 0 10; TS.advance 1; TS.storeAt 0 255; TS.advance 1; TS.storeAt 0 255; TS.advance 1;
          TS.storeAt 0 255; TS.advance 1; TS.storeAt 0 255; TS.advance 1; TS.storeAt 0 15; TS.advance 1
          TS.encodeItems [.bool true] : TS.E Unit) (TS.newEncoder (some (View.zeros 5))) := by
      have h1 : ∀ v w : Int, 128 ≤ v → ((TS.toUint32 v / 128 : Nat) : Int) = w → TS.toUint8 v ||| 0x80#8 = 255 →
          TS.varintLoop v = (do TS.storeAt 0 255; TS.advance 1; TS.varintLoop w) := by
        intro v w hv hw hb; rw [TS.varintLoop, dif_pos hv, hw, hb]
      show (TS.varint ((0xFFFFFFFF : BitVec 32).toNat : Int) 10 5 false >>= fun _ => TS.encodeItems [.bool true]) _ = _
      unfold TS.varint
      have h2 : TS.varintLoop ((0xFFFFFFFF : BitVec 32).toNat : Int) =
          (do TS.storeAt 0 255; TS.advance 1; TS.storeAt 0 255; TS.advance 1; TS.storeAt 0 255; TS.advance 1;
              TS.storeAt 0 255; TS.advance 1; TS.storeAt 0 15; TS.advance 1) := by
        rw [h1 _ 33554431 (by decide) (by decide) (by decide), h1 _ 262143 (by decide) (by decide) (by decide),
          h1 _ 2047 (by decide) (by decide) (by decide), h1 _ 15 (by decide) (by decide) (by decide), TS.varintLoop,
          dif_neg (by decide)]; rfl
      simp only [Bool.false_eq_true, if_false]
      rw [h2]
      simp only [TS.bind_assoc]
    rw [h]; rfl
  · simp [wireAll, wire, leb128]; decide

/-- `resize` doubles only once: a payload that does not fit after doubling makes the call throw.  (The last
hypothesis excludes very small arrays, which the size field doubles once more.) -/
theorem C36_false_payload (v : Bytes) (hf : v.length < 2 ^ 32) (e : Encoder) (ho : e.Ok) (hw : e.Whole)
    (h1 : e.buf.len < e.pos + reserve (.bytes v)) (h2 : 2 * e.buf.len < e.pos + (wire (.bytes v)).length)
    (h3 : e.pos + 6 ≤ 2 * e.buf.len) :
    (TS.encodeItem (.bytes v) e).1 = .error .RangeError ∧ (TS.encodeItem (.string v) e).1 = .error .RangeError := by
  obtain ⟨e1, r1, a1, _, r2⟩ := TS.resize_spec (5 + v.length) e ho
  obtain ⟨hl, hw1⟩ := r2 h1
  rw [← hw.2] at hl
  have hp1 := a1.pos
  simp only [List.length_nil, Nat.add_zero] at hp1
  let prog : Byte → TS.E Unit := fun k => do
    TS.resize (5 + v.length); TS.storeAt 0 k; TS.advance 1; TS.encUint32 v.length; TS.setAt 0 v; TS.advance v.length
  have key : ∀ k : Byte, (prog k e).1 = .error .RangeError := by
    intro k
    show ((TS.resize (5 + v.length) >>= fun _ => TS.storeAt 0 k >>= fun _ => TS.advance 1 >>= fun _ =>
      TS.encUint32 v.length >>= fun _ => TS.setAt 0 v >>= fun _ => TS.advance v.length) e).1 = _
    rw [TS.bind_ok r1]
    obtain ⟨e2, p1, p2, p3, p4⟩ := TS.put_runs k e1
    have p5 : (TS.storeAt 0 k >>= fun _ => TS.advance 1) e1 = (.ok (), e2) := p1
    rw [← TS.bind_assoc, TS.bind_ok p5]
    have ho2 : e2.Ok := by
      obtain ⟨e2', q1, q2⟩ := TS.put_puts k e1 a1.ok (by simp only [List.length_singleton]; omega)
      rw [p1] at q1; simp only [Prod.mk.injEq, true_and] at q1; rw [q1]; exact q2.ok
    obtain ⟨e3, s1, _, s3, _⟩ := TS.resize_spec 5 e2 ho2
    rw [s3 (by omega)] at s1
    obtain ⟨e4, t1, t2, t3, _⟩ := TS.put_bind_runs TS.Kind.Uint32 (TS.varintLoop_runs v.length hf) e2
    have u1 : TS.encUint32 v.length e2 = (.ok (), e4) := by
      rw [← t1]; unfold TS.encUint32 TS.varint; rw [TS.bind_ok s1]; rfl
    rw [TS.bind_ok u1]
    have hwl : (wire (.bytes v)).length = 2 + (leb128 v.length).length + v.length := by simp [wire, size32]; omega
    have w1 : TS.setAt 0 v e4 = (.error .RangeError, e4) := by
      unfold TS.setAt View.set
      rw [if_neg (by omega)]
    rw [TS.bind_err w1]
  exact ⟨key _, key _⟩

/-- In particular `new Encoder()` cannot take any byte array or string whose encoding exceeds 1024 bytes. -/
theorem C36_false_payload_default (v : Bytes) (hf : v.length < 2 ^ 32) (hv : 1024 < (wire (.bytes v)).length) :
    (TS.encodeItem (.bytes v) (TS.newEncoder none)).1 = .error .RangeError ∧
    (TS.encodeItem (.string v) (TS.newEncoder none)).1 = .error .RangeError := by
  rw [newEncoder_default]
  obtain ⟨h1, h2, h3, h4⟩ := newEncoder_ok 512
  generalize TS.newEncoder (some (View.zeros 512)) = e at h1 h2 h3 h4 ⊢
  refine C36_false_payload v hf e h1 h2 ?_ (by omega) (by omega)
  have hl : (leb128 v.length).length ≤ 5 := by
    have := (TS.wireSize hf).1.length_le; exact this
  have hwl : (wire (.bytes v)).length = 2 + (leb128 v.length).length + v.length := by simp [wire, size32]; omega
  simp only [reserve]; omega

example : 1024 < (wire (.bytes (List.replicate 1023 0))).length ∧ FixedSize (.float64 0) ∧ TS.IsVarint (.uint32 5) := by
  refine ⟨?_, trivial, trivial⟩
  simp only [wire, size32, List.length_cons, List.length_append, List.length_replicate]; omega

/-! ## C37 -/

/-- Every item in wire format, except strings with a byte order mark or invalid UTF-8 and some 16-bit numbers,
is read back, whatever surrounds it.  Missing: those, for which the claim is false. -/
theorem C37_reads_wire_partial (js : Platform) (q : TS.Req) (i : Item) (x : TS.Val) (hm : TS.Reads q i x) (hf : i.Fits)
    (hx : TS.Readable i) (d : Decoder) (ho : d.buf.Ok) (t : Bytes) (hr : d.buf.contents.drop d.pos = wire i ++ t) :
    TS.read js q d = (.ok x, { d with pos := d.pos + (wire i).length }) :=
  TS.read_wire js hm hf hx ho hr

inductive ReadsAll : List TS.Req → List Item → List TS.Val → Prop
  | nil : ReadsAll [] [] []
  | cons {q i x qs is xs} : TS.Reads q i x → ReadsAll qs is xs → ReadsAll (q :: qs) (i :: is) (x :: xs)

/-- Sequences of calls. -/
theorem C37_message_partial (js : Platform) {qs : List TS.Req} {is : List Item} {xs : List TS.Val} (hm : ReadsAll qs is xs)
    (hf : ∀ i ∈ is, i.Fits) (hx : ∀ i ∈ is, TS.Readable i) (d : Decoder) (ho : d.buf.Ok) (t : Bytes)
    (hr : d.rest = wireAll is ++ t) :
    TS.readAll js qs d = (.ok xs, d.adv (wireAll is).length) := by
  induction hm generalizing d with
  | nil => rfl
  | @cons q i x qs is xs h _ ih =>
    simp only [wireAll, List.flatMap_cons, List.append_assoc] at hr
    have h1 := TS.read_wire js h (hf i (by simp)) (hx i (by simp)) ho hr
    have h2 := ih (fun j hj => hf j (by simp [hj])) (fun j hj => hx j (by simp [hj])) (d.adv (wire i).length) ho
      (by rw [TS.adv_rest, hr, List.drop_left]; rfl)
    simp only [TS.readAll]
    rw [TS.bind_ok h1, TS.bind_ok h2, TS.pure_apply, TS.adv_adv]
    simp [wireAll]

/-- TypeScript to TypeScript, for messages up to the initial buffer size. -/
theorem C37_roundtrip_partial (js : Platform) {qs : List TS.Req} {is : List Item} {xs : List TS.Val} (hm : ReadsAll qs is xs)
    (hf : ∀ i ∈ is, i.Fits) (hx : ∀ i ∈ is, TS.Readable i) (hl : (wireAll is).length ≤ 512) :
    ∃ e bs, TS.encodeItems is (TS.newEncoder none) = (.ok (), e) ∧ e.bytes = .ok bs ∧
      (TS.readAll js qs (TS.newDecoder (View.ofBytes bs))).1 = .ok xs := by
  obtain ⟨e, h1, h2⟩ := C35_new_encoder is hf hl
  refine ⟨e, _, h1, h2, ?_⟩
  rw [C37_message_partial js hm hf hx _ (by simp [View.Ok, TS.newDecoder, View.ofBytes]) []
    (by simp [TS.Decoder.rest, TS.newDecoder, View.contents, View.ofBytes])]

/-- Go v2 to TypeScript, messages of any length. -/
theorem C37_go_v2_to_typescript_partial (js : Platform) (rt : Runtime) (b0 : GoV2.Buffer) (hb : GoV2.Fresh b0)
    {qs : List TS.Req} {is : List Item} {xs : List TS.Val} (hm : ReadsAll qs is xs)
    (hf : ∀ i ∈ is, i.FitsV2) (hx : ∀ i ∈ is, TS.Readable i) :
    ∃ c bs, GoV2.encodeItems rt b0 is = .ok c ∧ c.Bytes = .ok bs ∧
      (TS.readAll js qs (TS.newDecoder (View.ofBytes bs))).1 = .ok xs := by
  obtain ⟨c, h2, a2⟩ := GoV2.encodeItems_spec rt is b0 hb.usable hf
  refine ⟨c, _, h2, a2.usable.bytes, ?_⟩
  rw [a2.written, hb.written]
  rw [C37_message_partial js hm (fun i hi => (hf i hi).fits) hx _ (by simp [View.Ok, TS.newDecoder, View.ofBytes]) []
    (by simp [TS.Decoder.rest, TS.newDecoder, View.contents, View.ofBytes])]

/-- What the 16-bit reader returns for every 16-bit number: right below 16384, from there on the middle seven
bits are replaced by 1. -/
theorem C37_uint16_exact (js : Platform) (v : BitVec 16) (d : Decoder) (t : Bytes) (hr : d.rest = wire (.uint16 v) ++ t) :
    (TS.read js .uint16 d).1 =
      .ok (.num (if v.toNat < 16384 then v.toNat else v.toNat % 128 + 128 + v.toNat / 16384 * 16384)) := by
  rw [show TS.read js .uint16 = (TS.decUint16 >>= fun n => (pure (.num n) : TS.D TS.Val)) from rfl,
    TS.map_ok (TS.decUint16_wire hr), TS.uint16Result]
  split <;> simp

/-- Hence most 16-bit numbers from 16384 on are misread. -/
theorem C37_false_uint16 (js : Platform) (v : BitVec 16) (h1 : 16384 ≤ v.toNat) (h2 : v.toNat / 128 % 128 ≠ 1) (d : Decoder)
    (t : Bytes) (hr : d.rest = wire (.uint16 v) ++ t) :
    ∃ w, (TS.read js .uint16 d).1 = .ok (.num w) ∧ w ≠ v.toNat := by
  refine ⟨_, C37_uint16_exact js v d t hr, ?_⟩
  rw [if_neg (by omega)]; omega

/-- A leading byte order mark is lost. -/
theorem C37_false_bom (js : Platform) (v : Bytes) (hu : utf8 v = true) (hf : v.length + 3 < 2 ^ 32) (d : Decoder) (t : Bytes)
    (hr : d.rest = wire (.string ([0xEF, 0xBB, 0xBF] ++ v)) ++ t) : (TS.read js .string d).1 = .ok (.string v) := by
  have h1 : d.rest = TS.Kind.String :: (size32 ([0xEF, 0xBB, 0xBF] ++ v).length ++ (([0xEF, 0xBB, 0xBF] ++ v) ++ t)) := by
    rw [hr]; simp [wire]; rfl
  have h2 : (d.adv 1).rest = size32 ([0xEF, 0xBB, 0xBF] ++ v).length ++ (([0xEF, 0xBB, 0xBF] ++ v) ++ t) := by
    rw [TS.adv_rest, h1]; rfl
  have h3 : TS.decString js d = (.ok v, (d.adv 1).adv (size32 ([0xEF, 0xBB, 0xBF] ++ v).length ++ ([0xEF, 0xBB, 0xBF] ++ v)).length) := by
    unfold TS.decString
    rw [TS.bind_ok (TS.validateKind_ok h1), TS.payload_ok (fun x => js.textDecode x) (by simp; omega) h2]
    have hu' : utf8 ([0xEF, 0xBB, 0xBF] ++ v) = true := by
      show utf8 (0xEF :: 0xBB :: 0xBF :: v) = true
      rw [utf8.eq_def]; simp [isCont, hu]
    rw [js.valid _ hu', if_pos (List.prefix_append _ _)]; rfl
  rw [show TS.read js .string = (TS.decString js >>= fun n => (pure (.string n) : TS.D TS.Val)) from rfl, TS.map_ok h3]

/-- Unlike Go and Rust, the TypeScript decoder does not reduce over-long numbers to their type. -/
theorem C37_no_truncation (js : Platform) (cs t : Bytes) (hc : Varint 5 cs) (d : Decoder)
    (hr : d.rest = kUint32 :: (cs ++ t)) : (TS.read js .uint32 d).1 = .ok (.num (groupSum cs)) := by
  rw [show TS.read js .uint32 = (TS.decUint32 >>= fun n => (pure (.num n) : TS.D TS.Val)) from rfl,
    TS.map_ok (TS.decUint32_ok hc hr)]

/-- A platform exists. -/
def plainPlatform : Platform where
  textDecode bs := if [0xEF, 0xBB, 0xBF] <+: bs then bs.drop 3 else bs
  valid _ _ := rfl

example : ReadsAll [.array 12, .int32, .string] [.slice 1 12, .int32 (-3), .string [104, 195, 169]]
      [.num (1 : BitVec 32).toNat, .num (-3 : BitVec 32).toInt, .string [104, 195, 169]] ∧
    TS.Readable (.string [104, 195, 169]) ∧ TS.Readable (.uint16 300) ∧ ¬ TS.Readable (.uint16 65535) := by
  refine ⟨.cons (.array _ _) (.cons (.int32 _) (.cons (.string _) .nil)), ⟨by decide, by decide⟩, ?_, ?_⟩
  · exact .inl (by decide)
  · unfold TS.Readable; decide

/-! ## C38 -/

/-- Reading from nothing throws, for every method except `null` and `any`, which report `false`. -/
theorem C38_empty_throws (js : Platform) (q : TS.Req) (hq : q ≠ .null ∧ q ≠ .any) (d : Decoder) (hr : d.rest = []) :
    ∃ err, TS.read js q d = (.error err, d) := by
  have h : ∀ {α β : Type} (k : Byte) (err : JsError) (f : Unit → TS.D α) (g : α → TS.D β),
      ((TS.validateKind k err >>= f) >>= g) d = (.error err, d) := by
    intro α β k err f g
    exact TS.bind_err (TS.bind_err (TS.validateKind_err (by rw [hr]; simp)) _) _
  cases q
  case null => exact absurd rfl hq.1
  case any => exact absurd rfl hq.2
  all_goals exact ⟨_, h _ _ _ _⟩

/-- `uint8`, `float32` and `float64` throw on every proper prefix of an encoding, when the array ends where
its buffer ends.  Missing: all other methods, for which the claim is false. -/
theorem C38_fixed_size_partial (js : Platform) (p s : Bytes) (hs : s ≠ []) :
    (∀ v, p ++ s = wire (.uint8 v) → ∃ err, (TS.read js .uint8 (TS.newDecoder (View.ofBytes p))).1 = .error err) ∧
    (∀ v, p ++ s = wire (.float32 v) → ∃ err, (TS.read js .float32 (TS.newDecoder (View.ofBytes p))).1 = .error err) ∧
    (∀ v, p ++ s = wire (.float64 v) → ∃ err, (TS.read js .float64 (TS.newDecoder (View.ofBytes p))).1 = .error err) := by
  have hsl : 0 < s.length := List.length_pos_iff.mpr hs
  have hrest : (TS.newDecoder (View.ofBytes p)).rest = p := by
    simp [TS.Decoder.rest, TS.newDecoder, View.contents, View.ofBytes]
  have key : ∀ {α β : Type} (k : Byte) (err : JsError) (n : Nat) (f : Bytes → TS.D α) (g : α → TS.D β), p.length < n + 1 →
      ∃ err', (((TS.validateKind k err >>= fun _ => TS.readView n >>= f) >>= g) (TS.newDecoder (View.ofBytes p))).1 =
        .error err' := by
    intro α β k err n f g hp
    cases p with
    | nil => exact ⟨err, by rw [TS.bind_err (TS.bind_err (TS.validateKind_err (by rw [hrest]; simp)) _) _]⟩
    | cons c t =>
      by_cases hc : c = k
      · subst hc
        refine ⟨.RangeError, ?_⟩
        have h1 : TS.readView n ((TS.newDecoder (View.ofBytes (c :: t))).adv 1) =
            (.error .RangeError, (TS.newDecoder (View.ofBytes (c :: t))).adv 1) := by
          unfold TS.readView TS.dataView
          rw [if_neg]
          simp only [TS.newDecoder, View.ofBytes, TS.Decoder.adv, List.length_cons] at hp ⊢; omega
        have h2 : (TS.validateKind c err >>= fun _ => TS.readView n >>= f) (TS.newDecoder (View.ofBytes (c :: t))) =
            (.error .RangeError, (TS.newDecoder (View.ofBytes (c :: t))).adv 1) := by
          rw [TS.bind_ok (TS.validateKind_ok hrest), TS.bind_err h1]
        rw [TS.bind_err h2]
      · exact ⟨err, by
          rw [TS.bind_err (TS.bind_err (TS.validateKind_err (by rw [hrest]; simp; exact hc)) _) _]⟩
  refine ⟨fun v h => key _ _ _ _ _ ?_, fun v h => key _ _ _ _ _ ?_, fun v h => key _ _ _ _ _ ?_⟩ <;>
    (have hl := congrArg List.length h; simp [wire] at hl; omega)

/-- A truncated boolean is read as `false`. -/
theorem C38_false_boolean (js : Platform) (d : Decoder) (hr : d.rest = [kBool]) :
    (TS.read js .boolean d).1 = .ok (.bool false) := by
  have : TS.decBoolean d = (.ok false, (d.adv 1).adv 1) := by
    unfold TS.decBoolean
    have h1 : (d.adv 1).rest = [] := by rw [TS.adv_rest, hr]; rfl
    rw [TS.bind_ok (TS.validateKind_ok (k := TS.Kind.Boolean) hr), TS.bind_ok (TS.pop_spec _), h1]; rfl
  rw [show TS.read js .boolean = (TS.decBoolean >>= fun n => (pure (.bool n) : TS.D TS.Val)) from rfl, TS.map_ok this]

/-- A truncated number is read as the number made of the groups that are there, and the position ends up past
the end of the input. -/
theorem C38_false_number (js : Platform) (cs : Bytes) (hc : Cut 5 cs) (d : Decoder) (hr : d.rest = kUint32 :: cs) :
    TS.read js .uint32 d = (.ok (.num (groupSum cs)), d.adv 6) := by
  have h1 : (d.adv 1).rest = cs := by rw [TS.adv_rest, hr]; rfl
  have hl := hc.2.1
  have : TS.decUint32 d = (.ok ((groupSum cs : Nat) : Int), d.adv 6) := by
    unfold TS.decUint32
    have h3 : cs.take 5 = cs := List.take_of_length_le (by omega)
    rw [TS.bind_ok (TS.validateKind_ok (k := TS.Kind.Uint32) hr),
      TS.readVarint_unfinished (by rw [h1, h3]; exact hc.2.2), h1, h3, TS.adv_adv]
  rw [show TS.read js .uint32 = (TS.decUint32 >>= fun n => (pure (.num n) : TS.D TS.Val)) from rfl, TS.map_ok this]

/-- A truncated byte array is returned short, whatever is missing. -/
theorem C38_false_bytes (js : Platform) (v w : Bytes) (hf : (v ++ w).length < 2 ^ 32) (d : Decoder)
    (hr : d.rest = kBytes :: size32 (v ++ w).length ++ v) : (TS.read js .uint8Array d).1 = .ok (.bytes v) := by
  obtain ⟨hc, hg⟩ := TS.wireSize hf
  have h1 : d.rest = TS.Kind.Uint8Array :: (size32 (v ++ w).length ++ v) := hr
  have h2 : (d.adv 1).rest = kUint32 :: (leb128 (v ++ w).length ++ v) := by rw [TS.adv_rest, h1]; rfl
  have h3 : (((d.adv 1).adv (1 + (leb128 (v ++ w).length).length))).rest = v := by
    rw [TS.adv_rest, h2, Nat.add_comm, List.drop_succ_cons, List.drop_left]
  have : ∃ d', TS.decUint8Array d = (.ok v, d') := by
    unfold TS.decUint8Array
    rw [TS.bind_ok (TS.validateKind_ok h1), TS.bind_ok (TS.decUint32_ok hc h2), TS.bind_ok (TS.sliceAhead_spec _ _), h3, hg,
      Int.toNat_natCast, List.take_of_length_le (by simp)]
    exact ⟨_, rfl⟩
  obtain ⟨d', hd⟩ := this
  rw [show TS.read js .uint8Array = (TS.decUint8Array >>= fun n => (pure (.bytes n) : TS.D TS.Val)) from rfl, TS.map_ok hd]

/-- When the input is a window into a larger buffer (as for many Node.js `Buffer`s), `uint8` returns the byte
that follows the window. -/
theorem C38_false_window (js : Platform) (before after : Bytes) (b : Byte) :
    (TS.read js .uint8 (TS.newDecoder ⟨before ++ (kUint8 :: b :: after), before.length, 1⟩)).1 = .ok (.num b.toNat) := by
  generalize hd : TS.newDecoder ⟨before ++ (kUint8 :: b :: after), before.length, 1⟩ = d
  have hrest : d.rest = [kUint8] := by
    subst hd; simp [TS.Decoder.rest, TS.newDecoder, View.contents]
  have h1 : TS.readView 1 (d.adv 1) = (.ok [b], d.adv 1) := by
    subst hd
    unfold TS.readView TS.dataView
    rw [if_pos (by simp [TS.newDecoder, TS.Decoder.adv]; omega)]
    simp only [TS.newDecoder, TS.Decoder.adv, Nat.zero_add]
    have : (before ++ kUint8 :: b :: after).drop (before.length + 1) = b :: after := by
      rw [List.drop_append]; simp
    rw [this]; rfl
  have : ∃ d', TS.decUint8 d = (.ok (b.toNat : Int), d') := by
    unfold TS.decUint8
    rw [TS.bind_ok (TS.validateKind_ok (k := TS.Kind.Uint8) hrest), TS.bind_ok h1]
    exact ⟨_, rfl⟩
  obtain ⟨d', hd'⟩ := this
  rw [show TS.read js .uint8 = (TS.decUint8 >>= fun n => (pure (.num n) : TS.D TS.Val)) from rfl, TS.map_ok hd']

example : ([10] : Bytes) ++ [200, 1] = wire (.uint32 200) ∧ Cut 5 [200] := by
  refine ⟨?_, by decide⟩
  simp [wire, leb128]; decide

/-! ## C55 -/

/-- The kind byte each method wants, and the exception named after it. -/
def tsKind : TS.Req → Option (Byte × JsError)
  | .null | .any => none
  | .array _ => some (kSlice, .InvalidArray)
  | .map _ _ => some (kMap, .InvalidMap)
  | .uint8Array => some (kBytes, .InvalidUint8Array)
  | .string => some (kString, .InvalidString)
  | .error => some (kError, .InvalidError)
  | .boolean => some (kBool, .InvalidBoolean)
  | .uint8 => some (kUint8, .InvalidUint8)
  | .uint16 => some (kUint16, .InvalidUint16)
  | .uint32 => some (kUint32, .InvalidUint32)
  | .uint64 => some (kUint64, .InvalidUint64)
  | .int32 => some (kInt32, .InvalidInt32)
  | .int64 => some (kInt64, .InvalidInt64)
  | .float32 => some (kFloat32, .InvalidFloat32)
  | .float64 => some (kFloat64, .InvalidFloat64)

/-- On a wrong kind byte (or at the end of the input) every method throws the exception named after it and
leaves the decoder as it was. -/
theorem C55_mismatch_restores (js : Platform) (q : TS.Req) (k : Byte) (err : JsError) (hq : tsKind q = some (k, err))
    (d : Decoder) (hr : d.rest.head? ≠ some k) : TS.read js q d = (.error err, d) := by
  cases q <;> simp only [tsKind, reduceCtorEq, Option.some.injEq, Prod.mk.injEq] at hq
  all_goals
    obtain ⟨rfl, rfl⟩ := hq
    exact TS.bind_err (TS.bind_err (TS.validateKind_err hr) _) _

/-- `null` and `any` consume their byte exactly when it is there. -/
theorem C55_null_any (js : Platform) (d : Decoder) :
    TS.read js .null d = (if d.rest.head? = some kNil then (.ok (.bool true), d.adv 1) else (.ok (.bool false), d)) ∧
    TS.read js .any d = (if d.rest.head? = some kAny then (.ok (.bool true), d.adv 1) else (.ok (.bool false), d)) :=
  ⟨TS.read_null js d, TS.read_any js d⟩

/-! ## C56 -/

/-- Whatever the input and whatever the outcome, a read leaves the input alone and never moves backwards. -/
theorem C56_forward_only (js : Platform) (q : TS.Req) (d : Decoder) :
    (TS.read js q d).2.buf = d.buf ∧ d.pos ≤ (TS.read js q d).2.pos :=
  TS.read_fwd js q d

/-- A read that returns a value other than `false` consumes at least one byte. -/
theorem C56_progress (js : Platform) (q : TS.Req) (d d' : Decoder) (x : TS.Val) (h : TS.read js q d = (.ok x, d'))
    (hx : x ≠ .bool false) : d.pos < d'.pos :=
  TS.read_progress js q d d' x h hx

end Props
