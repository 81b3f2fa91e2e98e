import Verif.Rust.Alloc
import Verif.Rust.Api
import Verif.Rust.Safe
import Verif.GoV2.HeapApi
import Verif.GoV1.HeapApi
import Verif.Props.WireFormat

/-!
# C84: memory allocated while decoding

Claim: what a decoder call allocates is bounded by the length of its input, whatever the input is.  True of Go, false of Rust.
-/

namespace Props

open Spec

/-- The bytes of the payload an item carries. -/
def payloadBytes : Item → Nat
  | .bytes b => b.length
  | .string s => s.length
  | .error s => s.length
  | _ => 0

/-- A payload is a part of the encoding. -/
theorem payload_le {p : Bytes} {i : Item} (h : Accepts p i) : payloadBytes i ≤ p.length := by
  cases h <;> simp [payloadBytes] <;> omega

/-- Go v2, every decoder call, on every input: a call that returns no byte slice does not touch memory, in particular a call that
fails allocates nothing; `Bytes` allocates at most one array, for a payload no longer than the input and the room `append` adds. -/
theorem C84_v2 (rt : GoV2.Runtime) (h h' : GoV2.Heap.Heap) (b r : GoV2.Heap.Slice) (q : GoV2.Heap.HReq) (o : GoV2.Heap.HOutcome)
    (hb : b.Ok h) (hq : q.Proper) (hs : ∀ s, q.scratch = some s → s.Ok h) (hr : GoV2.Heap.hreadItem rt q b h = .ok ((r, o), h')) :
    ((∀ v, o ≠ .bytes v) → h' = h) ∧
    ∀ v, o = .bytes v → h'.next = h.next ∨ h'.next = h.next + 1 ∧ v.len ≤ b.len ∧
      ∃ s, q.scratch = some s ∧ (h'.mem h.next).length = v.len + rt.slack s.cap v.len := by
  cases q with
  | plain q =>
    have := GoV2.Heap.plain_sim rt hb q hq
    unfold GoV2.Heap.SimR at this
    rw [hr] at this
    cases hy : GoV2.readItem q (b.bytes h) with
    | panic => rw [hy] at this; exact this.elim
    | ok y =>
      rw [hy] at this
      obtain ⟨e0, _, _, _, e4⟩ := this
      exact ⟨fun _ => e0, fun v hv => .inl (by rw [e0])⟩
  | bytes ret =>
    have := GoV2.Heap.decodeBytes_sim (ret := ret) rt hb (hs ret rfl)
    unfold GoV2.Heap.SimG at this
    simp only [GoV2.Heap.hreadItem] at hr
    cases hx : GoV2.Heap.decodeBytes rt b ret h with
    | panic => rw [GoV2.Heap.bind_panic hx] at hr; cases hr
    | ok x =>
      obtain ⟨⟨r', v, e⟩, h1⟩ := x
      rw [GoV2.Heap.bind_ok hx] at hr
      cases hr
      rw [hx] at this
      cases hy : GoV2.decodeBytes (b.bytes h) [] with
      | panic => rw [hy] at this; exact this.elim
      | ok y =>
        rw [hy] at this
        obtain ⟨_, _, _, e4, e5, e6⟩ := this
        simp only at e4 e5 e6
        rcases e6 with ⟨g1, g2, g3⟩ | ⟨g1, g2, g3, g4, g5⟩ | ⟨g1, g2, g3, g4, g5, g6, g7, g8⟩
        · exact ⟨fun _ => g3, fun v _ => .inl (by rw [g3])⟩
        · rw [g1] at e4
          subst e4
          exact ⟨fun hn => absurd rfl (hn v), fun _ _ => .inl g5.next⟩
        · rw [g1] at e4
          subst e4
          refine ⟨fun hn => absurd rfl (hn v), ?_⟩
          rintro _ ⟨rfl⟩
          exact .inr ⟨g5, g8, ret, rfl, g7⟩

/-- Go v1: the same; without a scratch slice (`nil`) the new array is exactly as long as the payload. -/
theorem C84_v1 (rt : GoV2.Runtime) (h h' : GoV2.Heap.Heap) (b r : GoV2.Heap.Slice) (q : GoV1.Heap.HReq) (o : GoV1.Heap.HOutcome)
    (hb : b.Ok h) (hq : q.Proper) (hs : ∀ s, q.scratch = some s → s.Ok h) (hr : GoV1.Heap.hreadItem rt q b h = .ok ((r, o), h')) :
    ((∀ v, o ≠ .bytes v) → h' = h) ∧
    ∀ v, o = .bytes v → h'.next = h.next ∨ h'.next = h.next + 1 ∧ ∃ w, v = some w ∧ w.len ≤ b.len ∧
      (h'.mem h.next).length = w.len + (match q.scratch with | none => 0 | some s => rt.slack s.cap w.len) := by
  cases q with
  | plain q =>
    have := GoV1.Heap.plain_sim rt hb q hq
    unfold GoV2.Heap.SimR at this
    rw [hr] at this
    cases hy : GoV1.readItem q (b.bytes h) with
    | panic => rw [hy] at this; exact this.elim
    | ok y =>
      rw [hy] at this
      obtain ⟨e0, _, _, _, e4⟩ := this
      exact ⟨fun _ => e0, fun v hv => .inl (by rw [e0])⟩
  | bytes ret =>
    have := GoV1.Heap.decodeBytes_sim rt hb ret hs
    unfold GoV2.Heap.SimG at this
    simp only [GoV1.Heap.hreadItem] at hr
    cases hx : GoV1.Heap.decodeBytes rt b ret h with
    | panic => rw [GoV2.Heap.bind_panic hx] at hr; cases hr
    | ok x =>
      obtain ⟨⟨r', v, e⟩, h1⟩ := x
      rw [GoV2.Heap.bind_ok hx] at hr
      cases hr
      rw [hx] at this
      cases hy : GoV1.decodeBytes (b.bytes h) (ret.map fun s => s.bytes h) with
      | panic => rw [hy] at this; exact this.elim
      | ok y =>
        rw [hy] at this
        have hf := this.failed
        have hg := this.fresh
        simp only at hf hg
        cases e with
        | some e => exact ⟨fun _ => hf (by simp), fun v hv => by cases hv⟩
        | none =>
          refine ⟨fun hn => absurd rfl (hn v), ?_⟩
          rintro _ ⟨rfl⟩
          rcases hg with g | ⟨g1, w, g2, g3, g4⟩
          · exact .inl g
          · exact .inr ⟨g1, w, g2, g3, g4⟩

/-- A v2 call that allocates: a payload of two bytes, no scratch; and one that fails: three bytes are announced, two are there. -/
example : (∃ r o h', GoV2.Heap.hreadItem ⟨fun _ _ => 6⟩ (.bytes ⟨0, 0, 0, 0⟩) ⟨0, 0, 5, 5⟩ ⟨fun _ => [4, 10, 2, 1, 2], 1⟩ = .ok ((r, o), h') ∧
      h'.next = 2 ∧ (h'.mem 1).length = 8) ∧
    ∃ r o h', GoV2.Heap.hreadItem ⟨fun _ _ => 6⟩ (.bytes ⟨0, 0, 0, 0⟩) ⟨0, 0, 5, 5⟩ ⟨fun _ => [4, 10, 3, 1, 2], 1⟩ = .ok ((r, o), h') ∧
      h'.next = 1 ∧ ∀ v, o ≠ .bytes v :=
  ⟨⟨_, _, _, rfl, by decide, by decide⟩, ⟨_, _, _, rfl, by decide, by intro v; simp⟩⟩

/-- Rust: a call that succeeds has allocated exactly the payload it returns, which is no longer than what it consumed. -/
theorem C84_rust_success (std : Rust.Std) (q : Rust.Req) (c c' : Rust.Cursor) (i : Item)
    (h : (Rust.readItem_counted std q c).1 = (.ok i, c')) :
    (Rust.readItem_counted std q c).2 = payloadBytes i ∧ payloadBytes i ≤ c'.pos - c.pos ∧ payloadBytes i ≤ c.rest.length := by
  have h1 := h
  rw [Rust.readItem_counts, Rust.readItem_value_iff] at h1
  have hle : payloadBytes i ≤ c'.pos - c.pos ∧ payloadBytes i ≤ c.rest.length := by
    rcases h1 with ⟨p, t, _, ha, _, hr, rfl⟩ | ⟨_, rfl, _⟩
    · have := payload_le ha
      rw [hr, List.length_append]
      simp only [Rust.Cursor.adv]
      omega
    · exact ⟨Nat.zero_le _, Nat.zero_le _⟩
  refine ⟨?_, hle⟩
  have mapped : ∀ {x : Rust.Counted Bytes} {g : Bytes → Item}, Rust.Alloc List.length (2 ^ 32 - 1) (x c) → (∀ b, payloadBytes (g b) = b.length) →
      ((x >>= fun b => pure (g b)) c).1 = (.ok i, c') → ((x >>= fun b => pure (g b)) c).2 = payloadBytes i := by
    intro x g ha hg hok
    change (Rust.Counted.bind x _ c).1 = _ at hok
    show (Rust.Counted.bind x _ c).2 = _
    unfold Rust.Counted.bind at hok ⊢
    obtain ⟨a1, a2⟩ := ha
    rcases hx : x c with ⟨⟨o, c1⟩, n⟩
    rw [hx] at hok a2
    cases o with
    | ok b =>
      cases hok
      rw [hg b, ← a2 b _ rfl]
      rfl
    | err e => cases hok
    | panic => cases hok
  cases q with
  | bytes => exact mapped (Rust.decode_bytes_alloc std c) (fun _ => rfl) h
  | string => exact mapped (Rust.decode_string_alloc std c) (fun _ => rfl) h
  | error => exact mapped (Rust.decode_error_alloc std c) (fun _ => rfl) h
  | _ =>
    rcases h1 with ⟨p, t, hm, _⟩ | ⟨_, rfl, _⟩
    · cases hm; rfl
    · rfl

/-- Rust, whatever happens: at most `2^32 - 1` bytes. -/
theorem C84_rust_limit (std : Rust.Std) (q : Rust.Req) (c : Rust.Cursor) : (Rust.readItem_counted std q c).2 ≤ 2 ^ 32 - 1 := by
  have mapped : ∀ {x : Rust.Counted Bytes} {g : Bytes → Item}, Rust.Alloc List.length (2 ^ 32 - 1) (x c) →
      ((x >>= fun b => pure (g b)) c).2 ≤ 2 ^ 32 - 1 := by
    intro x g ha
    show (Rust.Counted.bind x _ c).2 ≤ _
    unfold Rust.Counted.bind
    have a1 := ha.1
    rcases hx : x c with ⟨⟨o, c1⟩, n⟩
    rw [hx] at a1
    cases o <;> exact a1
  cases q with
  | bytes => exact mapped (Rust.decode_bytes_alloc std c)
  | string => exact mapped (Rust.decode_string_alloc std c)
  | error => exact mapped (Rust.decode_error_alloc std c)
  | _ => exact Nat.zero_le _

/-- The instrumented calls are the calls of the model. -/
theorem C84_rust_counts (std : Rust.Std) (q : Rust.Req) (c : Rust.Cursor) : (Rust.readItem_counted std q c).1 = Rust.readItem std q c :=
  Rust.readItem_counts std q c

theorem counted_ok {α β : Type} {x : Rust.Counted α} {c c1 : Rust.Cursor} {a : α} {n : Nat} (h : x c = ((.ok a, c1), n)) (f : α → Rust.Counted β) :
    (x >>= f) c = ((f a c1).1, n + (f a c1).2) := by
  show Rust.Counted.bind x f c = _
  rw [Rust.Counted.bind, h]

/-- The claim is false of Rust: for every `n` there is an input of at most 7 bytes on which `decode_bytes` asks for `n` bytes,
and then fails. -/
theorem C84_rust_refuted (std : Rust.Std) (n : Nat) (h0 : 0 < n) (hn : n < 2 ^ 32) : ∃ b : Bytes, b.length ≤ 7 ∧
    (Rust.readItem_counted std .bytes ⟨b, 0⟩).2 = n ∧
    ∃ e, (Rust.readItem_counted std .bytes ⟨b, 0⟩).1.1 = .err e := by
  obtain ⟨hv, hg⟩ := varint_leb128 4 n (by simp only [Nat.reduceAdd, Nat.reducePow]; omega)
  have hl := leb128_length_le 4 n (by simp only [Nat.reduceAdd, Nat.reducePow]; omega)
  refine ⟨kBytes :: size32 n, by simp only [size32, List.length_cons]; omega, ?_⟩
  have h1 : Rust.read_u8_or std .InvalidBytes ⟨kBytes :: size32 n, 0⟩ = (.ok kBytes, ⟨kBytes :: size32 n, 1⟩) :=
    Rust.read_u8_or_cons std _ (t := size32 n) rfl
  have h2 : Rust.decode_u32 std ⟨kBytes :: size32 n, 1⟩ = (.ok (BitVec.ofNat 32 n), ⟨kBytes :: size32 n, 1 + (1 + (leb128 n).length)⟩) :=
    (Rust.decode_u32_ok_iff ..).mpr ⟨leb128 n, [], hv, by simp [Rust.Cursor.rest, size32], by rw [hg], rfl⟩
  have hsz : (BitVec.ofNat 32 n).toNat = n := by rw [BitVec.toNat_ofNat]; exact Nat.mod_eq_of_lt hn
  have h3 : (Rust.Rs.ok_or (Rust.read_exact std n) Rust.DecodingError.InvalidBytes ⟨kBytes :: size32 n, 1 + (1 + (leb128 n).length)⟩).1 = (.err .InvalidBytes : Rust.Out Rust.DecodingError Bytes) := by
    have : (⟨kBytes :: size32 n, 1 + (1 + (leb128 n).length)⟩ : Rust.Cursor).rest = [] := by
      simp only [Rust.Cursor.rest, List.drop_eq_nil_iff, size32, List.length_cons]; omega
    unfold Rust.Rs.ok_or Rust.read_exact
    rw [this, if_neg (by simp only [List.length_nil]; omega)]
  show (Rust.Counted.bind (Rust.decode_bytes_counted std) _ _).2 = n ∧ ∃ e, (Rust.Counted.bind (Rust.decode_bytes_counted std) _ _).1.1 = .err e
  have h4 : ∃ c', Rust.decode_bytes_counted std ⟨kBytes :: size32 n, 0⟩ = ((.err .InvalidBytes, c'), n) := by
    rcases h5 : Rust.Rs.ok_or (Rust.read_exact std n) Rust.DecodingError.InvalidBytes ⟨kBytes :: size32 n, 1 + (1 + (leb128 n).length)⟩ with ⟨o, c'⟩
    rw [h5] at h3
    simp only at h3
    subst h3
    refine ⟨c', ?_⟩
    have k1 : Rust.Counted.free (Rust.read_u8_or std .InvalidBytes) ⟨kBytes :: size32 n, 0⟩ = ((.ok kBytes, ⟨kBytes :: size32 n, 1⟩), 0) := by
      rw [Rust.Counted.free, h1]
    have k2 : Rust.Counted.free (Rust.decode_u32 std) ⟨kBytes :: size32 n, 1⟩ =
        ((.ok (BitVec.ofNat 32 n), ⟨kBytes :: size32 n, 1 + (1 + (leb128 n).length)⟩), 0) := by rw [Rust.Counted.free, h2]
    have k3 : Rust.Counted.free (Rust.Rs.ok_or (Rust.read_exact std n) Rust.DecodingError.InvalidBytes) ⟨kBytes :: size32 n, 1 + (1 + (leb128 n).length)⟩ =
        ((.err .InvalidBytes, c'), 0) := by rw [Rust.Counted.free, h5]
    unfold Rust.decode_bytes_counted
    rw [counted_ok k1, if_pos (by decide), counted_ok k2, counted_ok (a := ()) (c1 := ⟨kBytes :: size32 n, 1 + (1 + (leb128 n).length)⟩) (n := n) (by rw [Rust.Counted.vec, hsz]), hsz, k3]
    simp
  obtain ⟨c', h4⟩ := h4
  simp only [Rust.Counted.bind, h4]
  exact ⟨trivial, _, rfl⟩

/-- Several calls, stopping at the first error, with the total allocated (compare `Rust.readAll`). -/
def readAll_counted (std : Rust.Std) : List Rust.Req → Rust.Counted (List Item)
  | [] => pure []
  | q :: qs => do
    let i ← Rust.readItem_counted std q
    let is ← readAll_counted std qs
    return i :: is

/-- In the words of a whole program: one whose calls all succeed has allocated no more than its input is long. -/
theorem C84_rust_program (std : Rust.Std) : ∀ (qs : List Rust.Req) (c c' : Rust.Cursor) (is : List Item) (n : Nat), c.pos ≤ c.vec.length →
    readAll_counted std qs c = ((.ok is, c'), n) → n = (is.map payloadBytes).sum ∧ n ≤ c.rest.length := by
  intro qs
  induction qs with
  | nil => intro c c' is n _ h; cases h; exact ⟨rfl, Nat.zero_le _⟩
  | cons q qs ih =>
    intro c c' is n hc h
    change Rust.Counted.bind (Rust.readItem_counted std q) (fun i => Rust.Counted.bind (readAll_counted std qs) fun is => pure (i :: is)) c = _ at h
    unfold Rust.Counted.bind at h
    rcases hx : Rust.readItem_counted std q c with ⟨⟨o, c1⟩, m⟩
    rw [hx] at h
    cases o with
    | err e => cases h
    | panic => cases h
    | ok i =>
      have hs := C84_rust_success std q c c1 i (by rw [hx])
      rw [hx] at hs
      have hg := Rust.readItem_good std q c
      rw [← Rust.readItem_counts, hx] at hg
      obtain ⟨_, g1, g2⟩ := hg
      have g2 := g2 hc
      simp only at g1 g2 h
      rcases hy : readAll_counted std qs c1 with ⟨⟨o, c2⟩, k⟩
      rw [hy] at h
      cases o with
      | err e => cases h
      | panic => cases h
      | ok js =>
        obtain ⟨t1, t2⟩ := ih c1 c2 js k (by rw [g1]; exact g2.2) hy
        cases h
        obtain ⟨s1, s2, _⟩ := hs
        simp only [Rust.Cursor.rest, List.length_drop] at t2 ⊢
        simp only at s1 s2
        have e0 : ∀ c2, ((pure (i :: js) : Rust.Counted (List Item)) c2).2 = 0 := fun _ => rfl
        rw [e0]
        rw [g1] at t2
        simp only [List.map_cons, List.sum_cons]
        omega

/-- It is not empty: two values are read and 3 bytes are allocated. -/
example : readAll_counted ⟨true⟩ [.bytes, .string] ⟨[4, 10, 1, 7, 5, 10, 2, 104, 105], 0⟩ =
    ((.ok [.bytes [7], .string [104, 105]], ⟨[4, 10, 1, 7, 5, 10, 2, 104, 105], 9⟩), 3) := by decide

end Props
