import Verif.Rust.Api

/-! # Rust decoder: no panics, and where the cursor can end up -/

namespace Rust

open Spec DecodingError

/-- The outcome of a call made at cursor `c`: no panic, the bytes are untouched, and the position did not
move back and did not leave the input. -/
def Good {α : Type} (c : Cursor) (r : Out DecodingError α × Cursor) : Prop :=
  r.1 ≠ .panic ∧ r.2.vec = c.vec ∧ (c.pos ≤ c.vec.length → c.pos ≤ r.2.pos ∧ r.2.pos ≤ c.vec.length)

theorem Good.adv {α : Type} {c : Cursor} {o : Out DecodingError α} (ho : o ≠ .panic) {k : Nat}
    (hk : k ≤ c.rest.length) : Good c (o, c.adv k) := by
  refine ⟨ho, rfl, fun h => ?_⟩
  simp only [Cursor.rest, List.length_drop] at hk
  simp only [Cursor.adv]; omega

theorem Good.stay {α : Type} {c : Cursor} {o : Out DecodingError α} (ho : o ≠ .panic) : Good c (o, c) :=
  ⟨ho, rfl, fun h => ⟨Nat.le_refl _, h⟩⟩

theorem Good.atEnd {α : Type} (std : Std) {c : Cursor} {o : Out DecodingError α} (ho : o ≠ .panic) :
    Good c (o, c.atEnd std) := by
  refine ⟨ho, ?_, fun h => ?_⟩
  · simp only [Cursor.atEnd]; split <;> rfl
  · simp only [Cursor.atEnd, h, or_true, if_true]; exact ⟨trivial, Nat.le_refl _⟩

theorem Good.after {α : Type} {c c1 : Cursor} {r : Out DecodingError α × Cursor}
    (h1 : c1.vec = c.vec ∧ (c.pos ≤ c.vec.length → c.pos ≤ c1.pos ∧ c1.pos ≤ c.vec.length)) (h : Good c1 r) : Good c r := by
  obtain ⟨a1, a2⟩ := h1; obtain ⟨b1, b2, b3⟩ := h
  refine ⟨b1, b2.trans a1, fun hc => ?_⟩
  rw [a1] at b3
  have := a2 hc; have := b3 this.2; omega

theorem adv_ok {c : Cursor} {k : Nat} (hk : k ≤ c.rest.length) :
    (c.adv k).vec = c.vec ∧ (c.pos ≤ c.vec.length → c.pos ≤ (c.adv k).pos ∧ (c.adv k).pos ≤ c.vec.length) := by
  have := Good.adv (α := Unit) (o := .ok ()) (by simp) hk
  exact this.2

theorem Good.bind {α β : Type} {x : Dec α} {f : α → Dec β} {c : Cursor} (hx : Good c (x c))
    (hf : ∀ a c1, x c = (.ok a, c1) → Good c1 (f a c1)) : Good c ((x >>= f) c) := by
  rw [bind_apply]
  cases h : x c with
  | mk o c1 =>
    rw [h] at hx
    cases o with
    | ok a => exact Good.after hx.2 (hf a c1 h)
    | err e => exact ⟨by simp, hx.2⟩
    | panic => exact absurd rfl hx.1

theorem Good.map {α β : Type} {x : Dec α} {f : α → β} {c : Cursor} (hx : Good c (x c)) :
    Good c ((x >>= fun a => (pure (f a) : Dec β)) c) :=
  hx.bind (fun _ _ _ => Good.stay (by simp))

theorem Good.head {α : Type} (std : Std) (e : DecodingError) (f : Byte → Dec α) (c : Cursor)
    (hf : ∀ b t, c.rest = b :: t → Good c (f b (c.adv 1))) : Good c ((read_u8_or std e >>= f) c) := by
  cases h : c.rest with
  | nil => rw [bind_err (read_u8_or_nil std e h)]; exact Good.atEnd std (by simp)
  | cons b t => rw [bind_ok (read_u8_or_cons std e h)]; exact hf b t h

theorem varDec_good {w : Nat} {α : Type} (hw : 8 ≤ w) (std : Std) (k : Byte) (n : Nat) (e e2 : DecodingError)
    (f : BitVec w → α) (hn : 7 * n < w) (c : Cursor) : Good c (varDec std k (n + 1) e e2 f c) := by
  rw [varDec_spec hw std k n e e2 f hn c]
  cases hr : c.rest with
  | nil => exact Good.atEnd std (by simp)
  | cons b t =>
    simp only
    split
    · cases hv : readVarint (n + 1) t with
      | done v r =>
        obtain ⟨cs, _, rfl, _⟩ := (readVarint_done_iff _ _ _ _).mp hv
        exact Good.adv (by simp) (by rw [hr]; simp; omega)
      | truncated => exact Good.atEnd std (by simp)
      | tooLong =>
        have := ((readVarint_tooLong _ _).mp hv).1
        exact Good.adv (by simp) (by rw [hr]; simp; omega)
    · exact Good.stay (by simp)

theorem decode_u32_good (std : Std) (c : Cursor) : Good c (decode_u32 std c) := by
  rw [decode_u32_var]; exact varDec_good (by decide) std _ 4 _ _ _ (by decide) c

theorem read_exact_good (std : Std) (n : Nat) (e : DecodingError) (c : Cursor) :
    Good c ((Rs.ok_or (read_exact std n) e : Dec Bytes) c) := by
  simp only [Rs.ok_or, read_exact]
  by_cases h : n ≤ c.rest.length
  · simp only [h, if_true]; exact Good.adv (by simp) h
  · simp only [h, if_false]
    cases std.eofMovesToEnd
    · exact Good.stay (by simp)
    · exact ⟨by simp, rfl, fun h => ⟨h, Nat.le_refl _⟩⟩

theorem payload_good (std : Std) (e : DecodingError) (c : Cursor) : Good c (payload std e c) :=
  (decode_u32_good std c).bind (fun _ c1 _ => read_exact_good std _ e c1)

/-- `back n; Err(e)` after `m + n` bytes of the input have been read. -/
theorem giveUp_good {α : Type} (m n : Nat) (e : DecodingError) (c : Cursor) (hm : m + n ≤ c.rest.length) :
    Good c ((do back n; Rs.throw e : Dec α) (c.adv (m + n))) := by
  rw [giveUp']; exact Good.adv (by simp) (by omega)

theorem readItem_good (std : Std) (q : Req) (c : Cursor) : Good c (readItem std q c) := by
  cases q with
  | none =>
    simp only [readItem]
    refine Good.bind ?_ (fun a c1 _ => by cases a <;> exact Good.stay (by simp))
    rw [decode_none_spec]
    cases hr : c.rest with
    | nil => exact Good.atEnd std (by simp)
    | cons b t =>
      simp only
      split
      · exact Good.adv (by simp) (by rw [hr]; simp)
      · exact Good.stay (by simp)
  | array k =>
    refine Good.map (Good.head std _ _ c fun b t hr => ?_)
    have hr1 : (c.adv 1).rest = t := by rw [adv_rest, hr]; rfl
    refine Good.after (adv_ok (by rw [hr]; simp)) (Good.head std _ _ _ fun b2 t2 hr2 => ?_)
    rw [hr1] at hr2; subst hr2
    split
    · refine Good.after (adv_ok (by rw [hr1]; simp)) (Good.map (decode_u32_good std _))
    · exact giveUp_good 0 1 _ _ (by rw [hr1]; simp)
  | map k v =>
    refine Good.map (Good.head std _ _ c fun b t hr => ?_)
    have hr1 : (c.adv 1).rest = t := by rw [adv_rest, hr]; rfl
    refine Good.after (adv_ok (by rw [hr]; simp)) (Good.head std _ _ _ fun b2 t2 hr2 => ?_)
    rw [hr1] at hr2; subst hr2
    have hr3 : ((c.adv 1).adv 1).rest = t2 := by rw [adv_rest, hr1]; rfl
    refine Good.after (adv_ok (by rw [hr1]; simp)) (Good.head std _ _ _ fun b3 t3 hr4 => ?_)
    rw [hr3] at hr4; subst hr4
    split
    · refine Good.after (adv_ok (by rw [hr3]; simp)) (Good.map (decode_u32_good std _))
    · exact giveUp_good 0 1 _ _ (by rw [hr3]; simp)
  | bytes =>
    refine Good.map (Good.head std _ _ c fun b t hr => ?_)
    split
    · exact Good.after (adv_ok (by rw [hr]; simp)) (payload_good std InvalidBytes _)
    · exact giveUp_good 0 1 _ _ (by rw [hr]; simp)
  | string =>
    refine Good.map (Good.head std _ _ c fun b t hr => ?_)
    split
    · refine Good.after (adv_ok (by rw [hr]; simp)) ((decode_u32_good std _).bind fun a c1 _ => ?_)
      refine (read_exact_good std _ _ _).bind fun s c2 _ => ?_
      split <;> exact Good.stay (by simp)
    · exact giveUp_good 0 1 _ _ (by rw [hr]; simp)
  | error =>
    refine Good.map (Good.head std _ _ c fun b t hr => ?_)
    have hr1 : (c.adv 1).rest = t := by rw [adv_rest, hr]; rfl
    by_cases ht : t = []
    · subst ht
      rw [bind_err (read_u8_or_nil std _ hr1), adv_atEnd std hr]; exact Good.atEnd std (by simp)
    · obtain ⟨b2, t2, rfl⟩ := List.exists_cons_of_ne_nil ht
      rw [bind_ok (read_u8_or_cons std _ hr1), adv_adv]
      split
      · refine Good.after (adv_ok (by rw [hr]; simp)) ((decode_u32_good std _).bind fun a c1 _ => ?_)
        refine (read_exact_good std _ _ _).bind fun s c2 _ => ?_
        split <;> exact Good.stay (by simp)
      · exact giveUp_good 0 2 _ _ (by rw [hr]; simp)
  | bool =>
    refine Good.map (Good.head std _ _ c fun b t hr => ?_)
    split
    · exact Good.after (adv_ok (by rw [hr]; simp)) (Good.head std _ _ _ fun b2 t2 hr2 =>
        Good.adv (by simp) (by rw [hr2]; simp))
    · exact giveUp_good 0 1 _ _ (by rw [hr]; simp)
  | u8 =>
    refine Good.map (Good.head std _ _ c fun b t hr => ?_)
    split
    · refine Good.after (adv_ok (k := 1) (by rw [hr]; simp)) ?_
      cases h : (c.adv 1).rest with
      | nil => rw [read_u8_or_nil std _ h]; exact Good.atEnd std (by simp)
      | cons b2 t2 => rw [read_u8_or_cons std _ h]; exact Good.adv (by simp) (by rw [h]; simp)
    · exact giveUp_good 0 1 _ _ (by rw [hr]; simp)
  | u16 =>
    refine Good.map ?_
    rw [decode_u16_var]; exact varDec_good (by decide) std _ 2 _ _ _ (by decide) c
  | u32 => exact Good.map (decode_u32_good std c)
  | u64 =>
    refine Good.map ?_
    rw [decode_u64_var]; exact varDec_good (by decide) std _ 9 _ _ _ (by decide) c
  | i32 =>
    refine Good.map ?_
    rw [decode_i32_var]; exact varDec_good (by decide) std _ 4 _ _ _ (by decide) c
  | i64 =>
    refine Good.map ?_
    rw [decode_i64_var]; exact varDec_good (by decide) std _ 9 _ _ _ (by decide) c
  | f32 =>
    refine Good.map (Good.head std _ _ c fun b t hr => ?_)
    split
    · exact Good.after (adv_ok (by rw [hr]; simp)) (Good.map (read_exact_good std _ _ _))
    · exact giveUp_good 0 1 _ _ (by rw [hr]; simp)
  | f64 =>
    refine Good.map (Good.head std _ _ c fun b t hr => ?_)
    split
    · exact Good.after (adv_ok (by rw [hr]; simp)) (Good.map (read_exact_good std _ _ _))
    · exact giveUp_good 0 1 _ _ (by rw [hr]; simp)

/-! ## Kind mismatches -/

/-- The error a call reports when the first byte is not the kind it wants. -/
def Req.mismatchError : Req → DecodingError
  | .none => InvalidNone
  | .array _ => InvalidU32
  | .map _ _ => InvalidMap
  | .bytes => InvalidBytes
  | .string => InvalidString
  | .error => InvalidError
  | .bool => InvalidBool
  | .u8 => InvalidU8
  | .u16 => InvalidU32
  | .u32 => InvalidU32
  | .u64 => InvalidU32
  | .i32 => InvalidI32
  | .i64 => InvalidI64
  | .f32 => InvalidF32
  | .f64 => InvalidF64

theorem mapErr {α β : Type} {x : Dec α} {f : α → β} {c c' : Cursor} {e : DecodingError} (h : x c = (.err e, c')) :
    (x >>= fun a => (pure (f a) : Dec β)) c = (.err e, c') := bind_err h _

theorem readItem_mismatch (std : Std) (q : Req) (c : Cursor) (b : Byte) (t : Bytes) (hr : c.rest = b :: t)
    (hb : b ≠ q.kind) (ha : ∀ k, q ≠ .array k) (hm : ∀ k v, q ≠ .map k v) (he : q = .error → t ≠ []) :
    readItem std q c = (.err q.mismatchError, c) := by
  have h1 : ∀ {α : Type} (e : DecodingError) (f : Byte → Dec α) (r), f b (c.adv 1) = r →
      (read_u8_or std e >>= f) c = r := by
    intro α e f r h; rw [bind_ok (read_u8_or_cons std e hr), h]
  cases q with
  | none =>
    simp only [readItem]
    have h2 : decode_none std c = (.ok false, c) := by
      rw [decode_none_spec, hr]; simp only; rw [if_neg (show ¬ b = kNil from hb)]
    rw [bind_ok h2]; rfl
  | array k => exact absurd rfl (ha k)
  | map k v => exact absurd rfl (hm k v)
  | bytes => exact mapErr (h1 _ _ _ (by rw [if_neg (show ¬ b = Kind.Bytes.toU8 from hb), giveUp]; rfl))
  | string => exact mapErr (h1 _ _ _ (by rw [if_neg (show ¬ b = Kind.String.toU8 from hb), giveUp]; rfl))
  | error =>
    obtain ⟨b2, t2, rfl⟩ := List.exists_cons_of_ne_nil (he rfl)
    have hr1 : (c.adv 1).rest = b2 :: t2 := by rw [adv_rest, hr]; rfl
    refine mapErr (h1 _ _ _ ?_)
    rw [bind_ok (read_u8_or_cons std _ hr1), adv_adv,
      if_neg (fun h => absurd h.1 (show ¬ b = Kind.Error.toU8 from hb)), show (1 + 1 : Nat) = 2 from rfl, giveUp]; rfl
  | bool => exact mapErr (h1 _ _ _ (by rw [if_neg (show ¬ b = Kind.Bool.toU8 from hb), giveUp]; rfl))
  | u8 => exact mapErr (h1 _ _ _ (by rw [if_neg (show ¬ b = Kind.U8.toU8 from hb), giveUp]; rfl))
  | u16 => exact mapErr (by rw [decode_u16_var]; exact varDec_mismatch (by decide) std _ 2 _ _ _ (by decide) c b t hr hb)
  | u32 => exact mapErr (by rw [decode_u32_var]; exact varDec_mismatch (by decide) std _ 4 _ _ _ (by decide) c b t hr hb)
  | u64 => exact mapErr (by rw [decode_u64_var]; exact varDec_mismatch (by decide) std _ 9 _ _ _ (by decide) c b t hr hb)
  | i32 => exact mapErr (by rw [decode_i32_var]; exact varDec_mismatch (by decide) std _ 4 _ _ _ (by decide) c b t hr hb)
  | i64 => exact mapErr (by rw [decode_i64_var]; exact varDec_mismatch (by decide) std _ 9 _ _ _ (by decide) c b t hr hb)
  | f32 => exact mapErr (h1 _ _ _ (by rw [if_neg (show ¬ b = Kind.F32.toU8 from hb), giveUp]; rfl))
  | f64 => exact mapErr (h1 _ _ _ (by rw [if_neg (show ¬ b = Kind.F64.toU8 from hb), giveUp]; rfl))

/-- `decode_array` on a wrong kind byte: always one byte further on. -/
theorem decode_array_mismatch (std : Std) (k : Kind) (c : Cursor) (b : Byte) (t : Bytes) (hr : c.rest = b :: t)
    (hb : b ≠ kSlice) : ∃ e, decode_array std k c = (.err e, c.adv 1) := by
  unfold decode_array
  rw [bind_ok (read_u8_or_cons std _ hr)]
  cases t with
  | nil =>
    refine ⟨InvalidArray, ?_⟩
    rw [bind_err (read_u8_or_nil std _ (by rw [adv_rest, hr]; rfl))]
    congr 1
    have hl := congrArg List.length hr
    simp only [Cursor.rest, List.length_drop, List.length_cons, List.length_nil] at hl
    have : (c.adv 1).pos = c.vec.length := by simp only [Cursor.adv]; omega
    simp only [Cursor.atEnd, this]
    simp [Cursor.adv] at this ⊢; omega
  | cons b2 t2 =>
    have hr1 : (c.adv 1).rest = b2 :: t2 := by rw [adv_rest, hr]; rfl
    refine ⟨InvalidU32, ?_⟩
    rw [bind_ok (read_u8_or_cons std _ hr1), if_neg (fun h => absurd h.1 (show ¬ b = Kind.Array.toU8 from hb)), adv_adv,
      giveUp']

/-- `decode_map` on a wrong kind byte: two bytes further on (or at the end of a shorter input). -/
theorem decode_map_mismatch (std : Std) (k v : Kind) (c : Cursor) (b : Byte) (t : Bytes) (hr : c.rest = b :: t)
    (hb : b ≠ kMap) : decode_map std k v c = (.err InvalidMap, c.adv (min 2 c.rest.length)) := by
  unfold decode_map
  have hl := congrArg List.length hr
  simp only [Cursor.rest, List.length_drop, List.length_cons] at hl
  rw [bind_ok (read_u8_or_cons std _ hr)]
  cases t with
  | nil =>
    rw [bind_err (read_u8_or_nil std _ (by rw [adv_rest, hr]; rfl)), hr]
    congr 1
    simp only [List.length_nil] at hl
    have : (c.adv 1).pos = c.vec.length := by simp only [Cursor.adv]; omega
    simp only [Cursor.atEnd, this]
    simp [Cursor.adv] at this ⊢; omega
  | cons b2 t2 =>
    have hr1 : (c.adv 1).rest = b2 :: t2 := by rw [adv_rest, hr]; rfl
    rw [bind_ok (read_u8_or_cons std _ hr1), adv_adv]
    cases t2 with
    | nil =>
      rw [bind_err (read_u8_or_nil std _ (by rw [adv_rest, hr]; rfl)), hr]
      congr 1
      simp only [List.length_nil, List.length_cons] at hl
      have : (c.adv (1 + 1)).pos = c.vec.length := by simp only [Cursor.adv]; omega
      simp only [Cursor.atEnd, this]
      simp [Cursor.adv] at this ⊢; omega
    | cons b3 t3 =>
      have hr2 : (c.adv (1 + 1)).rest = b3 :: t3 := by rw [adv_rest, hr]; rfl
      rw [bind_ok (read_u8_or_cons std _ hr2), if_neg (fun h => absurd h.1 (show ¬ b = Kind.Map.toU8 from hb)), adv_adv,
        giveUp', hr]
      simp

end Rust
