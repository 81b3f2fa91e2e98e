import Verif.Rust.Facts

/-! # The Rust decoder: exact behaviour of every call -/

namespace Rust

open Spec DecodingError

/-- The decoder call that matches an encoder call. -/
inductive Matches : Req → Item → Prop
  | none : Matches .none .nil
  | array (size k) : Matches (.array k) (.slice size k.toU8)
  | map (size k v) : Matches (.map k v) (.map size k.toU8 v.toU8)
  | bytes (v) : Matches .bytes (.bytes v)
  | string (v) : Matches .string (.string v)
  | error (m) : Matches .error (.error m)
  | bool (v) : Matches .bool (.bool v)
  | u8 (v) : Matches .u8 (.uint8 v)
  | u16 (v) : Matches .u16 (.uint16 v)
  | u32 (v) : Matches .u32 (.uint32 v)
  | u64 (v) : Matches .u64 (.uint64 v)
  | i32 (v) : Matches .i32 (.int32 v)
  | i64 (v) : Matches .i64 (.int64 v)
  | f32 (v) : Matches .f32 (.float32 v)
  | f64 (v) : Matches .f64 (.float64 v)

/-- The kind byte a call looks for. -/
def Req.kind : Req → Byte
  | .none => kNil
  | .array _ => kSlice
  | .map _ _ => kMap
  | .bytes => kBytes
  | .string => kString
  | .error => kError
  | .bool => kBool
  | .u8 => kUint8
  | .u16 => kUint16
  | .u32 => kUint32
  | .u64 => kUint64
  | .i32 => kInt32
  | .i64 => kInt64
  | .f32 => kFloat32
  | .f64 => kFloat64

/-- Strings and error messages are well-formed UTF-8, as in every Rust `String`. -/
def Item.Utf8Ok : Item → Prop
  | .string v => utf8 v = true
  | .error m => utf8 m = true
  | _ => True

theorem bind_ok_iff {ε α β : Type} {x : Rs ε α} {f : α → Rs ε β} {c c' : Cursor} {b : β} :
    (x >>= f) c = (.ok b, c') ↔ ∃ a c1, x c = (.ok a, c1) ∧ f a c1 = (.ok b, c') := by
  rw [bind_apply]
  constructor
  · intro h
    cases hx : x c with
    | mk o c1 =>
      rw [hx] at h
      cases o with
      | ok a => exact ⟨a, c1, rfl, h⟩
      | err e => simp at h
      | panic => simp at h
  · rintro ⟨a, c1, h1, h2⟩; rw [h1]; exact h2

theorem map_ok_iff {ε α β : Type} {x : Rs ε α} {f : α → β} {c c' : Cursor} {b : β} :
    (x >>= fun a => (pure (f a) : Rs ε β)) c = (.ok b, c') ↔ ∃ a, x c = (.ok a, c') ∧ b = f a := by
  rw [bind_ok_iff]
  constructor
  · rintro ⟨a, c1, h1, h2⟩
    simp only [pure_apply, Prod.mk.injEq, Out.ok.injEq] at h2
    obtain ⟨rfl, rfl⟩ := h2
    exact ⟨a, h1, rfl⟩
  · rintro ⟨a, h1, rfl⟩; exact ⟨a, c', h1, rfl⟩

theorem bind_noPanic {ε α β : Type} {x : Rs ε α} {f : α → Rs ε β} {c : Cursor} (hx : (x c).1 ≠ .panic)
    (hf : ∀ a c1, x c = (.ok a, c1) → (f a c1).1 ≠ .panic) : ((x >>= f) c).1 ≠ .panic := by
  rw [bind_apply]
  cases h : x c with
  | mk o c1 =>
    cases o with
    | ok a => exact hf a c1 h
    | err e => simp
    | panic => rw [h] at hx; simp at hx

theorem map_noPanic {ε α β : Type} {x : Rs ε α} {f : α → β} {c : Cursor} (hx : (x c).1 ≠ .panic) :
    ((x >>= fun a => (pure (f a) : Rs ε β)) c).1 ≠ .panic :=
  bind_noPanic hx (fun a c1 _ => by simp [pure_apply])

/-! ## Reading a kind byte -/

theorem head_ok_iff {α : Type} (std : Std) (e : DecodingError) (f : Byte → Dec α) (c c' : Cursor) (a : α) :
    (read_u8_or std e >>= f) c = (.ok a, c') ↔ ∃ b t, c.rest = b :: t ∧ f b (c.adv 1) = (.ok a, c') := by
  cases h : c.rest with
  | nil => rw [bind_err (read_u8_or_nil std e h)]; simp
  | cons b t =>
    rw [bind_ok (read_u8_or_cons std e h)]
    constructor
    · intro h1; exact ⟨b, t, rfl, h1⟩
    · rintro ⟨b', t', h1, h2⟩
      simp only [List.cons.injEq] at h1; obtain ⟨rfl, rfl⟩ := h1; exact h2

theorem head_noPanic {α : Type} (std : Std) (e : DecodingError) (f : Byte → Dec α) (c : Cursor)
    (hf : ∀ b t, c.rest = b :: t → (f b (c.adv 1)).1 ≠ .panic) : ((read_u8_or std e >>= f) c).1 ≠ .panic := by
  cases h : c.rest with
  | nil => rw [bind_err (read_u8_or_nil std e h)]; simp
  | cons b t => rw [bind_ok (read_u8_or_cons std e h)]; exact hf b t h

theorem giveUp {α : Type} (n : Nat) (e : DecodingError) (c : Cursor) :
    (do back n; Rs.throw e : Dec α) (c.adv n) = (.err e, c) := by
  rw [bind_ok (back_adv n c)]; rfl

theorem giveUp' {α : Type} (m n : Nat) (e : DecodingError) (c : Cursor) :
    (do back n; Rs.throw e : Dec α) (c.adv (m + n)) = (.err e, c.adv m) := by
  rw [bind_ok (back_adv' m n c)]; rfl

theorem read_exact_ok_iff (std : Std) (n : Nat) (e : DecodingError) (c c' : Cursor) (bs : Bytes) :
    (Rs.ok_or (read_exact std n) e : Dec Bytes) c = (.ok bs, c') ↔
      ∃ t, c.rest = bs ++ t ∧ bs.length = n ∧ c' = c.adv n := by
  simp only [Rs.ok_or, read_exact]
  by_cases h : n ≤ c.rest.length
  · simp only [h, if_true, Prod.mk.injEq, Out.ok.injEq]
    constructor
    · rintro ⟨rfl, rfl⟩
      exact ⟨c.rest.drop n, by simp, by simp [h], rfl⟩
    · rintro ⟨t, h1, rfl, rfl⟩
      rw [h1]; simp
  · simp only [h, if_false, Prod.mk.injEq, reduceCtorEq, false_and, false_iff]
    rintro ⟨t, h1, h2, _⟩
    rw [h1] at h; simp at h; omega

theorem read_exact_noPanic (std : Std) (n : Nat) (e : DecodingError) (c : Cursor) :
    ((Rs.ok_or (read_exact std n) e : Dec Bytes) c).1 ≠ .panic := by
  simp only [Rs.ok_or, read_exact]
  by_cases h : n ≤ c.rest.length <;> simp [h]

/-! ## Success -/

theorem decode_u32_ok_iff (std : Std) (c c' : Cursor) (v : BitVec 32) :
    decode_u32 std c = (.ok v, c') ↔
      ∃ cs t, Varint 5 cs ∧ c.rest = kUint32 :: (cs ++ t) ∧ v = BitVec.ofNat 32 (groupSum cs) ∧
        c' = c.adv (1 + cs.length) := by
  rw [decode_u32_var, varDec_ok_iff (by decide) std _ 4 _ _ _ (by decide)]; rfl

theorem decode_u32_noPanic (std : Std) (c : Cursor) : (decode_u32 std c).1 ≠ .panic := by
  rw [decode_u32_var]; exact varDec_noPanic (by decide) std _ 4 _ _ _ (by decide) c

/-- The size-prefixed payload of bytes, strings and errors. -/
def payload (std : Std) (e : DecodingError) : Dec Bytes := do
  let size ← decode_u32 std
  Rs.ok_or (read_exact std size.toNat) e

theorem payload_ok_iff (std : Std) (e : DecodingError) (c c' : Cursor) (v : Bytes) :
    payload std e c = (.ok v, c') ↔
      ∃ cs t, Varint 5 cs ∧ c.rest = kUint32 :: (cs ++ (v ++ t)) ∧ v.length = groupSum cs % 2 ^ 32 ∧
        c' = c.adv (1 + (cs.length + v.length)) := by
  unfold payload
  rw [bind_ok_iff]
  constructor
  · rintro ⟨size, c1, h1, h2⟩
    obtain ⟨cs, t, hc, hr, rfl, rfl⟩ := (decode_u32_ok_iff ..).mp h1
    obtain ⟨t', h3, h4, rfl⟩ := (read_exact_ok_iff ..).mp h2
    have : (c.adv (1 + cs.length)).rest = t := by
      rw [adv_rest, hr, Nat.add_comm, List.drop_succ_cons, List.drop_left]
    rw [this] at h3; subst h3
    rw [BitVec.toNat_ofNat] at h4
    exact ⟨cs, t', hc, hr, h4, by rw [adv_adv, BitVec.toNat_ofNat, ← h4, Nat.add_assoc]⟩
  · rintro ⟨cs, t, hc, hr, hl, rfl⟩
    refine ⟨_, _, (decode_u32_ok_iff ..).mpr ⟨cs, v ++ t, hc, hr, rfl, rfl⟩, (read_exact_ok_iff ..).mpr ⟨t, ?_, ?_, ?_⟩⟩
    · rw [adv_rest, hr, Nat.add_comm, List.drop_succ_cons, List.drop_left]
    · rw [BitVec.toNat_ofNat, hl]
    · rw [adv_adv, BitVec.toNat_ofNat, ← hl, Nat.add_assoc]

theorem payload_noPanic (std : Std) (e : DecodingError) (c : Cursor) : (payload std e c).1 ≠ .panic :=
  bind_noPanic (decode_u32_noPanic std c) (fun _ c1 _ => read_exact_noPanic std _ e c1)

theorem decode_bytes_ok_iff (std : Std) (c c' : Cursor) (v : Bytes) :
    decode_bytes std c = (.ok v, c') ↔
      ∃ p t, Accepts p (.bytes v) ∧ c.rest = p ++ t ∧ c' = c.adv p.length := by
  unfold decode_bytes
  rw [head_ok_iff]
  constructor
  · rintro ⟨b, t, hr, h⟩
    have hr1 : (c.adv 1).rest = t := by rw [adv_rest, hr]; rfl
    by_cases hb : b = Kind.Bytes.toU8
    · rw [if_pos hb] at h
      obtain ⟨cs, t', hc, h2, hl, rfl⟩ := (payload_ok_iff std InvalidBytes ..).mp h
      rw [hr1] at h2; subst h2; subst hb
      exact ⟨_, t', .bytes cs v hc hl, by rw [hr]; simp [kBytes, Kind.toU8],
        by rw [adv_adv]; congr 1; simp; omega⟩
    · rw [if_neg hb, giveUp] at h; simp at h
  · rintro ⟨p, t, ha, hr, rfl⟩
    cases ha with
    | bytes cs _ hc hl =>
      refine ⟨_, _, hr, ?_⟩
      rw [if_pos (show kBytes = Kind.Bytes.toU8 from rfl)]
      refine (payload_ok_iff std InvalidBytes ..).mpr ⟨cs, t, hc, ?_, hl, ?_⟩
      · rw [adv_rest, hr]; simp
      · rw [adv_adv]; congr 1; simp; omega

theorem decode_string_ok_iff (std : Std) (c c' : Cursor) (v : Bytes) :
    decode_string std c = (.ok v, c') ↔
      ∃ p t, Accepts p (.string v) ∧ utf8 v = true ∧ c.rest = p ++ t ∧ c' = c.adv p.length := by
  unfold decode_string
  rw [head_ok_iff]
  constructor
  · rintro ⟨b, t, hr, h⟩
    have hr1 : (c.adv 1).rest = t := by rw [adv_rest, hr]; rfl
    by_cases hb : b = Kind.String.toU8
    · rw [if_pos hb] at h
      have h' : (payload std InvalidString >>= fun str_buf =>
        if utf8 str_buf = true then (pure str_buf : Dec Bytes) else Rs.throw InvalidString) (c.adv 1) = (.ok v, c') := by
        rw [← h]; simp only [payload, bind_apply]
        cases decode_u32 std (c.adv 1) with
        | mk o c1 => cases o <;> rfl
      obtain ⟨s, c1, h1, h2⟩ := bind_ok_iff.mp h'
      by_cases hu : utf8 s = true
      · rw [if_pos hu] at h2
        simp only [pure_apply, Prod.mk.injEq, Out.ok.injEq] at h2
        obtain ⟨rfl, rfl⟩ := h2
        obtain ⟨cs, t', hc, h2, hl, rfl⟩ := (payload_ok_iff std InvalidString ..).mp h1
        rw [hr1] at h2; subst h2; subst hb
        exact ⟨_, t', .string cs s hc hl, hu, by rw [hr]; simp [kString, Kind.toU8],
          by rw [adv_adv]; congr 1; simp; omega⟩
      · rw [if_neg hu] at h2; simp [Rs.throw] at h2
    · rw [if_neg hb, giveUp] at h; simp at h
  · rintro ⟨p, t, ha, hu, hr, rfl⟩
    cases ha with
    | string cs _ hc hl =>
      refine ⟨_, _, hr, ?_⟩
      rw [if_pos (show kString = Kind.String.toU8 from rfl)]
      have h1 : payload std InvalidString (c.adv 1) = (.ok v, (c.adv 1).adv (1 + (cs.length + v.length))) :=
        (payload_ok_iff std InvalidString ..).mpr ⟨cs, t, hc, by rw [adv_rest, hr]; simp, hl, rfl⟩
      obtain ⟨size, c1, h2, h3⟩ := bind_ok_iff.mp h1
      rw [bind_ok h2, bind_ok h3, if_pos hu, adv_adv]
      simp only [pure_apply]
      congr 2; simp; omega

theorem decode_error_ok_iff (std : Std) (c c' : Cursor) (v : Bytes) :
    decode_error std c = (.ok v, c') ↔
      ∃ p t, Accepts p (.error v) ∧ utf8 v = true ∧ c.rest = p ++ t ∧ c' = c.adv p.length := by
  unfold decode_error
  rw [head_ok_iff]
  constructor
  · rintro ⟨b, t, hr, h⟩
    obtain ⟨b2, t2, hr2, h⟩ := (head_ok_iff ..).mp h
    have hr1 : (c.adv 1).rest = t := by rw [adv_rest, hr]; rfl
    rw [hr1] at hr2; subst hr2
    have hr1 : (c.adv (1 + 1)).rest = t2 := by rw [adv_rest, hr]; rfl
    rw [adv_adv] at h
    by_cases hb : b = Kind.Error.toU8 ∧ b2 = Kind.String.toU8
    · rw [if_pos hb] at h
      have h' : (payload std InvalidError >>= fun str_buf =>
        if utf8 str_buf = true then (pure str_buf : Dec Bytes) else Rs.throw InvalidError) (c.adv (1 + 1)) = (.ok v, c') := by
        rw [← h]; simp only [payload, bind_apply]
        cases decode_u32 std (c.adv (1 + 1)) with
        | mk o c1 => cases o <;> rfl
      obtain ⟨s, c1, h1, h2⟩ := bind_ok_iff.mp h'
      by_cases hu : utf8 s = true
      · rw [if_pos hu] at h2
        simp only [pure_apply, Prod.mk.injEq, Out.ok.injEq] at h2
        obtain ⟨rfl, rfl⟩ := h2
        obtain ⟨cs, t', hc, h2, hl, rfl⟩ := (payload_ok_iff std InvalidError ..).mp h1
        rw [hr1] at h2; subst h2; obtain ⟨rfl, rfl⟩ := hb
        exact ⟨_, t', .error cs s hc hl, hu, by rw [hr]; simp [kString, kError, Kind.toU8],
          by rw [adv_adv]; congr 1; simp; omega⟩
      · rw [if_neg hu] at h2; simp [Rs.throw] at h2
    · rw [if_neg hb, show (1 + 1 : Nat) = 2 from rfl, giveUp] at h; simp at h
  · rintro ⟨p, t, ha, hu, hr, rfl⟩
    cases ha with
    | error cs _ hc hl =>
      refine ⟨_, _, hr, ?_⟩
      have hr1 : (c.adv 1).rest = kString :: kUint32 :: (cs ++ v ++ t) := by rw [adv_rest, hr]; simp
      rw [bind_ok (read_u8_or_cons std _ hr1), if_pos (show kError = Kind.Error.toU8 ∧ kString = Kind.String.toU8 from ⟨rfl, rfl⟩), adv_adv]
      have h1 : payload std InvalidError (c.adv (1 + 1)) = (.ok v, (c.adv (1 + 1)).adv (1 + (cs.length + v.length))) :=
        (payload_ok_iff std InvalidError ..).mpr ⟨cs, t, hc, by rw [adv_rest, hr]; simp, hl, rfl⟩
      obtain ⟨size, c1, h2, h3⟩ := bind_ok_iff.mp h1
      rw [bind_ok h2, bind_ok h3, if_pos hu, adv_adv]
      simp only [pure_apply]
      congr 2; simp; omega

theorem decode_array_ok_iff (std : Std) (k : Kind) (c c' : Cursor) (n : Nat) :
    decode_array std k c = (.ok n, c') ↔
      ∃ p t, Accepts p (.slice (BitVec.ofNat 32 n) k.toU8) ∧ n < 2 ^ 32 ∧ c.rest = p ++ t ∧ c' = c.adv p.length := by
  unfold decode_array
  rw [head_ok_iff]
  constructor
  · rintro ⟨b, t, hr, h⟩
    obtain ⟨b2, t2, hr2, h⟩ := (head_ok_iff ..).mp h
    have hr1 : (c.adv 1).rest = t := by rw [adv_rest, hr]; rfl
    rw [hr1] at hr2; subst hr2
    have hr1 : (c.adv (1 + 1)).rest = t2 := by rw [adv_rest, hr]; rfl
    rw [adv_adv] at h
    by_cases hb : b = Kind.Array.toU8 ∧ k.toU8 = b2
    · rw [if_pos hb] at h
      obtain ⟨s, h1, rfl⟩ := map_ok_iff.mp h
      obtain ⟨cs, t', hc, h2, rfl, rfl⟩ := (decode_u32_ok_iff ..).mp h1
      rw [hr1] at h2; subst h2; obtain ⟨rfl, rfl⟩ := hb
      refine ⟨kSlice :: k.toU8 :: kUint32 :: cs, t', ?_, BitVec.isLt _, hr.trans ?_, ?_⟩
      · rw [BitVec.ofNat_toNat, BitVec.setWidth_eq]; exact .slice _ cs hc
      · simp [kSlice, Kind.toU8]
      · rw [adv_adv]; congr 1; simp; omega
    · rw [if_neg hb, giveUp'] at h; simp at h
  · rintro ⟨p, t, ha, hn, hr, rfl⟩
    generalize hs : BitVec.ofNat 32 n = s at ha
    cases ha with
    | slice _ cs hc =>
      refine ⟨_, _, hr, ?_⟩
      have hr1 : (c.adv 1).rest = k.toU8 :: kUint32 :: (cs ++ t) := by rw [adv_rest, hr]; simp
      rw [bind_ok (read_u8_or_cons std _ hr1), if_pos (show kSlice = Kind.Array.toU8 ∧ k.toU8 = k.toU8 from ⟨rfl, rfl⟩), adv_adv]
      refine map_ok_iff.mpr ⟨BitVec.ofNat 32 n, (decode_u32_ok_iff ..).mpr ⟨cs, t, hc, by rw [adv_rest, hr]; simp, hs, ?_⟩, ?_⟩
      · rw [adv_adv]; congr 1; simp; omega
      · rw [BitVec.toNat_ofNat, Nat.mod_eq_of_lt hn]

theorem decode_map_ok_iff (std : Std) (k v : Kind) (c c' : Cursor) (n : Nat) :
    decode_map std k v c = (.ok n, c') ↔
      ∃ p t, Accepts p (.map (BitVec.ofNat 32 n) k.toU8 v.toU8) ∧ n < 2 ^ 32 ∧ c.rest = p ++ t ∧ c' = c.adv p.length := by
  unfold decode_map
  rw [head_ok_iff]
  constructor
  · rintro ⟨b, t, hr, h⟩
    obtain ⟨b2, t2, hr2, h⟩ := (head_ok_iff ..).mp h
    have hr1 : (c.adv 1).rest = t := by rw [adv_rest, hr]; rfl
    rw [hr1] at hr2; subst hr2
    rw [adv_adv] at h
    obtain ⟨b3, t3, hr2, h⟩ := (head_ok_iff ..).mp h
    have hr1 : (c.adv (1 + 1)).rest = t2 := by rw [adv_rest, hr]; rfl
    rw [hr1] at hr2; subst hr2
    have hr1 : (c.adv (1 + 1 + 1)).rest = t3 := by rw [adv_rest, hr]; rfl
    rw [adv_adv] at h
    by_cases hb : b = Kind.Map.toU8 ∧ k.toU8 = b2 ∧ v.toU8 = b3
    · rw [if_pos hb] at h
      obtain ⟨s, h1, rfl⟩ := map_ok_iff.mp h
      obtain ⟨cs, t', hc, h2, rfl, rfl⟩ := (decode_u32_ok_iff ..).mp h1
      rw [hr1] at h2; subst h2; obtain ⟨rfl, rfl, rfl⟩ := hb
      refine ⟨kMap :: k.toU8 :: v.toU8 :: kUint32 :: cs, t', ?_, BitVec.isLt _, hr.trans ?_, ?_⟩
      · rw [BitVec.ofNat_toNat, BitVec.setWidth_eq]; exact .map _ _ cs hc
      · simp [kMap, Kind.toU8]
      · rw [adv_adv]; congr 1; simp; omega
    · rw [if_neg hb, giveUp'] at h; simp at h
  · rintro ⟨p, t, ha, hn, hr, rfl⟩
    generalize hs : BitVec.ofNat 32 n = s at ha
    cases ha with
    | map _ _ cs hc =>
      refine ⟨_, _, hr, ?_⟩
      have hr1 : (c.adv 1).rest = k.toU8 :: v.toU8 :: kUint32 :: (cs ++ t) := by rw [adv_rest, hr]; simp
      have hr2 : (c.adv (1 + 1)).rest = v.toU8 :: kUint32 :: (cs ++ t) := by rw [adv_rest, hr]; simp
      rw [bind_ok (read_u8_or_cons std _ hr1), adv_adv, bind_ok (read_u8_or_cons std _ hr2), if_pos (show kMap = Kind.Map.toU8 ∧ k.toU8 = k.toU8 ∧ v.toU8 = v.toU8 from ⟨rfl, rfl, rfl⟩), adv_adv]
      refine map_ok_iff.mpr ⟨BitVec.ofNat 32 n, (decode_u32_ok_iff ..).mpr ⟨cs, t, hc, by rw [adv_rest, hr]; simp, hs, ?_⟩, ?_⟩
      · rw [adv_adv]; congr 1; simp; omega
      · rw [BitVec.toNat_ofNat, Nat.mod_eq_of_lt hn]

theorem decode_none_spec (std : Std) (c : Cursor) : decode_none std c =
    match c.rest with
    | [] => (.ok false, c.atEnd std)
    | b :: _ => if b = kNil then (.ok true, c.adv 1) else (.ok false, c) := by
  unfold decode_none
  cases h : c.rest with
  | nil => rw [read_u8_nil std h]
  | cons b t =>
    rw [read_u8_cons std h]
    simp only
    by_cases hb : b = kNil
    · rw [if_pos hb, if_pos (show b = Kind.None.toU8 from hb)]
    · rw [if_neg hb, if_neg (show ¬ b = Kind.None.toU8 from hb), bind_ok (back_adv 1 c)]; rfl

theorem decode_bool_ok_iff (std : Std) (c c' : Cursor) (v : Bool) :
    decode_bool std c = (.ok v, c') ↔ ∃ b t, c.rest = kBool :: b :: t ∧ v = decide (b = 1) ∧ c' = c.adv 2 := by
  unfold decode_bool
  rw [head_ok_iff]
  constructor
  · rintro ⟨b, t, hr, h⟩
    by_cases hb : b = Kind.Bool.toU8
    · rw [if_pos hb] at h
      obtain ⟨b2, t2, hr2, h⟩ := (head_ok_iff ..).mp h
      have hr1 : (c.adv 1).rest = t := by rw [adv_rest, hr]; rfl
      rw [hr1] at hr2; subst hr2; subst hb
      simp only [pure_apply, Prod.mk.injEq, Out.ok.injEq] at h
      exact ⟨b2, t2, hr, h.1.symm, h.2.symm⟩
    · rw [if_neg hb, giveUp] at h; simp at h
  · rintro ⟨b, t, hr, rfl, rfl⟩
    refine ⟨_, _, hr, ?_⟩
    rw [if_pos (show kBool = Kind.Bool.toU8 from rfl)]
    have hr1 : (c.adv 1).rest = b :: t := by rw [adv_rest, hr]; rfl
    rw [bind_ok (read_u8_or_cons std _ hr1)]; rfl

theorem decode_u8_ok_iff (std : Std) (c c' : Cursor) (v : BitVec 8) :
    decode_u8 std c = (.ok v, c') ↔ ∃ t, c.rest = kUint8 :: v :: t ∧ c' = c.adv 2 := by
  unfold decode_u8
  rw [head_ok_iff]
  constructor
  · rintro ⟨b, t, hr, h⟩
    by_cases hb : b = Kind.U8.toU8
    · rw [if_pos hb] at h
      have hr1 : (c.adv 1).rest = t := by rw [adv_rest, hr]; rfl
      subst hb
      cases t with
      | nil => rw [read_u8_or_nil std _ hr1] at h; simp at h
      | cons b2 t2 =>
        rw [read_u8_or_cons std _ hr1] at h
        simp only [Prod.mk.injEq, Out.ok.injEq] at h
        obtain ⟨rfl, rfl⟩ := h
        exact ⟨t2, hr, rfl⟩
    · rw [if_neg hb, giveUp] at h; simp at h
  · rintro ⟨t, hr, rfl⟩
    refine ⟨_, _, hr, ?_⟩
    rw [if_pos (show kUint8 = Kind.U8.toU8 from rfl)]
    have hr1 : (c.adv 1).rest = v :: t := by rw [adv_rest, hr]; rfl
    rw [read_u8_or_cons std _ hr1]; rfl

theorem decode_f32_ok_iff (std : Std) (c c' : Cursor) (v : BitVec 32) :
    decode_f32 std c = (.ok v, c') ↔
      ∃ p t, Accepts p (.float32 v) ∧ c.rest = p ++ t ∧ c' = c.adv p.length := by
  unfold decode_f32
  rw [head_ok_iff]
  constructor
  · rintro ⟨b, t, hr, h⟩
    by_cases hb : b = Kind.F32.toU8
    · rw [if_pos hb] at h
      obtain ⟨bs, h1, rfl⟩ := map_ok_iff.mp h
      obtain ⟨t2, hr2, hl, rfl⟩ := (read_exact_ok_iff ..).mp h1
      have hr1 : (c.adv 1).rest = t := by rw [adv_rest, hr]; rfl
      rw [hr1] at hr2; subst hr2; subst hb
      exact ⟨_, t2, .float32 bs hl, hr, by rw [adv_adv]; simp [hl]⟩
    · rw [if_neg hb, giveUp] at h; simp at h
  · rintro ⟨p, t, ha, hr, rfl⟩
    cases ha with
    | float32 bs hl =>
      refine ⟨_, _, hr, ?_⟩
      rw [if_pos (show kFloat32 = Kind.F32.toU8 from rfl)]
      refine map_ok_iff.mpr ⟨bs, (read_exact_ok_iff ..).mpr ⟨t, by rw [adv_rest, hr]; rfl, hl, ?_⟩, rfl⟩
      rw [adv_adv]; simp [hl]

theorem decode_f64_ok_iff (std : Std) (c c' : Cursor) (v : BitVec 64) :
    decode_f64 std c = (.ok v, c') ↔
      ∃ p t, Accepts p (.float64 v) ∧ c.rest = p ++ t ∧ c' = c.adv p.length := by
  unfold decode_f64
  rw [head_ok_iff]
  constructor
  · rintro ⟨b, t, hr, h⟩
    by_cases hb : b = Kind.F64.toU8
    · rw [if_pos hb] at h
      obtain ⟨bs, h1, rfl⟩ := map_ok_iff.mp h
      obtain ⟨t2, hr2, hl, rfl⟩ := (read_exact_ok_iff ..).mp h1
      have hr1 : (c.adv 1).rest = t := by rw [adv_rest, hr]; rfl
      rw [hr1] at hr2; subst hr2; subst hb
      exact ⟨_, t2, .float64 bs hl, hr, by rw [adv_adv]; simp [hl]⟩
    · rw [if_neg hb, giveUp] at h; simp at h
  · rintro ⟨p, t, ha, hr, rfl⟩
    cases ha with
    | float64 bs hl =>
      refine ⟨_, _, hr, ?_⟩
      rw [if_pos (show kFloat64 = Kind.F64.toU8 from rfl)]
      refine map_ok_iff.mpr ⟨bs, (read_exact_ok_iff ..).mpr ⟨t, by rw [adv_rest, hr]; rfl, hl, ?_⟩, rfl⟩
      rw [adv_adv]; simp [hl]

theorem unzig_eq {w : Nat} (n : Nat) :
    unzig (BitVec.ofNat (w + 1) n) = BitVec.ofInt (w + 1) (unzigzag (n % 2 ^ (w + 1))) := by
  have := GoV2.unzigzag_bits (BitVec.ofNat (w + 1) n)
  rw [BitVec.toNat_ofNat] at this
  exact this

/-- Exactly when a call succeeds, and with what. -/
theorem readItem_value_iff (std : Std) (q : Req) (c c' : Cursor) (i : Item) :
    readItem std q c = (.ok i, c') ↔
      (∃ p t, Matches q i ∧ Accepts p i ∧ Item.Utf8Ok i ∧ c.rest = p ++ t ∧ c' = c.adv p.length) ∨
      (q = .bool ∧ i = .bool false ∧ ∃ (b : Byte) (t : Bytes), 2 ≤ b.toNat ∧ c.rest = kBool :: b :: t ∧ c' = c.adv 2) := by
  have inl : ∀ {P Q : Prop}, ¬ Q → (P ↔ P ∨ Q) := fun h => ⟨.inl, fun x => x.resolve_right h⟩
  cases q with
  | none =>
    rw [← inl (by simp)]
    simp only [readItem]
    rw [bind_apply, decode_none_spec]
    cases h : c.rest with
    | nil =>
      simp only [Bool.false_eq_true, if_false, Rs.throw, Prod.mk.injEq, reduceCtorEq, false_and, false_iff]
      rintro ⟨p, t, hm, ha, _, hp, _⟩
      have := ha.pos
      have := congrArg List.length hp
      simp at this; omega
    | cons b t =>
      simp only
      by_cases hb : b = kNil
      · rw [if_pos hb]
        subst hb
        simp only [if_true, pure_apply, Prod.mk.injEq, Out.ok.injEq]
        constructor
        · rintro ⟨rfl, rfl⟩; exact ⟨[kNil], t, .none, .nil, trivial, rfl, rfl⟩
        · rintro ⟨p, t', hm, ha, _, hp, rfl⟩
          cases hm; cases ha; exact ⟨rfl, rfl⟩
      · rw [if_neg hb]
        simp only [Bool.false_eq_true, if_false, Rs.throw, Prod.mk.injEq, reduceCtorEq, false_and, false_iff]
        rintro ⟨p, t', hm, ha, _, hp, _⟩
        cases hm; cases ha
        simp at hp; exact hb hp.1
  | array k =>
    rw [← inl (by simp)]
    simp only [readItem]
    rw [map_ok_iff]
    constructor
    · rintro ⟨n, h1, rfl⟩
      obtain ⟨p, t, ha, hn, hr, hc⟩ := (decode_array_ok_iff ..).mp h1
      exact ⟨p, t, .array _ _, ha, trivial, hr, hc⟩
    · rintro ⟨p, t, hm, ha, _, hr, hc⟩
      cases hm with
      | array size =>
        refine ⟨size.toNat, (decode_array_ok_iff ..).mpr ⟨p, t, ?_, size.isLt, hr, hc⟩, ?_⟩
        · rw [BitVec.ofNat_toNat, BitVec.setWidth_eq]; exact ha
        · rw [BitVec.ofNat_toNat, BitVec.setWidth_eq]
  | map k v =>
    rw [← inl (by simp)]
    simp only [readItem]
    rw [map_ok_iff]
    constructor
    · rintro ⟨n, h1, rfl⟩
      obtain ⟨p, t, ha, hn, hr, hc⟩ := (decode_map_ok_iff ..).mp h1
      exact ⟨p, t, .map _ _ _, ha, trivial, hr, hc⟩
    · rintro ⟨p, t, hm, ha, _, hr, hc⟩
      cases hm with
      | map size =>
        refine ⟨size.toNat, (decode_map_ok_iff ..).mpr ⟨p, t, ?_, size.isLt, hr, hc⟩, ?_⟩
        · rw [BitVec.ofNat_toNat, BitVec.setWidth_eq]; exact ha
        · rw [BitVec.ofNat_toNat, BitVec.setWidth_eq]
  | bytes =>
    rw [← inl (by simp)]
    simp only [readItem]
    rw [map_ok_iff]
    constructor
    · rintro ⟨n, h1, rfl⟩
      obtain ⟨p, t, ha, hr, hc⟩ := (decode_bytes_ok_iff ..).mp h1
      exact ⟨p, t, .bytes _, ha, trivial, hr, hc⟩
    · rintro ⟨p, t, hm, ha, _, hr, hc⟩
      cases hm with
      | bytes v => exact ⟨v, (decode_bytes_ok_iff ..).mpr ⟨p, t, ha, hr, hc⟩, rfl⟩
  | string =>
    rw [← inl (by simp)]
    simp only [readItem]
    rw [map_ok_iff]
    constructor
    · rintro ⟨n, h1, rfl⟩
      obtain ⟨p, t, ha, hu, hr, hc⟩ := (decode_string_ok_iff ..).mp h1
      exact ⟨p, t, .string _, ha, hu, hr, hc⟩
    · rintro ⟨p, t, hm, ha, hu, hr, hc⟩
      cases hm with
      | string v => exact ⟨v, (decode_string_ok_iff ..).mpr ⟨p, t, ha, hu, hr, hc⟩, rfl⟩
  | error =>
    rw [← inl (by simp)]
    simp only [readItem]
    rw [map_ok_iff]
    constructor
    · rintro ⟨n, h1, rfl⟩
      obtain ⟨p, t, ha, hu, hr, hc⟩ := (decode_error_ok_iff ..).mp h1
      exact ⟨p, t, .error _, ha, hu, hr, hc⟩
    · rintro ⟨p, t, hm, ha, hu, hr, hc⟩
      cases hm with
      | error v => exact ⟨v, (decode_error_ok_iff ..).mpr ⟨p, t, ha, hu, hr, hc⟩, rfl⟩
  | bool =>
    simp only [readItem]
    rw [map_ok_iff]
    constructor
    · rintro ⟨v, h1, rfl⟩
      obtain ⟨b, t, hr, rfl, hc⟩ := (decode_bool_ok_iff ..).mp h1
      by_cases h2 : 2 ≤ b.toNat
      · refine .inr ⟨trivial, ?_, b, t, h2, hr, hc⟩
        have : ¬ b = 1#8 := by intro h; subst h; simp at h2
        simp [this]
      · have : b.toNat = 0 ∨ b.toNat = 1 := by omega
        rcases this with h0 | h0
        · have : b = 0#8 := BitVec.eq_of_toNat_eq h0
          subst this
          exact .inl ⟨[kBool, 0], t, .bool _, .bool false, trivial, hr, hc⟩
        · have : b = 1#8 := BitVec.eq_of_toNat_eq h0
          subst this
          exact .inl ⟨[kBool, 1], t, .bool _, .bool true, trivial, hr, hc⟩
    · rintro (⟨p, t, hm, ha, _, hr, hc⟩ | ⟨_, rfl, b, t, h2, hr, hc⟩)
      · cases hm with
        | bool v =>
          cases ha
          exact ⟨v, (decode_bool_ok_iff ..).mpr ⟨_, t, hr, by cases v <;> rfl, hc⟩, rfl⟩
      · refine ⟨false, (decode_bool_ok_iff ..).mpr ⟨b, t, hr, ?_, hc⟩, rfl⟩
        have : ¬ b = 1#8 := by intro h; subst h; simp at h2
        simp [this]
  | u8 =>
    rw [← inl (by simp)]
    simp only [readItem]
    rw [map_ok_iff]
    constructor
    · rintro ⟨v, h1, rfl⟩
      obtain ⟨t, hr, hc⟩ := (decode_u8_ok_iff ..).mp h1
      exact ⟨_, t, .u8 _, .uint8 v, trivial, hr, hc⟩
    · rintro ⟨p, t, hm, ha, _, hr, hc⟩
      cases hm with
      | u8 v => cases ha; exact ⟨v, (decode_u8_ok_iff ..).mpr ⟨t, hr, hc⟩, rfl⟩
  | u16 =>
    rw [← inl (by simp)]
    simp only [readItem]
    rw [map_ok_iff, decode_u16_var]
    simp only [varDec_ok_iff (show 8 ≤ 16 by decide) std kUint16 2 _ _ _ (by decide)]
    constructor
    · rintro ⟨v, ⟨cs, t, hc, hr, rfl, rfl⟩, rfl⟩
      exact ⟨_, t, .u16 _, .uint16 cs hc, trivial, hr, by rw [List.length_cons, Nat.add_comm]⟩
    · rintro ⟨p, t, hm, ha, _, hr, rfl⟩
      cases hm with
      | u16 v =>
        cases ha with
        | uint16 cs hc => exact ⟨_, ⟨cs, t, hc, hr, rfl, by rw [List.length_cons, Nat.add_comm]⟩, rfl⟩
  | u32 =>
    rw [← inl (by simp)]
    simp only [readItem]
    rw [map_ok_iff, decode_u32_var]
    simp only [varDec_ok_iff (show 8 ≤ 32 by decide) std kUint32 4 _ _ _ (by decide)]
    constructor
    · rintro ⟨v, ⟨cs, t, hc, hr, rfl, rfl⟩, rfl⟩
      exact ⟨_, t, .u32 _, .uint32 cs hc, trivial, hr, by rw [List.length_cons, Nat.add_comm]⟩
    · rintro ⟨p, t, hm, ha, _, hr, rfl⟩
      cases hm with
      | u32 v =>
        cases ha with
        | uint32 cs hc => exact ⟨_, ⟨cs, t, hc, hr, rfl, by rw [List.length_cons, Nat.add_comm]⟩, rfl⟩
  | u64 =>
    rw [← inl (by simp)]
    simp only [readItem]
    rw [map_ok_iff, decode_u64_var]
    simp only [varDec_ok_iff (show 8 ≤ 64 by decide) std kUint64 9 _ _ _ (by decide)]
    constructor
    · rintro ⟨v, ⟨cs, t, hc, hr, rfl, rfl⟩, rfl⟩
      exact ⟨_, t, .u64 _, .uint64 cs hc, trivial, hr, by rw [List.length_cons, Nat.add_comm]⟩
    · rintro ⟨p, t, hm, ha, _, hr, rfl⟩
      cases hm with
      | u64 v =>
        cases ha with
        | uint64 cs hc => exact ⟨_, ⟨cs, t, hc, hr, rfl, by rw [List.length_cons, Nat.add_comm]⟩, rfl⟩
  | i32 =>
    rw [← inl (by simp)]
    simp only [readItem]
    rw [map_ok_iff, decode_i32_var]
    simp only [varDec_ok_iff (show 8 ≤ 32 by decide) std kInt32 4 _ _ _ (by decide)]
    constructor
    · rintro ⟨v, ⟨cs, t, hc, hr, rfl, rfl⟩, rfl⟩
      refine ⟨kInt32 :: cs, t, .i32 _, ?_, trivial, hr, by rw [List.length_cons, Nat.add_comm]⟩
      rw [unzig_eq]; exact .int32 cs hc
    · rintro ⟨p, t, hm, ha, _, hr, rfl⟩
      cases hm with
      | i32 v =>
        cases ha with
        | int32 cs hc =>
          exact ⟨_, ⟨cs, t, hc, hr, rfl, by rw [List.length_cons, Nat.add_comm]⟩, by rw [unzig_eq]⟩
  | i64 =>
    rw [← inl (by simp)]
    simp only [readItem]
    rw [map_ok_iff, decode_i64_var]
    simp only [varDec_ok_iff (show 8 ≤ 64 by decide) std kInt64 9 _ _ _ (by decide)]
    constructor
    · rintro ⟨v, ⟨cs, t, hc, hr, rfl, rfl⟩, rfl⟩
      refine ⟨kInt64 :: cs, t, .i64 _, ?_, trivial, hr, by rw [List.length_cons, Nat.add_comm]⟩
      rw [unzig_eq]; exact .int64 cs hc
    · rintro ⟨p, t, hm, ha, _, hr, rfl⟩
      cases hm with
      | i64 v =>
        cases ha with
        | int64 cs hc =>
          exact ⟨_, ⟨cs, t, hc, hr, rfl, by rw [List.length_cons, Nat.add_comm]⟩, by rw [unzig_eq]⟩
  | f32 =>
    rw [← inl (by simp)]
    simp only [readItem]
    rw [map_ok_iff]
    constructor
    · rintro ⟨n, h1, rfl⟩
      obtain ⟨p, t, ha, hr, hc⟩ := (decode_f32_ok_iff ..).mp h1
      exact ⟨p, t, .f32 _, ha, trivial, hr, hc⟩
    · rintro ⟨p, t, hm, ha, _, hr, hc⟩
      cases hm with
      | f32 v => exact ⟨v, (decode_f32_ok_iff ..).mpr ⟨p, t, ha, hr, hc⟩, rfl⟩
  | f64 =>
    rw [← inl (by simp)]
    simp only [readItem]
    rw [map_ok_iff]
    constructor
    · rintro ⟨n, h1, rfl⟩
      obtain ⟨p, t, ha, hr, hc⟩ := (decode_f64_ok_iff ..).mp h1
      exact ⟨p, t, .f64 _, ha, trivial, hr, hc⟩
    · rintro ⟨p, t, hm, ha, _, hr, hc⟩
      cases hm with
      | f64 v => exact ⟨v, (decode_f64_ok_iff ..).mpr ⟨p, t, ha, hr, hc⟩, rfl⟩

end Rust
