import Verif.Rust.Decode
import Verif.GoV1.EncodeFacts
import Verif.Spec.GrammarFacts

/-! # Proof machinery for the Rust codec -/

namespace Rust

open Spec DecodingError

section Monad
variable {ε α β : Type}

theorem bind_apply (x : Rs ε α) (f : α → Rs ε β) (c : Cursor) : (x >>= f) c =
    match x c with
    | (.ok a, c) => f a c
    | (.err e, c) => (.err e, c)
    | (.panic, c) => (.panic, c) := rfl

theorem bind_ok {x : Rs ε α} {c c1 : Cursor} {a : α} (h : x c = (.ok a, c1)) (f : α → Rs ε β) :
    (x >>= f) c = f a c1 := by rw [bind_apply, h]

theorem bind_err {x : Rs ε α} {c c1 : Cursor} {e : ε} (h : x c = (.err e, c1)) (f : α → Rs ε β) :
    (x >>= f) c = (.err e, c1) := by rw [bind_apply, h]

theorem pure_apply (a : α) (c : Cursor) : (pure a : Rs ε α) c = (.ok a, c) := rfl

end Monad

/-! ## Writing -/

theorem writeAt_writeAt (vec : Bytes) (pos : Nat) (xs ys : Bytes) :
    writeAt (writeAt vec pos xs) (pos + xs.length) ys = writeAt vec pos (xs ++ ys) := by
  have hl : (vec.take pos ++ List.replicate (pos - vec.length) (0 : Byte)).length = pos := by simp; omega
  have hpre : ∀ t, ((vec.take pos ++ List.replicate (pos - vec.length) (0 : Byte) ++ xs) ++ t).take (pos + xs.length) =
      vec.take pos ++ List.replicate (pos - vec.length) (0 : Byte) ++ xs := by
    intro t; apply List.take_left'; rw [List.length_append, hl]
  have hlen : ∀ t, pos + xs.length ≤
      ((vec.take pos ++ List.replicate (pos - vec.length) (0 : Byte) ++ xs) ++ t).length := by
    intro t; rw [List.length_append, List.length_append, hl]; omega
  have hd : ∀ t, ((vec.take pos ++ List.replicate (pos - vec.length) (0 : Byte) ++ xs) ++ t).drop (pos + xs.length + ys.length) =
      t.drop ys.length := by
    intro t
    rw [← List.drop_drop, List.drop_left']
    rw [List.length_append, hl]
  unfold writeAt
  rw [hpre, Nat.sub_eq_zero_of_le (hlen _), hd, List.drop_drop]
  simp [Nat.add_assoc]

/-- `x` writes `bs` and succeeds. -/
def Writes (x : Enc) (bs : Bytes) : Prop := ∀ c, x c = write_all bs c

theorem Writes.bind {x y : Enc} {xs ys : Bytes} (hx : Writes x xs) (hy : Writes y ys) :
    Writes (x >>= fun _ => y) (xs ++ ys) := by
  intro c
  rw [bind_apply, hx]
  simp only [write_all]
  rw [hy]
  simp only [write_all]
  by_cases h1 : xs = []
  · simp [h1]
  · by_cases h2 : ys = []
    · simp [h1, h2]
    · simp [h1, h2, writeAt_writeAt, Nat.add_assoc]

theorem write_u8_writes (b : Byte) : Writes (write_u8 b) [b] := fun _ => rfl

theorem CONTINUATION_setWidth {w : Nat} (hw : 8 ≤ w) : CONTINUATION.setWidth w = 0x80#w := by
  apply BitVec.eq_of_toNat_eq
  rw [toNat_0x80 hw, BitVec.toNat_setWidth, CONTINUATION]
  apply Nat.mod_eq_of_lt
  calc (128#8).toNat < 2 ^ 8 := by decide
    _ ≤ 2 ^ w := Nat.pow_le_pow_right (by decide) hw

theorem varintLoop_writes {w : Nat} (hw : 8 ≤ w) : ∀ (n : Nat) (v : BitVec w), v.toNat = n →
    Writes (varintLoop v hw) (leb128 v.toNat) := by
  intro n
  induction n using Nat.strongRecOn with
  | _ n ih =>
    intro v hn
    have hc : (v ≥ CONTINUATION.setWidth w) ↔ 128 ≤ v.toNat := by
      rw [ge_iff_le, BitVec.le_def, CONTINUATION_setWidth hw, toNat_0x80 hw]
    rw [varintLoop]
    split
    · rename_i hv
      have hv := hc.mp hv
      rw [leb128_big (by omega)]
      have h2 := ih (v >>> 7).toNat (by rw [toNat_shr7]; omega) (v >>> 7) rfl
      have := (write_u8_writes (v.setWidth 8 ||| CONTINUATION)).bind h2
      rw [show (CONTINUATION : Byte) = (GoV1.continuation : Byte) from rfl, GoV1.contByte' hw, toNat_shr7] at this
      rw [show (CONTINUATION : Byte) = (GoV1.continuation : Byte) from rfl, GoV1.contByte' hw]
      exact this
    · rename_i hv
      have hv : ¬ 128 ≤ v.toNat := fun c => hv (hc.mpr c)
      rw [leb128_small (by omega), ← setWidth8_small]
      exact write_u8_writes _

theorem encode_u32_writes (v : BitVec 32) : Writes (encode_u32 v) (size32 v.toNat) :=
  (write_u8_writes _).bind (varintLoop_writes (by decide) _ v rfl)

theorem be4_eq (v : BitVec 32) : be4 v = bigEndian 4 v.toNat := by
  simp only [be4, bigEndian, setWidth8_small]; simp [Nat.shiftRight_eq_div_pow]

theorem be8_eq (v : BitVec 64) : be8 v = bigEndian 8 v.toNat := by
  simp only [be8, bigEndian, setWidth8_small]; simp [Nat.shiftRight_eq_div_pow]

theorem kind_ofU8 {k : Byte} (h : k.toNat ≤ 16) : (Kind.ofU8 k).toU8 = k := by
  revert k; decide

/-- Items the Rust encoder can be asked to write: element kinds are `Kind`s. -/
def Item.KindsOk : Item → Prop
  | .map _ k v => k.toNat ≤ 16 ∧ v.toNat ≤ 16
  | .slice _ k => k.toNat ≤ 16
  | _ => True

instance : DecidablePred Item.KindsOk := fun i => by
  cases i <;> simp only [Item.KindsOk] <;> infer_instance

theorem encodeItem_writes (i : Item) (hk : Item.KindsOk i) (hf : i.Fits) : Writes (encodeItem i) (wire i) := by
  cases i with
  | nil => exact write_u8_writes _
  | map size k v =>
    simp only [encodeItem, encode_map, BitVec.ofNat_toNat, kind_ofU8 hk.1, kind_ofU8 hk.2]
    exact (write_u8_writes _).bind ((write_u8_writes _).bind ((write_u8_writes _).bind (encode_u32_writes _)))
  | slice size k =>
    simp only [encodeItem, encode_array, BitVec.ofNat_toNat, kind_ofU8 hk]
    exact (write_u8_writes _).bind ((write_u8_writes _).bind (encode_u32_writes _))
  | bytes v =>
    have := (write_u8_writes Kind.Bytes.toU8).bind ((encode_u32_writes (BitVec.ofNat 32 v.length)).bind (fun _ => rfl : Writes (write_all v) v))
    rw [GoV2.toNat_len32 hf] at this
    exact this
  | string v =>
    have := (write_u8_writes Kind.String.toU8).bind ((encode_u32_writes (BitVec.ofNat 32 v.length)).bind (fun _ => rfl : Writes (write_all v) v))
    rw [GoV2.toNat_len32 hf] at this
    exact this
  | error v =>
    have := (write_u8_writes Kind.Error.toU8).bind ((write_u8_writes Kind.String.toU8).bind
      ((encode_u32_writes (BitVec.ofNat 32 v.length)).bind (fun _ => rfl : Writes (write_all v) v)))
    rw [GoV2.toNat_len32 hf] at this
    exact this
  | bool v => exact (write_u8_writes _).bind (write_u8_writes _)
  | uint8 v => exact (write_u8_writes _).bind (write_u8_writes _)
  | uint16 v => exact (write_u8_writes _).bind (varintLoop_writes (by decide) _ v rfl)
  | uint32 v => exact encode_u32_writes v
  | uint64 v => exact (write_u8_writes _).bind (varintLoop_writes (by decide) _ v rfl)
  | int32 v =>
    have := (write_u8_writes Kind.I32.toU8).bind (varintLoop_writes (by decide) _ (if v.slt 0 then ~~~(v <<< 1) else v <<< 1) rfl)
    rw [zigzag_bits (w := 31)] at this
    exact this
  | int64 v =>
    have := (write_u8_writes Kind.I64.toU8).bind (varintLoop_writes (by decide) _ (if v.slt 0 then ~~~(v <<< 1) else v <<< 1) rfl)
    rw [zigzag_bits (w := 63)] at this
    exact this
  | float32 v =>
    have := (write_u8_writes Kind.F32.toU8).bind (fun _ => rfl : Writes (write_all (be4 v)) (be4 v))
    rw [be4_eq] at this; simp only [encodeItem, encode_f32, be4_eq]; exact this
  | float64 v =>
    have := (write_u8_writes Kind.F64.toU8).bind (fun _ => rfl : Writes (write_all (be8 v)) (be8 v))
    rw [be8_eq] at this; simp only [encodeItem, encode_f64, be8_eq]; exact this

theorem encodeItems_writes (is : List Item) (hk : ∀ i ∈ is, Item.KindsOk i) (hf : ∀ i ∈ is, i.Fits) :
    Writes (encodeItems is) (wireAll is) := by
  induction is with
  | nil => intro c; rfl
  | cons i is ih =>
    exact (encodeItem_writes i (hk i (by simp)) (hf i (by simp))).bind
      (ih (fun j h => hk j (by simp [h])) (fun j h => hf j (by simp [h])))

/-! ## Reading -/

@[simp] theorem adv_rest (c : Cursor) (n : Nat) : (c.adv n).rest = c.rest.drop n := by
  simp [Cursor.adv, Cursor.rest]

@[simp] theorem adv_adv (c : Cursor) (m n : Nat) : (c.adv m).adv n = c.adv (m + n) := by
  simp [Cursor.adv, Nat.add_assoc]

@[simp] theorem adv_zero (c : Cursor) : c.adv 0 = c := rfl

theorem adv_inj {c : Cursor} {m n : Nat} (h : c.adv m = c.adv n) : m = n := by
  simp [Cursor.adv] at h; exact h

/-- Where the cursor is after a byte-wise read ran into the end of the input. -/
def Cursor.atEnd (std : Std) (c : Cursor) : Cursor :=
  if std.eofMovesToEnd ∨ c.pos ≤ c.vec.length then { c with pos := c.vec.length } else c

theorem adv_atEnd (std : Std) {c : Cursor} {b : Byte} {t : Bytes} (h : c.rest = b :: t) :
    (c.adv 1).atEnd std = c.atEnd std := by
  have : c.pos < c.vec.length := by
    have h1 : 0 < c.rest.length := by rw [h]; simp
    simp only [Cursor.rest, List.length_drop] at h1; omega
  have h2 : c.pos + 1 ≤ c.vec.length := this
  have h3 : c.pos ≤ c.vec.length := by omega
  simp [Cursor.atEnd, Cursor.adv, h2, h3]

theorem read_u8_cons (std : Std) {c : Cursor} {b : Byte} {t : Bytes} (h : c.rest = b :: t) :
    read_u8 std c = (.ok b, c.adv 1) := by
  simp [read_u8, read_exact, h]

theorem read_u8_nil (std : Std) {c : Cursor} (h : c.rest = []) : read_u8 std c = (.err (), c.atEnd std) := by
  simp only [read_u8, read_exact, h, List.length_nil, Nat.le_zero_eq, Nat.one_ne_zero, if_false, Cursor.atEnd]
  have : c.vec.length ≤ c.pos := by simpa [Cursor.rest] using h
  cases hs : std.eofMovesToEnd
  · by_cases hp : c.pos ≤ c.vec.length
    · have : c.pos = c.vec.length := by omega
      simp [← this]
    · simp [hp]
  · simp

theorem read_u8_or_cons (std : Std) (e) {c : Cursor} {b : Byte} {t : Bytes} (h : c.rest = b :: t) :
    read_u8_or std e c = (.ok b, c.adv 1) := by
  simp [read_u8_or, Rs.ok_or, read_u8_cons std h]

theorem read_u8_or_nil (std : Std) (e) {c : Cursor} (h : c.rest = []) :
    read_u8_or std e c = (.err e, c.atEnd std) := by
  simp [read_u8_or, Rs.ok_or, read_u8_nil std h]

theorem byte_lt_cont (b : Byte) : b < CONTINUATION ↔ b.toNat < 128 := by
  rw [BitVec.lt_def]; rfl

theorem groups_spec {w : Nat} (hw : 8 ≤ w) (std : Std) (e : DecodingError) : ∀ (n acc s : Nat) (c : Cursor),
    acc < 2 ^ s → (∀ m, n = m + 1 → s + 7 * m < w) →
    groups std e n (BitVec.ofNat w acc) s c =
      match readVarint n c.rest with
      | .done v r => (.ok (some (BitVec.ofNat w (acc + v * 2 ^ s))), c.adv (c.rest.length - r.length))
      | .truncated => (.err e, c.atEnd std)
      | .tooLong => (.ok none, c.adv n) := by
  intro n
  induction n with
  | zero => intro acc s c _ _; rfl
  | succ n ih =>
    intro acc s c ha hs
    have hsw : s < w := by have := hs n rfl; omega
    rw [groups]
    cases h : c.rest with
    | nil =>
      rw [bind_err (read_u8_or_nil std e h)]
      rfl
    | cons b t =>
      rw [bind_ok (read_u8_or_cons std e h)]
      have hr1 : (c.adv 1).rest = t := by rw [adv_rest, h]; rfl
      simp only [readVarint]
      by_cases hb : b.toNat < 128
      · rw [if_pos ((byte_lt_cont b).mpr hb), if_pos hb]
        simp only [shl, hsw, if_true]
        show (Out.ok (some _), c.adv 1) = _
        rw [setWidth_ofNat8 hw, acc_or w acc b.toNat s ha]
        simp
      · rw [if_neg (fun hh => hb ((byte_lt_cont b).mp hh)), if_neg hb]
        simp only [shl, hsw, if_true]
        show groups std e n _ (s + 7) (c.adv 1) = _
        rw [CONTINUATION_setWidth hw, setWidth_and_0x7f hw, acc_or w acc _ s ha]
        have h128 : (2 : Nat) ^ (s + 7) = 128 * 2 ^ s := by rw [Nat.pow_add]; omega
        have hb2 : b.toNat % 128 < 128 := Nat.mod_lt _ (by decide)
        rw [ih]
        · rw [hr1]
          cases hv : readVarint n t with
          | done v r =>
            obtain ⟨p, hp, _⟩ := readVarint_done_suffix n t r v hv
            have hl : t.length = p.length + r.length := by rw [hp]; simp
            simp only [adv_adv, List.length_cons]
            rw [h128]
            congr 4
            · rw [Nat.add_mul, Nat.add_assoc]; congr 2
              rw [← Nat.mul_assoc, Nat.mul_comm v 128]
            · omega
          | truncated => simp only [adv_atEnd std h]
          | tooLong => simp only [adv_adv]; rw [Nat.add_comm]
        · rw [h128]
          have : b.toNat % 128 * 2 ^ s ≤ 127 * 2 ^ s := Nat.mul_le_mul_right _ (by omega)
          omega
        · intro m hm
          have := hs n rfl
          omega

/-- The common shape of the five integer readers. -/
def varDec {w : Nat} {α : Type} (std : Std) (k : Byte) (n : Nat) (e e2 : DecodingError) (f : BitVec w → α) : Dec α := do
  let kind ← read_u8_or std e
  if kind = k then
    if let some x ← groups std e n 0 0 then
      return f x
  back 1
  Rs.throw e2

theorem back_adv {ε : Type} (n : Nat) (c : Cursor) : (back n : Rs ε Unit) (c.adv n) = (.ok (), c) := by
  simp [back, Cursor.adv]

theorem back_adv' {ε : Type} (m n : Nat) (c : Cursor) : (back n : Rs ε Unit) (c.adv (m + n)) = (.ok (), c.adv m) := by
  rw [← adv_adv, back_adv]

theorem varDec_spec {w : Nat} {α : Type} (hw : 8 ≤ w) (std : Std) (k : Byte) (n : Nat) (e e2 : DecodingError)
    (f : BitVec w → α) (hn : 7 * n < w) (c : Cursor) :
    varDec std k (n + 1) e e2 f c =
      match c.rest with
      | [] => (.err e, c.atEnd std)
      | k' :: t =>
        if k' = k then
          match readVarint (n + 1) t with
          | .done v r => (.ok (f (BitVec.ofNat w v)), c.adv (1 + (t.length - r.length)))
          | .truncated => (.err e, c.atEnd std)
          | .tooLong => (.err e2, c.adv (n + 1))
        else (.err e2, c) := by
  unfold varDec
  cases h : c.rest with
  | nil => rw [bind_err (read_u8_or_nil std e h)]
  | cons k' t =>
    rw [bind_ok (read_u8_or_cons std e h)]
    simp only
    have hr1 : (c.adv 1).rest = t := by rw [adv_rest, h]; rfl
    by_cases hk : k' = k
    · rw [if_pos hk, if_pos hk, bind_apply]
      have := groups_spec hw std e (n + 1) 0 0 (c.adv 1) (by simp) (by intro m hm; omega)
      rw [show (0 : BitVec w) = BitVec.ofNat w 0 from rfl, this, hr1]
      cases hv : readVarint (n + 1) t with
      | done v r => simp [pure_apply, Nat.add_comm]
      | truncated => simp [adv_atEnd std h]
      | tooLong =>
        simp only [adv_adv]
        rw [Nat.add_comm 1 (n + 1), bind_ok (back_adv' (n + 1) 1 c)]; rfl
    · rw [if_neg hk, if_neg hk, bind_ok (back_adv 1 c)]; rfl

theorem decode_u16_var (std : Std) : decode_u16 std = varDec std kUint16 3 InvalidU16 InvalidU32 id := by
  unfold decode_u16 varDec
  congr 1; funext a
  by_cases h : a = Kind.U16.toU8
  · have h' : a = kUint16 := h
    rw [if_pos h, if_pos h']
    congr 1; funext o
    cases o <;> rfl
  · have h' : ¬ a = kUint16 := h
    rw [if_neg h, if_neg h']
theorem decode_u32_var (std : Std) : decode_u32 std = varDec std kUint32 5 InvalidU32 InvalidU32 id := by
  unfold decode_u32 varDec
  congr 1; funext a
  by_cases h : a = Kind.U32.toU8
  · have h' : a = kUint32 := h
    rw [if_pos h, if_pos h']
    congr 1; funext o
    cases o <;> rfl
  · have h' : ¬ a = kUint32 := h
    rw [if_neg h, if_neg h']
theorem decode_u64_var (std : Std) : decode_u64 std = varDec std kUint64 10 InvalidU64 InvalidU32 id := by
  unfold decode_u64 varDec
  congr 1; funext a
  by_cases h : a = Kind.U64.toU8
  · have h' : a = kUint64 := h
    rw [if_pos h, if_pos h']
    congr 1; funext o
    cases o <;> rfl
  · have h' : ¬ a = kUint64 := h
    rw [if_neg h, if_neg h']
theorem decode_i32_var (std : Std) : decode_i32 std = varDec std kInt32 5 InvalidI32 InvalidI32 unzig := by
  unfold decode_i32 varDec
  congr 1; funext a
  by_cases h : a = Kind.I32.toU8
  · have h' : a = kInt32 := h
    rw [if_pos h, if_pos h']
    congr 1; funext o
    cases o <;> rfl
  · have h' : ¬ a = kInt32 := h
    rw [if_neg h, if_neg h']
theorem decode_i64_var (std : Std) : decode_i64 std = varDec std kInt64 10 InvalidI64 InvalidI64 unzig := by
  unfold decode_i64 varDec
  congr 1; funext a
  by_cases h : a = Kind.I64.toU8
  · have h' : a = kInt64 := h
    rw [if_pos h, if_pos h']
    congr 1; funext o
    cases o <;> rfl
  · have h' : ¬ a = kInt64 := h
    rw [if_neg h, if_neg h']

/-! ## Success, failure and panics of `varDec` -/

theorem varDec_ok_iff {w : Nat} {α : Type} (hw : 8 ≤ w) (std : Std) (k : Byte) (n : Nat) (e e2 : DecodingError)
    (f : BitVec w → α) (hn : 7 * n < w) (c c' : Cursor) (a : α) :
    varDec std k (n + 1) e e2 f c = (.ok a, c') ↔
      ∃ cs t, Varint (n + 1) cs ∧ c.rest = k :: (cs ++ t) ∧ a = f (BitVec.ofNat w (groupSum cs)) ∧
        c' = c.adv (1 + cs.length) := by
  rw [varDec_spec hw std k n e e2 f hn c]
  constructor
  · intro h
    cases hr : c.rest with
    | nil => rw [hr] at h; simp at h
    | cons k' t =>
      rw [hr] at h
      simp only at h
      split at h
      · rename_i hk; subst hk
        cases hv : readVarint (n + 1) t with
        | done v r =>
          rw [hv] at h
          simp only [Prod.mk.injEq, Out.ok.injEq] at h
          obtain ⟨cs, h1, rfl, rfl⟩ := (readVarint_done_iff _ _ _ _).mp hv
          exact ⟨cs, r, h1, rfl, h.1.symm, by rw [← h.2]; simp⟩
        | truncated => rw [hv] at h; simp at h
        | tooLong => rw [hv] at h; simp at h
      · simp at h
  · rintro ⟨cs, t, h1, h2, rfl, rfl⟩
    rw [h2]
    simp only [if_true]
    rw [readVarint_varint h1]
    simp

theorem varDec_noPanic {w : Nat} {α : Type} (hw : 8 ≤ w) (std : Std) (k : Byte) (n : Nat) (e e2 : DecodingError)
    (f : BitVec w → α) (hn : 7 * n < w) (c : Cursor) : (varDec std k (n + 1) e e2 f c).1 ≠ .panic := by
  rw [varDec_spec hw std k n e e2 f hn c]
  split
  · simp
  · split
    · split <;> simp
    · simp

theorem varDec_mismatch {w : Nat} {α : Type} (hw : 8 ≤ w) (std : Std) (k : Byte) (n : Nat) (e e2 : DecodingError)
    (f : BitVec w → α) (hn : 7 * n < w) (c : Cursor) (b : Byte) (t : Bytes) (h : c.rest = b :: t) (hb : b ≠ k) :
    varDec std k (n + 1) e e2 f c = (.err e2, c) := by
  rw [varDec_spec hw std k n e e2 f hn c, h]
  simp [hb]

end Rust
