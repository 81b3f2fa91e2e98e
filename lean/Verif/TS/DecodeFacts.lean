import Verif.TS.Decode
import Verif.TS.EncodeFacts
import Verif.Spec.GrammarFacts

/-! # Facts about the TypeScript decoder -/

namespace TS

open Spec

/-- The unread bytes. -/
def Decoder.rest (d : Decoder) : Bytes := d.buf.contents.drop d.pos

/-- The decoder `n` bytes further on. -/
def Decoder.adv (d : Decoder) (n : Nat) : Decoder := { d with pos := d.pos + n }

@[simp] theorem adv_rest (d : Decoder) (n : Nat) : (d.adv n).rest = d.rest.drop n := by
  simp [Decoder.adv, Decoder.rest]

@[simp] theorem adv_adv (d : Decoder) (m n : Nat) : (d.adv m).adv n = d.adv (m + n) := by
  simp [Decoder.adv, Nat.add_assoc]

@[simp] theorem adv_zero (d : Decoder) : d.adv 0 = d := rfl

@[simp] theorem adv_buf (d : Decoder) (n : Nat) : (d.adv n).buf = d.buf := rfl

theorem get?_contents {v : View} (i : Nat) : v.get? i = v.contents[i]? := by
  unfold View.get? View.contents
  by_cases h : i < v.len
  · rw [if_pos h, List.getElem?_take, if_pos h, List.getElem?_drop]
  · rw [if_neg h, List.getElem?_take, if_neg h]

theorem peek_spec (d : Decoder) : peek d = (.ok d.rest.head?, d) := by
  simp only [peek, get?_contents, Decoder.rest]
  rw [List.head?_drop]

theorem pop_spec (d : Decoder) : pop d = (.ok d.rest.head?, d.adv 1) := by
  unfold pop
  rw [bind_ok (peek_spec d)]; rfl

theorem validateKind_spec (k : Byte) (err : JsError) (d : Decoder) :
    validateKind k err d = if d.rest.head? = some k then (.ok (), d.adv 1) else (.error err, d) := by
  unfold validateKind
  rw [bind_ok (peek_spec d)]
  by_cases h : d.rest.head? = some k
  · rw [if_pos h, if_pos h]; rfl
  · rw [if_neg h, if_neg h]; rfl

theorem validateKind_ok {k : Byte} {err : JsError} {d : Decoder} {t : Bytes} (h : d.rest = k :: t) :
    validateKind k err d = (.ok (), d.adv 1) := by
  rw [validateKind_spec, if_pos (by rw [h]; rfl)]

theorem validateKind_err {k : Byte} {err : JsError} {d : Decoder} (h : d.rest.head? ≠ some k) :
    validateKind k err d = (.error err, d) := by
  rw [validateKind_spec, if_neg h]

/-- The signed interpretation decoder.ts 174-177 gives to the number read. -/
def interp (signed : Bool) (n : Nat) : Int := if signed then unzigzag n else n

theorem varintRounds_spec (signed : Bool) : ∀ (n num shift : Nat) (d : Decoder),
    varintRounds signed n (num : Int) shift d =
      (match Spec.readVarint n d.rest with
       | .done v r => (.ok (interp signed (num + v * 2 ^ shift)), d.adv (d.rest.length - r.length))
       | _ => (.ok ((num + groupSum (d.rest.take n) * 2 ^ shift : Nat) : Int), d.adv n)) := by
  intro n
  induction n with
  | zero => intro num shift d; simp [varintRounds, Spec.readVarint, groupSum, pure_apply]
  | succ n ih =>
    intro num shift d
    unfold varintRounds
    rw [bind_ok (pop_spec d)]
    cases hr : d.rest with
    | nil =>
      simp only [List.head?_nil, Spec.readVarint, List.take_nil]
      rw [ih]
      have h1 : (d.adv 1).rest = [] := by rw [adv_rest, hr]; rfl
      rw [h1]
      cases n <;> simp [Spec.readVarint, groupSum, Nat.add_comm]
    | cons b t =>
      have h1 : (d.adv 1).rest = t := by rw [adv_rest, hr]; rfl
      simp only [List.head?_cons, Spec.readVarint]
      by_cases hb : b.toNat < 128
      · simp only [hb, if_true]
        have h2 : (num : Int) + (b.toNat : Int) * 2 ^ shift = ((num + b.toNat * 2 ^ shift : Nat) : Int) := by
          push_cast; rfl
        simp only [h2, List.length_cons, Nat.add_sub_cancel_left]
        cases signed
        · rfl
        · simp only [interp, if_true, pure_apply]
          congr 2
          unfold unzigzag
          generalize num + b.toNat * 2 ^ shift = m
          split <;> split <;> omega
      · simp only [hb, if_false]
        have h2 : (num : Int) + ((b.toNat % 128 : Nat) : Int) * 2 ^ shift = ((num + b.toNat % 128 * 2 ^ shift : Nat) : Int) := by
          push_cast; rfl
        rw [h2, ih, h1]
        have h3 : ∀ x, num + b.toNat % 128 * 2 ^ shift + x * 2 ^ (shift + 7) = num + (b.toNat % 128 + 128 * x) * 2 ^ shift := by
          intro x; rw [Nat.pow_add, show 2 ^ 7 = 128 from rfl, Nat.add_mul, Nat.add_assoc, Nat.mul_comm 128 x, Nat.mul_assoc x 128, Nat.mul_comm 128]
        cases hv : Spec.readVarint n t with
        | done v r =>
          simp only [h3, adv_adv]
          have hl : r.length < t.length := by
            obtain ⟨cs, hc, hp, _⟩ := (readVarint_done_iff ..).mp hv
            have := hc.length_pos
            rw [hp, List.length_append]; omega
          congr 2
          simp only [List.length_cons]; omega
        | truncated => simp only [h3, adv_adv, List.take_succ_cons, groupSum, Nat.add_comm]
        | tooLong => simp only [h3, adv_adv, List.take_succ_cons, groupSum, Nat.add_comm]

theorem readVarint_ok {n : Nat} {signed : Bool} {cs t : Bytes} (hc : Varint n cs) {d : Decoder} (hr : d.rest = cs ++ t) :
    readVarint n signed d = (.ok (interp signed (groupSum cs)), d.adv cs.length) := by
  have := varintRounds_spec signed n 0 0 d
  rw [hr, readVarint_varint hc t] at this
  simpa [readVarint] using this

/-- A varint without a last byte: no error, just a number. -/
theorem readVarint_unfinished {n : Nat} {signed : Bool} {d : Decoder}
    (hall : ∀ c ∈ d.rest.take n, 128 ≤ c.toNat) :
    readVarint n signed d = (.ok ((groupSum (d.rest.take n) : Nat) : Int), d.adv n) := by
  have := varintRounds_spec signed n 0 0 d
  have hv : ∀ v r, Spec.readVarint n d.rest ≠ .done v r := by
    intro v r hd
    obtain ⟨cs, ⟨init, last, rfl, hi, ha, hl⟩, hp, _⟩ := (readVarint_done_iff ..).mp hd
    have : last ∈ d.rest.take n := by
      rw [hp, List.append_assoc, List.take_append]
      simp only [List.mem_append]
      refine .inr ?_
      obtain ⟨k, hk⟩ : ∃ k, n - init.length = k + 1 := ⟨n - init.length - 1, by omega⟩
      rw [hk]; simp
    have := hall last this; omega
  cases hd : Spec.readVarint n d.rest with
  | done v r => exact absurd hd (hv v r)
  | truncated => rw [hd] at this; simpa [readVarint] using this
  | tooLong => rw [hd] at this; simpa [readVarint] using this

theorem decUint32_ok {cs t : Bytes} (hc : Varint 5 cs) {d : Decoder} (hr : d.rest = kUint32 :: (cs ++ t)) :
    decUint32 d = (.ok ((groupSum cs : Nat) : Int), d.adv (1 + cs.length)) := by
  unfold decUint32
  rw [bind_ok (validateKind_ok (k := Kind.Uint32) hr), readVarint_ok hc (t := t) (by rw [adv_rest, hr]; rfl), adv_adv]; rfl

theorem readView_ok {n : Nat} {p t : Bytes} {d : Decoder} (ho : d.buf.Ok) (hr : d.rest = p ++ t) (hn : p.length = n)
    (h0 : 0 < n) : readView n d = (.ok p, d) := by
  unfold readView dataView
  have hl := congrArg List.length hr
  have hc := View.contents_length ho
  unfold View.Ok at ho
  simp only [Decoder.rest, List.length_drop, List.length_append] at hl
  have hb : d.buf.off + d.pos + n ≤ d.buf.buffer.length := by omega
  have h2 : (d.buf.buffer.drop (d.buf.off + d.pos)).take n = p := by
    have h3 : d.rest = ((d.buf.buffer.drop (d.buf.off + d.pos)).take (d.buf.len - d.pos)) := by
      simp only [Decoder.rest, View.contents]; rw [List.drop_take, List.drop_drop]
    have h4 : d.rest.take n = p := by rw [hr, ← hn, List.take_left]
    rw [h3, List.take_take] at h4
    rw [← h4]; congr 1; omega
  rw [if_pos hb, h2]

theorem sliceAhead_spec (size : Int) (d : Decoder) : sliceAhead size d = (.ok (d.rest.take size.toNat), d) := by
  simp only [sliceAhead, View.slice, Decoder.rest]
  rw [List.drop_take, Nat.add_sub_cancel_left]

/-! ## Reading a canonical encoding -/

/-- The call that reads an item, and what it should return. -/
inductive Reads : Req → Item → Val → Prop
  | null : Reads .null .nil (.bool true)
  | array (size k) : Reads (.array k) (.slice size k) (.num size.toNat)
  | map (size k v) : Reads (.map k v) (.map size k v) (.num size.toNat)
  | bytes (v) : Reads .uint8Array (.bytes v) (.bytes v)
  | string (v) : Reads .string (.string v) (.string v)
  | error (m) : Reads .error (.error m) (.error m)
  | bool (v) : Reads .boolean (.bool v) (.bool v)
  | uint8 (v) : Reads .uint8 (.uint8 v) (.num v.toNat)
  | uint16 (v) : Reads .uint16 (.uint16 v) (.num v.toNat)
  | uint32 (v) : Reads .uint32 (.uint32 v) (.num v.toNat)
  | uint64 (v) : Reads .uint64 (.uint64 v) (.num v.toNat)
  | int32 (v) : Reads .int32 (.int32 v) (.num v.toInt)
  | int64 (v) : Reads .int64 (.int64 v) (.num v.toInt)
  | float32 (v) : Reads .float32 (.float32 v) (.float32 v)
  | float64 (v) : Reads .float64 (.float64 v) (.float64 v)

/-- Texts that survive `TextDecoder`: well-formed UTF-8 without a leading byte order mark. -/
def PlainText (v : Bytes) : Prop := utf8 v = true ∧ ¬ [0xEF, 0xBB, 0xBF] <+: v

/-- Items the TypeScript decoder gets right. -/
def Readable : Item → Prop
  | .string v => PlainText v
  | .error m => PlainText m
  | .uint16 v => v.toNat < 16384 ∨ v.toNat / 128 % 128 = 1
  | _ => True

theorem map_ok {α β : Type} {x : D α} {f : α → β} {d d' : Decoder} {a : α} (h : x d = (.ok a, d')) :
    (x >>= fun a => (pure (f a) : D β)) d = (.ok (f a), d') := bind_ok h _

theorem textDecode_plain (js : Platform) {v : Bytes} (h : PlainText v) : js.textDecode v = v := by
  rw [js.valid v h.1, if_neg h.2]

theorem wireSize {n : Nat} (hn : n < 2 ^ 32) : Varint 5 (leb128 n) ∧ groupSum (leb128 n) = n :=
  varint_leb128 4 n (Nat.lt_of_lt_of_le hn (by decide))

/-- The size field and the payload, as read by `uint8Array`, `string` and `error`. -/
theorem payload_ok {α : Type} (f : Bytes → α) {v t : Bytes} (hv : v.length < 2 ^ 32) {d : Decoder}
    (hr : d.rest = size32 v.length ++ (v ++ t)) :
    (do let size ← decUint32; let value ← sliceAhead size; skip size.toNat; return f value : D α) d =
      (.ok (f v), d.adv (size32 v.length ++ v).length) := by
  obtain ⟨hc, hg⟩ := wireSize hv
  have h1 : decUint32 d = (.ok ((v.length : Nat) : Int), d.adv (1 + (leb128 v.length).length)) := by
    have := decUint32_ok hc (d := d) (t := v ++ t) (by rw [hr]; rfl)
    rwa [hg] at this
  rw [bind_ok h1, bind_ok (sliceAhead_spec _ _)]
  have h2 : (d.adv (1 + (leb128 v.length).length)).rest = v ++ t := by
    rw [adv_rest, hr, size32, Nat.add_comm, List.cons_append, List.drop_succ_cons, List.drop_left]
  rw [h2, Int.toNat_natCast, List.take_left]
  show (Except.ok (f v), (d.adv _).adv _) = _
  rw [adv_adv]
  congr 2
  simp [size32]; omega

theorem uint16_1 {b : Byte} {t : Bytes} {d : Decoder} (hr : d.rest = b :: t) (hb : b.toNat < 128) :
    uint16Rounds 3 0 0 d = (.ok ((b.toNat : Nat) : Int), d.adv 1) := by
  unfold uint16Rounds
  rw [bind_ok (pop_spec d), hr]
  simp [hb, pure_apply]

theorem uint16_step {n num shift : Nat} {b : Byte} {t : Bytes} {d : Decoder} (hr : d.rest = b :: t) (hb : 128 ≤ b.toNat) :
    uint16Rounds (n + 1) num shift d = uint16Rounds n (num ||| (b.toNat &&& (127 <<< shift))) (shift + 7) (d.adv 1) := by
  rw [uint16Rounds, bind_ok (pop_spec d), hr]
  simp only [List.head?_cons]
  rw [if_neg (by omega)]

theorem uint16_last {n num shift : Nat} {b : Byte} {t : Bytes} {d : Decoder} (hr : d.rest = b :: t) (hb : b.toNat < 128) :
    uint16Rounds (n + 1) num shift d = (.ok ((num ||| (b.toNat <<< shift) : Nat) : Int), d.adv 1) := by
  rw [uint16Rounds, bind_ok (pop_spec d), hr]
  simp only [List.head?_cons]
  rw [if_pos hb]; rfl

/-- What the TypeScript decoder makes of the 16-bit value `v`: from 16384 on the middle seven bits are
replaced by 1. -/
def uint16Result (v : Nat) : Nat := if v < 16384 then v else v % 128 + 128 + v / 16384 * 16384

theorem or_shift (a b k : Nat) (ha : a < 2 ^ k) : a ||| b <<< k = a + b * 2 ^ k := by
  rw [Nat.or_comm, Nat.shiftLeft_eq, Nat.mul_comm b, ← Nat.two_pow_add_eq_or_of_lt ha, Nat.add_comm]

theorem and_127 (n : Nat) : n &&& 127 = n % 128 := Nat.and_two_pow_sub_one_eq_mod n 7

theorem decUint16_wire {v : BitVec 16} {t : Bytes} {d : Decoder} (hr : d.rest = wire (.uint16 v) ++ t) :
    decUint16 d = (.ok ((uint16Result v.toNat : Nat) : Int), d.adv (wire (.uint16 v)).length) := by
  unfold decUint16
  have hr' : d.rest = Kind.Uint16 :: (leb128 v.toNat ++ t) := hr
  rw [bind_ok (validateKind_ok hr')]
  have h1 : (d.adv 1).rest = leb128 v.toNat ++ t := by rw [adv_rest, hr']; rfl
  have hlt := v.isLt
  simp only [wire]
  generalize v.toNat = n at h1 hlt ⊢
  by_cases ha : n < 128
  · rw [leb128, if_pos ha] at h1 ⊢
    rw [uint16_last h1 (by simp; omega), adv_adv]
    have : BitVec.toNat (BitVec.ofNat 8 n) = n := by simp; omega
    simp [uint16Result, this, show n < 16384 by omega]
  · rw [leb128, if_neg ha] at h1 ⊢
    have hb0 : (BitVec.ofNat 8 (128 + n % 128)).toNat = 128 + n % 128 := by simp; omega
    rw [List.cons_append] at h1
    rw [uint16_step h1 (by omega), hb0]
    have h2 : (d.adv 1 |>.adv 1).rest = leb128 (n / 128) ++ t := by rw [adv_rest, h1]; rfl
    have hx : (0 : Nat) ||| (128 + n % 128 &&& 127 <<< 0) = n % 128 := by
      rw [Nat.zero_or, Nat.shiftLeft_zero, and_127]; omega
    rw [hx]
    by_cases hb : n < 16384
    · rw [leb128, if_pos (by omega)] at h2 ⊢
      have hb1 : (BitVec.ofNat 8 (n / 128)).toNat = n / 128 := by simp; omega
      rw [uint16_last h2 (by omega), hb1, or_shift _ _ _ (by omega), adv_adv, adv_adv]
      have : n % 128 + n / 128 * 2 ^ (0 + 7) = uint16Result n := by
        rw [uint16Result, if_pos hb]; omega
      rw [this]; rfl
    · rw [leb128, if_neg (by omega)] at h2 ⊢
      have hb1 : (BitVec.ofNat 8 (128 + n / 128 % 128)).toNat = 128 + n / 128 % 128 := by simp; omega
      rw [List.cons_append] at h2
      rw [uint16_step h2 (by omega), hb1]
      have h3 : (((d.adv 1).adv 1).adv 1).rest = leb128 (n / 128 / 128) ++ t := by rw [adv_rest, h2]; rfl
      rw [leb128, if_pos (by omega)] at h3 ⊢
      have hb2 : (BitVec.ofNat 8 (n / 128 / 128)).toNat = n / 128 / 128 := by simp; omega
      have hy : n % 128 ||| (128 + n / 128 % 128 &&& 127 <<< (0 + 7)) = n % 128 + 128 := by
        have hz : 128 + n / 128 % 128 &&& 127 <<< (0 + 7) = 1 <<< 7 := by
          have : ∀ x < 128, 128 + x &&& 127 <<< (0 + 7) = 1 <<< 7 := by decide
          exact this _ (by omega)
        rw [hz, or_shift _ _ _ (by omega)]
      rw [uint16_last h3 (by omega), hy, hb2, or_shift _ _ _ (by omega), adv_adv, adv_adv, adv_adv]
      have : n % 128 + 128 + n / 128 / 128 * 2 ^ (0 + 7 + 7) = uint16Result n := by
        rw [uint16Result, if_neg hb]; omega
      rw [this]; rfl

theorem uint16Result_iff (v : BitVec 16) : uint16Result v.toNat = v.toNat ↔ v.toNat < 16384 ∨ v.toNat / 128 % 128 = 1 := by
  unfold uint16Result; split <;> omega

theorem read_wire (js : Platform) {q : Req} {i : Item} {x : Val} (hm : Reads q i x) (hf : i.Fits) (hx : Readable i)
    {d : Decoder} (ho : d.buf.Ok) {t : Bytes} (hr : d.rest = wire i ++ t) :
    read js q d = (.ok x, d.adv (wire i).length) := by
  have tail : ∀ {k : Byte} {ys : Bytes}, d.rest = k :: ys → (d.adv 1).rest = ys := fun h => by rw [adv_rest, h]; rfl
  have vint : ∀ {k : Byte} {err : JsError} {n v : Nat} {signed : Bool} {m : Nat}, n = m + 1 → v < 128 ^ (m + 1) →
      d.rest = k :: (leb128 v ++ t) →
      (do validateKind k err; readVarint n signed : D Int) d = (.ok (interp signed v), d.adv (k :: leb128 v).length) := by
    intro k err n v signed m hn hv h
    subst hn
    obtain ⟨hc, hg⟩ := varint_leb128 m v hv
    rw [bind_ok (validateKind_ok h), readVarint_ok hc (tail h), hg, adv_adv, List.length_cons, Nat.add_comm]
  cases hm with
  | null =>
    refine map_ok ?_
    unfold decNull
    rw [bind_ok (peek_spec d), hr]
    rfl
  | array size k =>
    refine map_ok ?_
    unfold decArray
    have h1 : d.rest = Kind.Array :: (k :: (size32 size.toNat ++ t)) := hr
    have h2 := tail h1
    have h3 : ((d.adv 1).adv 1).rest = kUint32 :: (leb128 size.toNat ++ t) := by rw [adv_rest, h2]; rfl
    obtain ⟨hc, hg⟩ := wireSize size.isLt
    rw [bind_ok (validateKind_ok h1), bind_ok (validateKind_ok h2), decUint32_ok hc h3, hg, adv_adv, adv_adv]
    congr 2; simp [wire, size32]; omega
  | map size k v =>
    refine map_ok ?_
    unfold decMap
    have h1 : d.rest = Kind.Map :: (k :: v :: (size32 size.toNat ++ t)) := hr
    have h2 := tail h1
    have h3 : ((d.adv 1).adv 1).rest = v :: (size32 size.toNat ++ t) := by rw [adv_rest, h2]; rfl
    have h4 : (((d.adv 1).adv 1).adv 1).rest = kUint32 :: (leb128 size.toNat ++ t) := by rw [adv_rest, h3]; rfl
    obtain ⟨hc, hg⟩ := wireSize size.isLt
    rw [bind_ok (validateKind_ok h1), bind_ok (validateKind_ok h2), bind_ok (validateKind_ok h3), decUint32_ok hc h4, hg,
      adv_adv, adv_adv, adv_adv]
    congr 2; simp [wire, size32]; omega
  | bytes v =>
    refine map_ok ?_
    unfold decUint8Array
    have h1 : d.rest = Kind.Uint8Array :: (size32 v.length ++ (v ++ t)) := by rw [hr]; simp [wire]; rfl
    rw [bind_ok (validateKind_ok h1), payload_ok (fun x => x) hf (tail h1), adv_adv]
    congr 2; simp [wire]; omega
  | string v =>
    refine map_ok ?_
    unfold decString
    have h1 : d.rest = Kind.String :: (size32 v.length ++ (v ++ t)) := by rw [hr]; simp [wire]; rfl
    rw [bind_ok (validateKind_ok h1), payload_ok (fun x => js.textDecode x) hf (tail h1), adv_adv, textDecode_plain js hx]
    congr 2; simp [wire]; omega
  | error v =>
    refine map_ok ?_
    unfold decError
    have h1 : d.rest = Kind.Error :: Kind.String :: (size32 v.length ++ (v ++ t)) := by rw [hr]; simp [wire]; exact ⟨rfl, rfl⟩
    have h2 := tail h1
    have h3 : ((d.adv 1).adv 1).rest = size32 v.length ++ (v ++ t) := by rw [adv_rest, h2]; rfl
    rw [bind_ok (validateKind_ok h1), bind_ok (pop_spec _), h2]
    rw [if_neg (by simp)]
    show (do let size ← decUint32; let value ← sliceAhead size; skip size.toNat; return js.textDecode value : D Bytes) _ = _
    rw [payload_ok (fun x => js.textDecode x) hf h3, adv_adv, adv_adv, textDecode_plain js hx]
    congr 2; simp [wire]; omega
  | bool v =>
    refine map_ok ?_
    unfold decBoolean
    have h1 : d.rest = Kind.Boolean :: ((if v then 1 else 0) :: t) := hr
    rw [bind_ok (validateKind_ok h1), bind_ok (pop_spec _), tail h1, pure_apply, adv_adv]
    cases v <;> rfl
  | uint8 v =>
    refine map_ok (f := Val.num) (a := (v.toNat : Int)) ?_
    unfold decUint8
    have h1 : d.rest = Kind.Uint8 :: ([v] ++ t) := hr
    rw [bind_ok (validateKind_ok h1), bind_ok (readView_ok (d := d.adv 1) (p := [v]) (t := t) (n := 1) ho (tail h1) rfl (by decide))]
    rfl
  | uint16 v =>
    refine map_ok ?_
    rw [decUint16_wire hr, (uint16Result_iff v).mpr hx]
  | uint32 v => exact map_ok (vint (m := 4) rfl (Nat.lt_of_lt_of_le v.isLt (by decide)) hr)
  | uint64 v => exact map_ok (vint (m := 9) rfl (Nat.lt_of_lt_of_le v.isLt (by decide)) hr)
  | int32 v =>
    have h := vint (k := kInt32) (err := .InvalidInt32) (signed := true) (m := 4) rfl
      (Nat.lt_of_lt_of_le (zigzag_lt32 v) (by decide)) hr
    have hz : interp true (zigzag v.toInt) = v.toInt := by simp only [interp, if_true, unzigzag, zigzag]; split <;> split <;> omega
    rw [hz] at h; exact map_ok h
  | int64 v =>
    have hl : zigzag v.toInt < 2 ^ 64 := by
      have h1 := BitVec.toInt_lt (x := v); have h2 := BitVec.le_toInt (x := v)
      unfold zigzag; split <;> omega
    have h := vint (k := kInt64) (err := .InvalidInt64) (signed := true) (m := 9) rfl
      (Nat.lt_of_lt_of_le hl (by decide)) hr
    have hz : interp true (zigzag v.toInt) = v.toInt := by simp only [interp, if_true, unzigzag, zigzag]; split <;> split <;> omega
    rw [hz] at h; exact map_ok h
  | float32 v =>
    refine map_ok ?_
    unfold decFloat32
    have h1 : d.rest = Kind.Float32 :: (bigEndian 4 v.toNat ++ t) := hr
    rw [bind_ok (validateKind_ok h1), bind_ok (readView_ok (d := d.adv 1) ho (tail h1) (bigEndian_length 4 _) (by decide))]
    show (Except.ok (BitVec.ofNat 32 (fromBigEndian (bigEndian 4 v.toNat))), (d.adv 1).adv 4) = _
    rw [fromBigEndian_bigEndian, adv_adv]
    have hv : BitVec.ofNat 32 (v.toNat % 256 ^ 4) = v := by
      rw [show 256 ^ 4 = 2 ^ 32 from rfl, Nat.mod_eq_of_lt v.isLt, BitVec.ofNat_toNat, BitVec.setWidth_eq]
    rw [hv]
    simp [wire]
  | float64 v =>
    refine map_ok ?_
    unfold decFloat64
    have h1 : d.rest = Kind.Float64 :: (bigEndian 8 v.toNat ++ t) := hr
    rw [bind_ok (validateKind_ok h1), bind_ok (readView_ok (d := d.adv 1) ho (tail h1) (bigEndian_length 8 _) (by decide))]
    show (Except.ok (BitVec.ofNat 64 (fromBigEndian (bigEndian 8 v.toNat))), (d.adv 1).adv 8) = _
    rw [fromBigEndian_bigEndian, adv_adv]
    have hv : BitVec.ofNat 64 (v.toNat % 256 ^ 8) = v := by
      rw [show 256 ^ 8 = 2 ^ 64 from rfl, Nat.mod_eq_of_lt v.isLt, BitVec.ofNat_toNat, BitVec.setWidth_eq]
    rw [hv]
    simp [wire]

end TS
