import Verif.GoV2.ApiFacts
import Verif.Spec.GrammarFacts

/-! # Exact characterisation of the v2 decoder methods: success, failure, panic -/

namespace GoV2

open Spec

/-! ## The generic varint reader -/

theorem tagged_iff (k : Byte) (b : Bytes) : Tagged k b ↔ ∃ cs, b = k :: cs ∧ cs ≠ [] := by
  unfold Tagged
  match b with
  | [] => simp
  | [c] => simp
  | c :: d :: r =>
    constructor
    · rintro ⟨_, h⟩; simp at h; exact ⟨d :: r, by rw [h], by simp⟩
    · rintro ⟨cs, h, _⟩; simp at h; simp [h.1]

/-- What all varint readers look like. -/
def varRead {α : Type} (k : Byte) (n : Nat) (f : Nat → α) (bad : Bytes × α × Option Err) (b : Bytes) :
    Go (Bytes × α × Option Err) :=
  if Tagged k b then
    match readVarint n b.tail with
    | .done v rest => .ok (rest, f v, none)
    | .truncated => .panic
    | .tooLong => .ok bad
  else .ok bad

theorem varRead_ok_iff {α : Type} (k : Byte) (n : Nat) (f : Nat → α) (b b0 r : Bytes) (z v : α) (e : Err) :
    varRead k n f (b0, z, some e) b = .ok (r, v, none) ↔
      ∃ cs, Varint n cs ∧ b = k :: cs ++ r ∧ v = f (groupSum cs) := by
  unfold varRead
  constructor
  · intro h
    split at h
    case isFalse => simp at h
    case isTrue ht =>
      obtain ⟨cs, rfl, hne⟩ := (tagged_iff _ _).mp ht
      simp only [List.tail_cons] at h
      split at h
      case h_2 => simp at h
      case h_3 => simp at h
      case h_1 w rest hr =>
        obtain ⟨ds, hd, he, hv⟩ := (readVarint_done_iff _ _ _ _).mp hr
        subst hv
        simp only [Go.ok.injEq, Prod.mk.injEq, and_true] at h
        obtain ⟨rfl, rfl⟩ := h
        exact ⟨ds, hd, by simp [he], rfl⟩
  · rintro ⟨cs, hc, rfl, rfl⟩
    have ht : Tagged k (k :: cs ++ r) := (tagged_iff _ _).mpr ⟨cs ++ r, by simp, by simp [hc.ne_nil]⟩
    rw [if_pos ht]
    simp only [List.cons_append, List.tail_cons, readVarint_varint hc]

theorem varRead_panic_iff {α : Type} (k : Byte) (n : Nat) (f : Nat → α) (bad) (b : Bytes) :
    varRead k n f bad b = .panic ↔ ∃ cs, b = k :: cs ∧ Cut n cs := by
  unfold varRead
  constructor
  · intro h
    split at h
    case isFalse => simp at h
    case isTrue ht =>
      obtain ⟨cs, rfl, hne⟩ := (tagged_iff _ _).mp ht
      simp only [List.tail_cons] at h
      split at h
      case h_1 => simp at h
      case h_3 => simp at h
      case h_2 hr => exact ⟨cs, rfl, (readVarint_truncated _ _ hne).mp hr⟩
  · rintro ⟨cs, rfl, hc⟩
    have ht : Tagged k (k :: cs) := (tagged_iff _ _).mpr ⟨cs, rfl, hc.1⟩
    rw [if_pos ht, List.tail_cons, (readVarint_truncated _ _ hc.1).mpr hc]

theorem varRead_err_iff {α : Type} (k : Byte) (n : Nat) (f : Nat → α) (b b0 r : Bytes) (z v : α) (e e' : Err) :
    varRead k n f (b0, z, some e) b = .ok (r, v, some e') ↔
      (r = b0 ∧ v = z ∧ e' = e) ∧ (b.head? ≠ some k ∨ b = [k] ∨ ∃ cs, b = k :: cs ∧ Long n cs ∧ cs ≠ []) := by
  unfold varRead
  split
  case isFalse ht =>
    simp only [Go.ok.injEq, Prod.mk.injEq, Option.some.injEq]
    have : b.head? ≠ some k ∨ b = [k] := by
      unfold Tagged at ht
      match b with
      | [] => simp
      | [c] => by_cases h : c = k <;> simp [h]
      | c :: d :: s => simp at ht; simp [ht]
    constructor
    · rintro ⟨rfl, rfl, rfl⟩
      refine ⟨⟨rfl, rfl, rfl⟩, ?_⟩
      rcases this with h | h
      · exact .inl h
      · exact .inr (.inl h)
    · rintro ⟨⟨rfl, rfl, rfl⟩, _⟩; exact ⟨rfl, rfl, rfl⟩
  case isTrue ht =>
    obtain ⟨cs, rfl, hne⟩ := (tagged_iff _ _).mp ht
    simp only [List.tail_cons, List.head?_cons, not_true_eq_false, false_or, ne_eq, List.cons.injEq, true_and,
      hne]
    split
    case h_1 hr =>
      simp only [Go.ok.injEq, Prod.mk.injEq, reduceCtorEq, and_false, false_iff, not_and]
      rintro _ ⟨ds, rfl, h, _⟩
      rw [(readVarint_tooLong _ _).mpr h] at hr
      simp at hr
    case h_2 hr =>
      simp only [reduceCtorEq, false_iff, not_and]
      rintro _ ⟨ds, rfl, h, _⟩
      rw [(readVarint_tooLong _ _).mpr h] at hr
      simp at hr
    case h_3 hr =>
      have := (readVarint_tooLong _ _).mp hr
      simp only [Go.ok.injEq, Prod.mk.injEq, Option.some.injEq]
      constructor
      · rintro ⟨rfl, rfl, rfl⟩; exact ⟨⟨rfl, rfl, rfl⟩, cs, rfl, this, hne⟩
      · rintro ⟨⟨rfl, rfl, rfl⟩, _⟩; exact ⟨rfl, rfl, rfl⟩

theorem decodeUint16_var (b : Bytes) :
    decodeUint16 b = varRead kUint16 3 (BitVec.ofNat 16) (b, 0, some .InvalidUint16) b := decodeUint16_spec b
theorem decodeUint32_var (b : Bytes) :
    decodeUint32 b = varRead kUint32 5 (BitVec.ofNat 32) (b, 0, some .InvalidUint32) b := decodeUint32_spec b
theorem decodeUint64_var (b : Bytes) :
    decodeUint64 b = varRead kUint64 10 (BitVec.ofNat 64) (b, 0, some .InvalidUint64) b := decodeUint64_spec b
theorem decodeInt32_var (b : Bytes) : decodeInt32 b =
    varRead kInt32 5 (fun v => BitVec.ofInt 32 (unzigzag (v % 2 ^ 32))) (b, 0, some .InvalidInt32) b :=
  decodeInt32_spec b
theorem decodeInt64_var (b : Bytes) : decodeInt64 b =
    varRead kInt64 10 (fun v => BitVec.ofInt 64 (unzigzag (v % 2 ^ 64))) (b, 0, some .InvalidInt64) b :=
  decodeInt64_spec b

theorem decodeUint32_ok_iff (b r : Bytes) (v : BitVec 32) :
    decodeUint32 b = .ok (r, v, none) ↔
      ∃ cs, Varint 5 cs ∧ b = kUint32 :: cs ++ r ∧ v = BitVec.ofNat 32 (groupSum cs) := by
  rw [decodeUint32_var, varRead_ok_iff]

theorem decodeUint32_panic_iff (b : Bytes) :
    decodeUint32 b = .panic ↔ ∃ cs, b = kUint32 :: cs ∧ Cut 5 cs := by
  rw [decodeUint32_var, varRead_panic_iff]

theorem decodeUint32_err {b r : Bytes} {v : BitVec 32} {e : Err} (h : decodeUint32 b = .ok (r, v, some e)) :
    r = b ∧ v = 0 ∧ e = .InvalidUint32 := by
  rw [decodeUint32_var, varRead_err_iff] at h; exact h.1

/-! ## Bind helpers -/

theorem bind_eq_ok {α β : Type} {x : Go α} {f : α → Go β} {y : β} :
    (x >>= f) = .ok y ↔ ∃ a, x = .ok a ∧ f a = .ok y := by
  cases x <;> simp

theorem bind_eq_panic {α β : Type} {x : Go α} {f : α → Go β} :
    (x >>= f) = .panic ↔ x = .panic ∨ ∃ a, x = .ok a ∧ f a = .panic := by
  cases x <;> simp

/-! ## Success -/

theorem decodeMap_ok_iff (b r : Bytes) (k v : Byte) (size : BitVec 32) :
    decodeMap b k v = .ok (r, size, none) ↔
      ∃ cs, Varint 5 cs ∧ b = kMap :: k :: v :: kUint32 :: cs ++ r ∧ size = BitVec.ofNat 32 (groupSum cs) := by
  rw [decodeMap_spec]
  constructor
  · intro h
    split at h
    case h_2 => simp at h
    case h_1 m k' v' c rr =>
      split at h
      case isFalse => simp at h
      case isTrue hk =>
        obtain ⟨rfl, rfl, rfl⟩ := hk
        obtain ⟨⟨r', s', e'⟩, h1, h2⟩ := bind_eq_ok.mp h
        simp only at h2
        split at h2
        · simp at h2
        · rename_i he
          simp only [ne_eq, Decidable.not_not] at he; subst he
          simp only [Go.pure_eq, Go.ok.injEq, Prod.mk.injEq, and_true] at h2
          obtain ⟨rfl, rfl⟩ := h2
          obtain ⟨cs, hc, he, hv⟩ := (decodeUint32_ok_iff _ _ _).mp h1
          exact ⟨cs, hc, by rw [he]; rfl, hv⟩
  · rintro ⟨cs, hc, rfl, rfl⟩
    have h1 := (decodeUint32_ok_iff (kUint32 :: cs ++ r) r _).mpr ⟨cs, hc, rfl, rfl⟩
    simp only [List.cons_append, and_self, if_true] at h1 ⊢
    rw [h1]; rfl

theorem decodeSlice_ok_iff (b r : Bytes) (k : Byte) (size : BitVec 32) :
    decodeSlice b k = .ok (r, size, none) ↔
      ∃ cs, Varint 5 cs ∧ b = kSlice :: k :: kUint32 :: cs ++ r ∧ size = BitVec.ofNat 32 (groupSum cs) := by
  rw [decodeSlice_spec]
  constructor
  · intro h
    split at h
    case h_2 => simp at h
    case h_1 m k' c rr =>
      split at h
      case isFalse => simp at h
      case isTrue hk =>
        obtain ⟨rfl, rfl⟩ := hk
        obtain ⟨⟨r', s', e'⟩, h1, h2⟩ := bind_eq_ok.mp h
        simp only at h2
        split at h2
        · simp at h2
        · rename_i he
          simp only [ne_eq, Decidable.not_not] at he; subst he
          simp only [Go.pure_eq, Go.ok.injEq, Prod.mk.injEq, and_true] at h2
          obtain ⟨rfl, rfl⟩ := h2
          obtain ⟨cs, hc, he, hv⟩ := (decodeUint32_ok_iff _ _ _).mp h1
          exact ⟨cs, hc, by rw [he]; rfl, hv⟩
  · rintro ⟨cs, hc, rfl, rfl⟩
    have h1 := (decodeUint32_ok_iff (kUint32 :: cs ++ r) r _).mpr ⟨cs, hc, rfl, rfl⟩
    simp only [List.cons_append, and_self, if_true] at h1 ⊢
    rw [h1]; rfl

theorem decodeString_ok_iff (b r v : Bytes) :
    decodeString b = .ok (r, v, none) ↔
      ∃ cs, Varint 5 cs ∧ v.length = groupSum cs % 2 ^ 32 ∧ b = kString :: kUint32 :: (cs ++ v) ++ r := by
  rw [decodeString_spec]
  constructor
  · intro h
    split at h
    case isFalse => simp at h
    case isTrue ht =>
      obtain ⟨ds, rfl, hne⟩ := (tagged_iff _ _).mp ht
      obtain ⟨⟨r', s', e'⟩, h1, h2⟩ := bind_eq_ok.mp h
      simp only at h2
      split at h2
      · simp at h2
      · rename_i he
        simp only [ne_eq, Decidable.not_not] at he; subst he
        split at h2
        · rename_i hl
          simp only [Go.pure_eq, Go.ok.injEq, Prod.mk.injEq, and_true] at h2
          obtain ⟨rfl, rfl⟩ := h2
          obtain ⟨cs, hc, he, hv⟩ := (decodeUint32_ok_iff _ _ _).mp h1
          rw [List.tail_cons] at he
          refine ⟨cs, hc, ?_, ?_⟩
          · rw [List.length_take, hv, BitVec.toNat_ofNat]
            rw [hv, BitVec.toNat_ofNat] at hl; omega
          · simp [he]
        · simp at h2
  · rintro ⟨cs, hc, hl, rfl⟩
    have ht : Tagged kString (kString :: kUint32 :: (cs ++ v) ++ r) :=
      (tagged_iff _ _).mpr ⟨_, rfl, by simp⟩
    have h1 := (decodeUint32_ok_iff (kUint32 :: cs ++ (v ++ r)) (v ++ r) _).mpr ⟨cs, hc, rfl, rfl⟩
    rw [if_pos ht]
    simp only [List.cons_append, List.tail_cons, List.append_assoc] at h1 ⊢
    rw [h1]
    simp only [Go.bind_ok, BitVec.toNat_ofNat]
    rw [← hl]
    simp

theorem decodeError_ok_iff (b r v : Bytes) :
    decodeError b = .ok (r, some v, none) ↔
      ∃ cs, Varint 5 cs ∧ v.length = groupSum cs % 2 ^ 32 ∧
        b = kError :: kString :: kUint32 :: (cs ++ v) ++ r := by
  rw [decodeError_spec]
  constructor
  · intro h
    split at h
    case isFalse => simp at h
    case isTrue ht =>
      obtain ⟨ds, rfl, hne⟩ := (tagged_iff _ _).mp ht
      obtain ⟨⟨r', s', e'⟩, h1, h2⟩ := bind_eq_ok.mp h
      simp only at h2
      split at h2
      · simp at h2
      · rename_i he
        simp only [ne_eq, Decidable.not_not] at he; subst he
        simp only [Go.pure_eq, Go.ok.injEq, Prod.mk.injEq, Option.some.injEq, and_true] at h2
        obtain ⟨rfl, rfl⟩ := h2
        obtain ⟨cs, hc, hv, he⟩ := (decodeString_ok_iff _ _ _).mp h1
        rw [List.tail_cons] at he
        exact ⟨cs, hc, hv, by rw [he]; rfl⟩
  · rintro ⟨cs, hc, hl, rfl⟩
    have ht : Tagged kError (kError :: kString :: kUint32 :: (cs ++ v) ++ r) :=
      (tagged_iff _ _).mpr ⟨_, rfl, by simp⟩
    have h1 := (decodeString_ok_iff (kString :: kUint32 :: (cs ++ v) ++ r) r v).mpr ⟨cs, hc, hl, rfl⟩
    rw [if_pos ht]
    simp only [List.cons_append, List.tail_cons] at h1 ⊢
    rw [h1]; rfl

theorem decodeBytes_ok_iff (b ret r v : Bytes) :
    decodeBytes b ret = .ok (r, v, none) ↔
      (∃ cs, Varint 5 cs ∧ v.length = groupSum cs % 2 ^ 32 ∧ b = kBytes :: kUint32 :: (cs ++ v) ++ r) ∨
      (∃ cs, Long 5 cs ∧ b = kBytes :: kUint32 :: cs ∧ v = [] ∧ r = b) := by
  rw [decodeBytes_spec]
  constructor
  · intro h
    split at h
    case h_2 => simp at h
    case h_1 m k c rr =>
      split at h
      case isFalse => simp at h
      case isTrue hk =>
        obtain ⟨rfl, rfl⟩ := hk
        split at h
        case h_2 => simp at h
        case h_3 hr =>
          simp only [Go.ok.injEq, Prod.mk.injEq, and_true] at h
          obtain ⟨rfl, rfl⟩ := h
          exact .inr ⟨c :: rr, (readVarint_tooLong _ _).mp hr, rfl, rfl, rfl⟩
        case h_1 w rest hr =>
          obtain ⟨cs, hc, he, rfl⟩ := (readVarint_done_iff _ _ _ _).mp hr
          split at h
          · rename_i hl
            simp only [Go.ok.injEq, Prod.mk.injEq, and_true] at h
            obtain ⟨rfl, rfl⟩ := h
            refine .inl ⟨cs, hc, ?_, ?_⟩
            · rw [List.length_take]; omega
            · simp [he]
          · simp at h
  · rintro (⟨cs, hc, hl, rfl⟩ | ⟨cs, hc, rfl, rfl, rfl⟩)
    · cases cs with
      | nil => exact absurd rfl hc.ne_nil
      | cons c cs =>
        have h1 := readVarint_varint hc (v ++ r)
        simp only [List.cons_append, List.append_assoc, and_self, if_true] at h1 ⊢
        rw [h1]
        simp only [← hl]
        simp
    · cases cs with
      | nil => have := hc.1; simp at this
      | cons c cs =>
        have h1 := (readVarint_tooLong _ _).mpr hc
        simp only [and_self, if_true]
        rw [h1]

/-- Exactly when a v2 decoder call succeeds, and with what. -/
theorem readItem_value_iff (q : Req) (b r : Bytes) (i : Item) :
    readItem q b = .ok (r, .value i) ↔
      (Matches q i ∧ ∃ p, Accepts p i ∧ b = p ++ r) ∨
      (∃ ret cs, q = .bytes ret ∧ i = .bytes [] ∧ b = kBytes :: kUint32 :: cs ∧ Long 5 cs ∧ r = b) := by
  have hofErr : ∀ (e : Option Err) (x : Item), Outcome.ofErr e x = .value i ↔ e = none ∧ x = i := by
    intro e x; cases e <;> simp [Outcome.ofErr]
  constructor
  · intro h
    cases q
    case nil =>
      left
      simp only [readItem] at h
      obtain ⟨⟨r', v⟩, h1, h2⟩ := bind_eq_ok.mp h
      rw [decodeNil_spec] at h1
      cases v <;> simp at h2
      obtain ⟨rfl, rfl⟩ := h2
      refine ⟨.nil, [kNil], .nil, ?_⟩
      split at h1
      · split at h1
        · rename_i hk; subst hk
          simp only [Go.ok.injEq, Prod.mk.injEq, and_true] at h1; subst h1; rfl
        · simp at h1
      · simp at h1
    case bool =>
      left
      simp only [readItem] at h
      obtain ⟨⟨r', v, e⟩, h1, h2⟩ := bind_eq_ok.mp h
      simp only [Go.pure_eq, Go.ok.injEq, Prod.mk.injEq, hofErr] at h2
      obtain ⟨rfl, rfl, rfl⟩ := h2
      rw [decodeBool_spec] at h1
      refine ⟨.bool v, _, .bool v, ?_⟩
      split at h1
      · split at h1
        · rename_i hk; obtain ⟨rfl, rfl⟩ := hk
          simp only [Go.ok.injEq, Prod.mk.injEq, and_true] at h1; obtain ⟨rfl, rfl⟩ := h1; rfl
        · split at h1
          · rename_i hk; obtain ⟨rfl, rfl⟩ := hk
            simp only [Go.ok.injEq, Prod.mk.injEq, and_true] at h1; obtain ⟨rfl, rfl⟩ := h1; rfl
          · simp at h1
      · simp at h1
    case uint8 =>
      left
      simp only [readItem] at h
      obtain ⟨⟨r', v, e⟩, h1, h2⟩ := bind_eq_ok.mp h
      simp only [Go.pure_eq, Go.ok.injEq, Prod.mk.injEq, hofErr] at h2
      obtain ⟨rfl, rfl, rfl⟩ := h2
      rw [decodeUint8_spec] at h1
      refine ⟨.uint8 v, _, .uint8 v, ?_⟩
      split at h1
      · split at h1
        · rename_i hk; subst hk
          simp only [Go.ok.injEq, Prod.mk.injEq, and_true] at h1; obtain ⟨rfl, rfl⟩ := h1; rfl
        · simp at h1
      · simp at h1
    case float32 =>
      left
      simp only [readItem] at h
      obtain ⟨⟨r', v, e⟩, h1, h2⟩ := bind_eq_ok.mp h
      simp only [Go.pure_eq, Go.ok.injEq, Prod.mk.injEq, hofErr] at h2
      obtain ⟨rfl, rfl, rfl⟩ := h2
      rw [decodeFloat32_spec] at h1
      split at h1
      · rename_i hk
        simp only [Go.ok.injEq, Prod.mk.injEq, and_true] at h1; obtain ⟨rfl, rfl⟩ := h1
        match b, hk with
        | c :: bs, hk =>
          simp only [List.head?_cons, Option.some.injEq, List.length_cons] at hk
          obtain ⟨hl, rfl⟩ := hk
          refine ⟨.float32 _, _, .float32 ((List.drop 1 (kFloat32 :: bs)).take 4) (by simp; omega), ?_⟩
          simp
      · simp at h1
    case float64 =>
      left
      simp only [readItem] at h
      obtain ⟨⟨r', v, e⟩, h1, h2⟩ := bind_eq_ok.mp h
      simp only [Go.pure_eq, Go.ok.injEq, Prod.mk.injEq, hofErr] at h2
      obtain ⟨rfl, rfl, rfl⟩ := h2
      rw [decodeFloat64_spec] at h1
      split at h1
      · rename_i hk
        simp only [Go.ok.injEq, Prod.mk.injEq, and_true] at h1; obtain ⟨rfl, rfl⟩ := h1
        match b, hk with
        | c :: bs, hk =>
          simp only [List.head?_cons, Option.some.injEq, List.length_cons] at hk
          obtain ⟨hl, rfl⟩ := hk
          refine ⟨.float64 _, _, .float64 ((List.drop 1 (kFloat64 :: bs)).take 8) (by simp; omega), ?_⟩
          simp
      · simp at h1
    case uint16 =>
      left
      simp only [readItem, decodeUint16_var] at h
      obtain ⟨⟨r', v, e⟩, h1, h2⟩ := bind_eq_ok.mp h
      simp only [Go.pure_eq, Go.ok.injEq, Prod.mk.injEq, hofErr] at h2
      obtain ⟨rfl, rfl, rfl⟩ := h2
      obtain ⟨cs, hc, rfl, rfl⟩ := (varRead_ok_iff ..).mp h1
      exact ⟨.uint16 _, _, .uint16 cs hc, rfl⟩
    case uint32 =>
      left
      simp only [readItem, decodeUint32_var] at h
      obtain ⟨⟨r', v, e⟩, h1, h2⟩ := bind_eq_ok.mp h
      simp only [Go.pure_eq, Go.ok.injEq, Prod.mk.injEq, hofErr] at h2
      obtain ⟨rfl, rfl, rfl⟩ := h2
      obtain ⟨cs, hc, rfl, rfl⟩ := (varRead_ok_iff ..).mp h1
      exact ⟨.uint32 _, _, .uint32 cs hc, rfl⟩
    case uint64 =>
      left
      simp only [readItem, decodeUint64_var] at h
      obtain ⟨⟨r', v, e⟩, h1, h2⟩ := bind_eq_ok.mp h
      simp only [Go.pure_eq, Go.ok.injEq, Prod.mk.injEq, hofErr] at h2
      obtain ⟨rfl, rfl, rfl⟩ := h2
      obtain ⟨cs, hc, rfl, rfl⟩ := (varRead_ok_iff ..).mp h1
      exact ⟨.uint64 _, _, .uint64 cs hc, rfl⟩
    case int32 =>
      left
      simp only [readItem, decodeInt32_var] at h
      obtain ⟨⟨r', v, e⟩, h1, h2⟩ := bind_eq_ok.mp h
      simp only [Go.pure_eq, Go.ok.injEq, Prod.mk.injEq, hofErr] at h2
      obtain ⟨rfl, rfl, rfl⟩ := h2
      obtain ⟨cs, hc, rfl, rfl⟩ := (varRead_ok_iff ..).mp h1
      exact ⟨.int32 _, _, .int32 cs hc, rfl⟩
    case int64 =>
      left
      simp only [readItem, decodeInt64_var] at h
      obtain ⟨⟨r', v, e⟩, h1, h2⟩ := bind_eq_ok.mp h
      simp only [Go.pure_eq, Go.ok.injEq, Prod.mk.injEq, hofErr] at h2
      obtain ⟨rfl, rfl, rfl⟩ := h2
      obtain ⟨cs, hc, rfl, rfl⟩ := (varRead_ok_iff ..).mp h1
      exact ⟨.int64 _, _, .int64 cs hc, rfl⟩
    case map k v =>
      left
      simp only [readItem] at h
      obtain ⟨⟨r', s, e⟩, h1, h2⟩ := bind_eq_ok.mp h
      simp only [Go.pure_eq, Go.ok.injEq, Prod.mk.injEq, hofErr] at h2
      obtain ⟨rfl, rfl, rfl⟩ := h2
      obtain ⟨cs, hc, rfl, rfl⟩ := (decodeMap_ok_iff ..).mp h1
      exact ⟨.map _ _ _, _, .map k v cs hc, rfl⟩
    case slice k =>
      left
      simp only [readItem] at h
      obtain ⟨⟨r', s, e⟩, h1, h2⟩ := bind_eq_ok.mp h
      simp only [Go.pure_eq, Go.ok.injEq, Prod.mk.injEq, hofErr] at h2
      obtain ⟨rfl, rfl, rfl⟩ := h2
      obtain ⟨cs, hc, rfl, rfl⟩ := (decodeSlice_ok_iff ..).mp h1
      exact ⟨.slice _ _, _, .slice k cs hc, rfl⟩
    case string =>
      left
      simp only [readItem] at h
      obtain ⟨⟨r', s, e⟩, h1, h2⟩ := bind_eq_ok.mp h
      simp only [Go.pure_eq, Go.ok.injEq, Prod.mk.injEq, hofErr] at h2
      obtain ⟨rfl, rfl, rfl⟩ := h2
      obtain ⟨cs, hc, hl, rfl⟩ := (decodeString_ok_iff ..).mp h1
      exact ⟨.string _, _, .string cs s hc hl, rfl⟩
    case error =>
      left
      simp only [readItem] at h
      obtain ⟨⟨r', s, e⟩, h1, h2⟩ := bind_eq_ok.mp h
      simp only [Go.pure_eq, Go.ok.injEq, Prod.mk.injEq, hofErr] at h2
      obtain ⟨rfl, rfl, rfl⟩ := h2
      cases s with
      | none =>
        exfalso
        rw [decodeError_spec] at h1
        split at h1
        · obtain ⟨⟨_, _, e''⟩, _, h4⟩ := bind_eq_ok.mp h1
          cases e'' <;> simp at h4
        · simp at h1
      | some s =>
        obtain ⟨cs, hc, hl, rfl⟩ := (decodeError_ok_iff ..).mp h1
        exact ⟨.error _, _, .error cs s hc hl, rfl⟩
    case bytes ret =>
      simp only [readItem] at h
      obtain ⟨⟨r', s, e⟩, h1, h2⟩ := bind_eq_ok.mp h
      simp only [Go.pure_eq, Go.ok.injEq, Prod.mk.injEq, hofErr] at h2
      obtain ⟨rfl, rfl, rfl⟩ := h2
      rcases (decodeBytes_ok_iff ..).mp h1 with ⟨cs, hc, hl, rfl⟩ | ⟨cs, hc, rfl, rfl, rfl⟩
      · exact .inl ⟨.bytes _ _, _, .bytes cs s hc hl, rfl⟩
      · exact .inr ⟨ret, cs, rfl, rfl, rfl, hc, rfl⟩
  · rintro (⟨hm, p, hp, rfl⟩ | ⟨ret, cs, rfl, rfl, rfl, hc, rfl⟩)
    · cases hp with
      | nil => cases hm; simp [readItem, decodeNil_spec, kNil]
      | map k v cs hc =>
        cases hm
        simp only [readItem]
        rw [(decodeMap_ok_iff ..).mpr ⟨cs, hc, rfl, rfl⟩]; rfl
      | slice k cs hc =>
        cases hm
        simp only [readItem]
        rw [(decodeSlice_ok_iff ..).mpr ⟨cs, hc, rfl, rfl⟩]; rfl
      | bytes cs v hc hl =>
        cases hm
        simp only [readItem]
        rw [(decodeBytes_ok_iff ..).mpr (.inl ⟨cs, hc, hl, rfl⟩)]; rfl
      | string cs v hc hl =>
        cases hm
        simp only [readItem]
        rw [(decodeString_ok_iff ..).mpr ⟨cs, hc, hl, rfl⟩]; rfl
      | error cs v hc hl =>
        cases hm
        simp only [readItem]
        rw [(decodeError_ok_iff ..).mpr ⟨cs, hc, hl, rfl⟩]; rfl
      | bool v =>
        cases hm
        cases v <;> simp [readItem, decodeBool_spec, Outcome.ofErr]
      | uint8 v =>
        cases hm
        simp [readItem, decodeUint8_spec, Outcome.ofErr]
      | uint16 cs hc =>
        cases hm
        simp only [readItem, decodeUint16_var]
        rw [(varRead_ok_iff ..).mpr ⟨cs, hc, rfl, rfl⟩]; rfl
      | uint32 cs hc =>
        cases hm
        simp only [readItem, decodeUint32_var]
        rw [(varRead_ok_iff ..).mpr ⟨cs, hc, rfl, rfl⟩]; rfl
      | uint64 cs hc =>
        cases hm
        simp only [readItem, decodeUint64_var]
        rw [(varRead_ok_iff ..).mpr ⟨cs, hc, rfl, rfl⟩]; rfl
      | int32 cs hc =>
        cases hm
        simp only [readItem, decodeInt32_var]
        rw [(varRead_ok_iff ..).mpr ⟨cs, hc, rfl, rfl⟩]; rfl
      | int64 cs hc =>
        cases hm
        simp only [readItem, decodeInt64_var]
        rw [(varRead_ok_iff ..).mpr ⟨cs, hc, rfl, rfl⟩]; rfl
      | float32 p hl =>
        cases hm
        have : 4 < (kFloat32 :: p ++ r).length ∧ (kFloat32 :: p ++ r).head? = some kFloat32 := by
          simp; omega
        simp only [readItem, decodeFloat32_spec, this, and_self, if_true]
        simp [Outcome.ofErr, hl]
      | float64 p hl =>
        cases hm
        have : 8 < (kFloat64 :: p ++ r).length ∧ (kFloat64 :: p ++ r).head? = some kFloat64 := by
          simp; omega
        simp only [readItem, decodeFloat64_spec, this, and_self, if_true]
        simp [Outcome.ofErr, hl]
    · simp only [readItem]
      rw [(decodeBytes_ok_iff ..).mpr (.inr ⟨cs, hc, rfl, rfl, rfl⟩)]; rfl

/-! ## Panic -/

theorem decodeString_panic_iff (b : Bytes) :
    decodeString b = .panic ↔ ∃ cs, b = kString :: kUint32 :: cs ∧ Cut 5 cs := by
  rw [decodeString_spec]
  constructor
  · intro h
    split at h
    case isFalse => simp at h
    case isTrue ht =>
      obtain ⟨ds, rfl, hne⟩ := (tagged_iff _ _).mp ht
      rcases bind_eq_panic.mp h with h1 | ⟨⟨_, _, e⟩, _, h2⟩
      · obtain ⟨cs, h1, h2⟩ := (decodeUint32_panic_iff _).mp h1
        rw [List.tail_cons] at h1
        exact ⟨cs, by rw [h1], h2⟩
      · simp only at h2
        split at h2
        · simp at h2
        · split at h2 <;> simp at h2
  · rintro ⟨cs, rfl, hc⟩
    rw [if_pos ((tagged_iff _ _).mpr ⟨_, rfl, by simp⟩), List.tail_cons,
      (decodeUint32_panic_iff _).mpr ⟨cs, rfl, hc⟩]
    rfl

theorem decodeError_panic_iff (b : Bytes) :
    decodeError b = .panic ↔ ∃ cs, b = kError :: kString :: kUint32 :: cs ∧ Cut 5 cs := by
  rw [decodeError_spec]
  constructor
  · intro h
    split at h
    case isFalse => simp at h
    case isTrue ht =>
      obtain ⟨ds, rfl, hne⟩ := (tagged_iff _ _).mp ht
      rcases bind_eq_panic.mp h with h1 | ⟨⟨_, _, e⟩, _, h2⟩
      · obtain ⟨cs, h1, h2⟩ := (decodeString_panic_iff _).mp h1
        rw [List.tail_cons] at h1
        exact ⟨cs, by rw [h1], h2⟩
      · cases e <;> simp at h2
  · rintro ⟨cs, rfl, hc⟩
    rw [if_pos ((tagged_iff _ _).mpr ⟨_, rfl, by simp⟩), List.tail_cons,
      (decodeString_panic_iff _).mpr ⟨cs, rfl, hc⟩]
    rfl

theorem decodeMap_panic_iff (b : Bytes) (k v : Byte) :
    decodeMap b k v = .panic ↔ ∃ cs, b = kMap :: k :: v :: kUint32 :: cs ∧ Cut 5 cs := by
  rw [decodeMap_spec]
  constructor
  · intro h
    split at h
    case h_2 => simp at h
    case h_1 =>
      split at h
      case isFalse => simp at h
      case isTrue hk =>
        obtain ⟨rfl, rfl, rfl⟩ := hk
        rcases bind_eq_panic.mp h with h1 | ⟨⟨_, _, e⟩, _, h2⟩
        · obtain ⟨cs, h1, h2⟩ := (decodeUint32_panic_iff _).mp h1
          exact ⟨cs, by rw [h1], h2⟩
        · cases e <;> simp at h2
  · rintro ⟨cs, rfl, hc⟩
    simp only [and_self, if_true]
    rw [(decodeUint32_panic_iff _).mpr ⟨cs, rfl, hc⟩]; rfl

theorem decodeSlice_panic_iff (b : Bytes) (k : Byte) :
    decodeSlice b k = .panic ↔ ∃ cs, b = kSlice :: k :: kUint32 :: cs ∧ Cut 5 cs := by
  rw [decodeSlice_spec]
  constructor
  · intro h
    split at h
    case h_2 => simp at h
    case h_1 =>
      split at h
      case isFalse => simp at h
      case isTrue hk =>
        obtain ⟨rfl, rfl⟩ := hk
        rcases bind_eq_panic.mp h with h1 | ⟨⟨_, _, e⟩, _, h2⟩
        · obtain ⟨cs, h1, h2⟩ := (decodeUint32_panic_iff _).mp h1
          exact ⟨cs, by rw [h1], h2⟩
        · cases e <;> simp at h2
  · rintro ⟨cs, rfl, hc⟩
    simp only [and_self, if_true]
    rw [(decodeUint32_panic_iff _).mpr ⟨cs, rfl, hc⟩]; rfl

theorem decodeBytes_panic_iff (b ret : Bytes) :
    decodeBytes b ret = .panic ↔ ∃ cs, b = kBytes :: kUint32 :: cs ∧ Cut 5 cs := by
  rw [decodeBytes_spec]
  constructor
  · intro h
    split at h
    case h_2 => simp at h
    case h_1 c rr =>
      split at h
      case isFalse => simp at h
      case isTrue hk =>
        obtain ⟨rfl, rfl⟩ := hk
        split at h
        case h_1 => split at h <;> simp at h
        case h_3 => simp at h
        case h_2 hr => exact ⟨_, rfl, (readVarint_truncated _ _ (by simp)).mp hr⟩
  · rintro ⟨cs, rfl, hc⟩
    cases cs with
    | nil => exact absurd rfl hc.1
    | cons c cs =>
      have h1 := (readVarint_truncated _ _ (by simp)).mpr hc
      simp only [and_self, if_true]
      rw [h1]

/-- The bytes in front of the varint a request reads, and the varint's maximal length. -/
def Req.varint : Req → Option (Bytes × Nat)
  | .map k v => some ([kMap, k, v, kUint32], 5)
  | .slice k => some ([kSlice, k, kUint32], 5)
  | .bytes _ => some ([kBytes, kUint32], 5)
  | .string => some ([kString, kUint32], 5)
  | .error => some ([kError, kString, kUint32], 5)
  | .uint16 => some ([kUint16], 3)
  | .uint32 => some ([kUint32], 5)
  | .uint64 => some ([kUint64], 10)
  | .int32 => some ([kInt32], 5)
  | .int64 => some ([kInt64], 10)
  | .nil | .bool | .uint8 | .float32 | .float64 => none

/-- Exactly when a v2 decoder call panics. -/
theorem readItem_panic_iff (q : Req) (b : Bytes) :
    readItem q b = .panic ↔ ∃ hd n cs, q.varint = some (hd, n) ∧ b = hd ++ cs ∧ Cut n cs := by
  have bp : ∀ {α β : Type} (x : Go α) (f : α → β), (x >>= fun a => (pure (f a) : Go β)) = .panic ↔ x = .panic := by
    intro α β x f; cases x <;> simp
  cases q <;> simp only [readItem, Req.varint, bp, Option.some.injEq, Prod.mk.injEq, reduceCtorEq, false_and,
    exists_false, iff_false]
  case nil =>
    rw [decodeNil_spec]; split
    · split <;> simp
    · simp
  case bool =>
    rw [decodeBool_spec]; split
    · split
      · simp
      · split <;> simp
    · simp
  case uint8 =>
    rw [decodeUint8_spec]; split
    · split <;> simp
    · simp
  case float32 => rw [decodeFloat32_spec]; split <;> simp
  case float64 => rw [decodeFloat64_spec]; split <;> simp
  case map => rw [decodeMap_panic_iff]; constructor
              · rintro ⟨cs, rfl, h⟩; exact ⟨_, _, cs, ⟨rfl, rfl⟩, rfl, h⟩
              · rintro ⟨_, _, cs, ⟨rfl, rfl⟩, rfl, h⟩; exact ⟨cs, rfl, h⟩
  case slice => rw [decodeSlice_panic_iff]; constructor
                · rintro ⟨cs, rfl, h⟩; exact ⟨_, _, cs, ⟨rfl, rfl⟩, rfl, h⟩
                · rintro ⟨_, _, cs, ⟨rfl, rfl⟩, rfl, h⟩; exact ⟨cs, rfl, h⟩
  case bytes => rw [decodeBytes_panic_iff]; constructor
                · rintro ⟨cs, rfl, h⟩; exact ⟨_, _, cs, ⟨rfl, rfl⟩, rfl, h⟩
                · rintro ⟨_, _, cs, ⟨rfl, rfl⟩, rfl, h⟩; exact ⟨cs, rfl, h⟩
  case string => rw [decodeString_panic_iff]; constructor
                 · rintro ⟨cs, rfl, h⟩; exact ⟨_, _, cs, ⟨rfl, rfl⟩, rfl, h⟩
                 · rintro ⟨_, _, cs, ⟨rfl, rfl⟩, rfl, h⟩; exact ⟨cs, rfl, h⟩
  case error => rw [decodeError_panic_iff]; constructor
                · rintro ⟨cs, rfl, h⟩; exact ⟨_, _, cs, ⟨rfl, rfl⟩, rfl, h⟩
                · rintro ⟨_, _, cs, ⟨rfl, rfl⟩, rfl, h⟩; exact ⟨cs, rfl, h⟩
  all_goals
    simp only [decodeUint16_var, decodeUint32_var, decodeUint64_var, decodeInt32_var, decodeInt64_var]
    rw [varRead_panic_iff]
    constructor
    · rintro ⟨cs, rfl, h⟩; exact ⟨_, _, cs, ⟨rfl, rfl⟩, rfl, h⟩
    · rintro ⟨_, _, cs, ⟨rfl, rfl⟩, rfl, h⟩; exact ⟨cs, rfl, h⟩

/-! ## Failure -/

theorem decodeString_fail {b r v : Bytes} {e : Err} (h : decodeString b = .ok (r, v, some e)) :
    v = [] ∧ e = .InvalidString ∧
      (r = b ∨ b = kString :: r ∨
        ∃ cs, Varint 5 cs ∧ b = kString :: kUint32 :: cs ++ r ∧ r.length < groupSum cs % 2 ^ 32) := by
  rw [decodeString_spec] at h
  split at h
  case isFalse => simp at h; obtain ⟨rfl, rfl, rfl⟩ := h; exact ⟨rfl, rfl, .inl rfl⟩
  case isTrue ht =>
    obtain ⟨ds, rfl, hne⟩ := (tagged_iff _ _).mp ht
    obtain ⟨⟨r', s', e'⟩, h1, h2⟩ := bind_eq_ok.mp h
    rw [List.tail_cons] at h1
    simp only at h2
    split at h2
    · rename_i he
      simp only [Go.pure_eq, Go.ok.injEq, Prod.mk.injEq, Option.some.injEq] at h2
      obtain ⟨rfl, rfl, rfl⟩ := h2
      cases e' with
      | none => simp at he
      | some e' =>
        have := decodeUint32_err h1
        exact ⟨rfl, rfl, .inr (.inl (by rw [this.1]))⟩
    · rename_i he
      simp only [ne_eq, Decidable.not_not] at he; subst he
      split at h2
      · simp at h2
      · rename_i hl
        simp only [Go.pure_eq, Go.ok.injEq, Prod.mk.injEq, Option.some.injEq] at h2
        obtain ⟨rfl, rfl, rfl⟩ := h2
        obtain ⟨cs, hc, he, hv⟩ := (decodeUint32_ok_iff _ _ _).mp h1
        refine ⟨rfl, rfl, .inr (.inr ⟨cs, hc, by rw [he]; rfl, ?_⟩)⟩
        rw [hv, BitVec.toNat_ofNat] at hl; omega

theorem decodeError_fail {b r : Bytes} {v : Option Bytes} {e : Err} (h : decodeError b = .ok (r, v, some e)) :
    v = none ∧ e = .InvalidError ∧
      (r = b ∨ b = kError :: r ∨ b = kError :: kString :: r ∨
        ∃ cs, Varint 5 cs ∧ b = kError :: kString :: kUint32 :: cs ++ r ∧ r.length < groupSum cs % 2 ^ 32) := by
  rw [decodeError_spec] at h
  split at h
  case isFalse => simp at h; obtain ⟨rfl, rfl, rfl⟩ := h; exact ⟨rfl, rfl, .inl rfl⟩
  case isTrue ht =>
    obtain ⟨ds, rfl, hne⟩ := (tagged_iff _ _).mp ht
    obtain ⟨⟨r', s', e'⟩, h1, h2⟩ := bind_eq_ok.mp h
    rw [List.tail_cons] at h1
    cases e' with
    | none => simp at h2
    | some e' =>
      simp at h2
      obtain ⟨rfl, rfl, rfl⟩ := h2
      obtain ⟨_, _, h3⟩ := decodeString_fail h1
      refine ⟨rfl, rfl, .inr ?_⟩
      rcases h3 with rfl | rfl | ⟨cs, hc, rfl, hl⟩
      · exact .inl rfl
      · exact .inr (.inl rfl)
      · exact .inr (.inr ⟨cs, hc, rfl, hl⟩)

theorem decodeMap_fail {b r : Bytes} {k v : Byte} {s : BitVec 32} {e : Err}
    (h : decodeMap b k v = .ok (r, s, some e)) :
    s = 0 ∧ e = .InvalidMap ∧ (r = b ∨ b = kMap :: k :: v :: r) := by
  rw [decodeMap_spec] at h
  split at h
  case h_2 => simp at h; obtain ⟨rfl, rfl, rfl⟩ := h; exact ⟨rfl, rfl, .inl rfl⟩
  case h_1 =>
    split at h
    case isFalse => simp at h; obtain ⟨rfl, rfl, rfl⟩ := h; exact ⟨rfl, rfl, .inl rfl⟩
    case isTrue hk =>
      obtain ⟨rfl, rfl, rfl⟩ := hk
      obtain ⟨⟨r', s', e'⟩, h1, h2⟩ := bind_eq_ok.mp h
      cases e' with
      | none => simp at h2
      | some e' =>
        simp at h2
        obtain ⟨rfl, rfl, rfl⟩ := h2
        rw [(decodeUint32_err h1).1]
        exact ⟨rfl, rfl, .inr rfl⟩

theorem decodeSlice_fail {b r : Bytes} {k : Byte} {s : BitVec 32} {e : Err}
    (h : decodeSlice b k = .ok (r, s, some e)) :
    s = 0 ∧ e = .InvalidSlice ∧ (r = b ∨ b = kSlice :: k :: r) := by
  rw [decodeSlice_spec] at h
  split at h
  case h_2 => simp at h; obtain ⟨rfl, rfl, rfl⟩ := h; exact ⟨rfl, rfl, .inl rfl⟩
  case h_1 =>
    split at h
    case isFalse => simp at h; obtain ⟨rfl, rfl, rfl⟩ := h; exact ⟨rfl, rfl, .inl rfl⟩
    case isTrue hk =>
      obtain ⟨rfl, rfl⟩ := hk
      obtain ⟨⟨r', s', e'⟩, h1, h2⟩ := bind_eq_ok.mp h
      cases e' with
      | none => simp at h2
      | some e' =>
        simp at h2
        obtain ⟨rfl, rfl, rfl⟩ := h2
        rw [(decodeUint32_err h1).1]
        exact ⟨rfl, rfl, .inr rfl⟩

theorem decodeBytes_fail {b ret r v : Bytes} {e : Err} (h : decodeBytes b ret = .ok (r, v, some e)) :
    v = [] ∧ e = .InvalidBytes ∧ r = b := by
  rw [decodeBytes_spec] at h
  split at h
  case h_2 => simp at h; obtain ⟨rfl, rfl, rfl⟩ := h; exact ⟨rfl, rfl, rfl⟩
  case h_1 =>
    split at h
    case isFalse => simp at h; obtain ⟨rfl, rfl, rfl⟩ := h; exact ⟨rfl, rfl, rfl⟩
    case isTrue hk =>
      split at h
      case h_1 =>
        split at h
        · simp at h
        · simp at h; obtain ⟨rfl, rfl, rfl⟩ := h; exact ⟨rfl, rfl, rfl⟩
      case h_2 => simp at h
      case h_3 => simp at h

theorem decodeBool_fail {b r : Bytes} {v : Bool} {e : Err} (h : decodeBool b = .ok (r, v, some e)) :
    v = false ∧ e = .InvalidBool ∧ r = b := by
  rw [decodeBool_spec] at h
  split at h
  · split at h
    · simp at h
    · split at h
      · simp at h
      · simp at h; obtain ⟨rfl, rfl, rfl⟩ := h; exact ⟨rfl, rfl, rfl⟩
  · simp at h; obtain ⟨rfl, rfl, rfl⟩ := h; exact ⟨rfl, rfl, rfl⟩

theorem decodeUint8_fail {b r : Bytes} {v : BitVec 8} {e : Err} (h : decodeUint8 b = .ok (r, v, some e)) :
    v = 0 ∧ e = .InvalidUint8 ∧ r = b := by
  rw [decodeUint8_spec] at h
  split at h
  · split at h
    · simp at h
    · simp at h; obtain ⟨rfl, rfl, rfl⟩ := h; exact ⟨rfl, rfl, rfl⟩
  · simp at h; obtain ⟨rfl, rfl, rfl⟩ := h; exact ⟨rfl, rfl, rfl⟩

theorem decodeFloat32_fail {b r : Bytes} {v : BitVec 32} {e : Err} (h : decodeFloat32 b = .ok (r, v, some e)) :
    v = 0 ∧ e = .InvalidFloat32 ∧ r = b := by
  rw [decodeFloat32_spec] at h
  split at h
  · simp at h
  · simp at h; obtain ⟨rfl, rfl, rfl⟩ := h; exact ⟨rfl, rfl, rfl⟩

theorem decodeFloat64_fail {b r : Bytes} {v : BitVec 64} {e : Err} (h : decodeFloat64 b = .ok (r, v, some e)) :
    v = 0 ∧ e = .InvalidFloat64 ∧ r = b := by
  rw [decodeFloat64_spec] at h
  split at h
  · simp at h
  · simp at h; obtain ⟨rfl, rfl, rfl⟩ := h; exact ⟨rfl, rfl, rfl⟩

theorem varRead_fail {α : Type} {k : Byte} {n : Nat} {f : Nat → α} {b0 b r : Bytes} {z v : α} {e e' : Err}
    (h : varRead k n f (b0, z, some e) b = .ok (r, v, some e')) : v = z ∧ e' = e ∧ r = b0 := by
  have := ((varRead_err_iff ..).mp h).1; exact ⟨this.2.1, this.2.2, this.1⟩

/-- Where a failed call leaves the unread input. -/
def FailRest (q : Req) (b r : Bytes) : Prop :=
  match q with
  | .map k v => r = b ∨ b = kMap :: k :: v :: r
  | .slice k => r = b ∨ b = kSlice :: k :: r
  | .string => r = b ∨ b = kString :: r ∨
      ∃ cs, Varint 5 cs ∧ b = kString :: kUint32 :: cs ++ r ∧ r.length < groupSum cs % 2 ^ 32
  | .error => r = b ∨ b = kError :: r ∨ b = kError :: kString :: r ∨
      ∃ cs, Varint 5 cs ∧ b = kError :: kString :: kUint32 :: cs ++ r ∧ r.length < groupSum cs % 2 ^ 32
  | _ => r = b

theorem readItem_fail {q : Req} {b r : Bytes} {o : Outcome} (h : readItem q b = .ok (r, o))
    (ho : ∀ i, o ≠ .value i) : o = q.invalid ∧ FailRest q b r := by
  have key : ∀ {α : Type} (x : Go (Bytes × α × Option Err)) (g : α → Item),
      (x >>= fun a => (pure (a.1, Outcome.ofErr a.2.2 (g a.2.1)) : Go (Bytes × Outcome))) = .ok (r, o) →
      ∃ v e, x = .ok (r, v, some e) ∧ o = .error e := by
    intro α x g hx
    obtain ⟨⟨r', v, e⟩, h1, h2⟩ := bind_eq_ok.mp hx
    simp only [Go.pure_eq, Go.ok.injEq, Prod.mk.injEq] at h2
    obtain ⟨rfl, rfl⟩ := h2
    cases e with
    | none => exact absurd rfl (ho _)
    | some e => exact ⟨v, e, h1, rfl⟩
  cases q
  case nil =>
    simp only [readItem] at h
    obtain ⟨⟨r', v⟩, h1, h2⟩ := bind_eq_ok.mp h
    simp only [Go.pure_eq, Go.ok.injEq, Prod.mk.injEq] at h2
    obtain ⟨rfl, rfl⟩ := h2
    cases v
    case true => exact absurd rfl (ho _)
    refine ⟨rfl, ?_⟩
    rw [decodeNil_spec] at h1
    show r' = b
    split at h1
    · split at h1 <;> simp at h1; exact h1.symm
    · simp at h1; first | exact h1.symm | exact h1
  case map k v' => obtain ⟨v, e, h1, rfl⟩ := key (decodeMap b k v') (fun s => .map s k v') h
                   obtain ⟨_, rfl, h2⟩ := decodeMap_fail h1; exact ⟨rfl, h2⟩
  case slice k => obtain ⟨v, e, h1, rfl⟩ := key (decodeSlice b k) (fun s => .slice s k) h
                  obtain ⟨_, rfl, h2⟩ := decodeSlice_fail h1; exact ⟨rfl, h2⟩
  case bytes => obtain ⟨v, e, h1, rfl⟩ := key _ _ h
                obtain ⟨_, rfl, h2⟩ := decodeBytes_fail h1; exact ⟨rfl, h2⟩
  case string => obtain ⟨v, e, h1, rfl⟩ := key _ _ h
                 obtain ⟨_, rfl, h2⟩ := decodeString_fail h1; exact ⟨rfl, h2⟩
  case error => obtain ⟨v, e, h1, rfl⟩ := key (decodeError b) (fun v => .error (v.getD [])) h
                obtain ⟨_, rfl, h2⟩ := decodeError_fail h1; exact ⟨rfl, h2⟩
  case bool => obtain ⟨v, e, h1, rfl⟩ := key _ _ h
               obtain ⟨_, rfl, h2⟩ := decodeBool_fail h1; exact ⟨rfl, h2⟩
  case uint8 => obtain ⟨v, e, h1, rfl⟩ := key _ _ h
                obtain ⟨_, rfl, h2⟩ := decodeUint8_fail h1; exact ⟨rfl, h2⟩
  case float32 => obtain ⟨v, e, h1, rfl⟩ := key _ _ h
                  obtain ⟨_, rfl, h2⟩ := decodeFloat32_fail h1; exact ⟨rfl, h2⟩
  case float64 => obtain ⟨v, e, h1, rfl⟩ := key _ _ h
                  obtain ⟨_, rfl, h2⟩ := decodeFloat64_fail h1; exact ⟨rfl, h2⟩
  case uint16 => obtain ⟨v, e, h1, rfl⟩ := key _ _ h
                 rw [decodeUint16_var] at h1
                 obtain ⟨_, rfl, h2⟩ := varRead_fail h1; exact ⟨rfl, h2⟩
  case uint32 => obtain ⟨v, e, h1, rfl⟩ := key _ _ h
                 rw [decodeUint32_var] at h1
                 obtain ⟨_, rfl, h2⟩ := varRead_fail h1; exact ⟨rfl, h2⟩
  case uint64 => obtain ⟨v, e, h1, rfl⟩ := key _ _ h
                 rw [decodeUint64_var] at h1
                 obtain ⟨_, rfl, h2⟩ := varRead_fail h1; exact ⟨rfl, h2⟩
  case int32 => obtain ⟨v, e, h1, rfl⟩ := key _ _ h
                rw [decodeInt32_var] at h1
                obtain ⟨_, rfl, h2⟩ := varRead_fail h1; exact ⟨rfl, h2⟩
  case int64 => obtain ⟨v, e, h1, rfl⟩ := key _ _ h
                rw [decodeInt64_var] at h1
                obtain ⟨_, rfl, h2⟩ := varRead_fail h1; exact ⟨rfl, h2⟩

theorem Matches.kind {q : Req} {i : Item} (h : Matches q i) : q.kind = i.kind := by cases h <;> rfl

theorem FailRest.of_head {q : Req} {b r : Bytes} (hf : FailRest q b r) (h : b.head? ≠ some q.kind) : r = b := by
  cases q with
  | map k v =>
    rcases hf with h1 | h1
    · exact h1
    · rw [h1] at h; exact absurd rfl h
  | slice k =>
    rcases hf with h1 | h1
    · exact h1
    · rw [h1] at h; exact absurd rfl h
  | string =>
    unfold FailRest at hf
    dsimp only at hf
    rcases hf with h1 | h1 | h1
    · exact h1
    · rw [h1] at h; exact absurd rfl h
    · obtain ⟨cs, h1, h2, h3⟩ := h1
      rw [h2] at h; exact absurd rfl h
  | error =>
    unfold FailRest at hf
    dsimp only at hf
    rcases hf with h1 | h1 | h1 | h1
    · exact h1
    · rw [h1] at h; exact absurd rfl h
    · rw [h1] at h; exact absurd rfl h
    · obtain ⟨cs, h1, h2, h3⟩ := h1
      rw [h2] at h; exact absurd rfl h
  | _ => exact hf

theorem FailRest.suffix {q : Req} {b r : Bytes} (hf : FailRest q b r) : ∃ p, b = p ++ r := by
  cases q with
  | map k v =>
    rcases hf with h1 | h1
    · exact ⟨[], by rw [h1]; rfl⟩
    · exact ⟨[_, _, _], h1⟩
  | slice k =>
    rcases hf with h1 | h1
    · exact ⟨[], by rw [h1]; rfl⟩
    · exact ⟨[_, _], h1⟩
  | string =>
    unfold FailRest at hf
    dsimp only at hf
    rcases hf with h1 | h1 | h1
    · exact ⟨[], by rw [h1]; rfl⟩
    · exact ⟨[_], h1⟩
    · obtain ⟨cs, h1, h2, h3⟩ := h1
      exact ⟨_, h2⟩
  | error =>
    unfold FailRest at hf
    dsimp only at hf
    rcases hf with h1 | h1 | h1 | h1
    · exact ⟨[], by rw [h1]; rfl⟩
    · exact ⟨[_], h1⟩
    · exact ⟨[_, _], h1⟩
    · obtain ⟨cs, h1, h2, h3⟩ := h1
      exact ⟨_, h2⟩
  | _ => exact ⟨[], by rw [show r = b from hf]; rfl⟩

end GoV2
