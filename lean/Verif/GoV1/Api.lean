import Verif.GoV1.DecodeFacts
import Verif.GoV1.EncodeFacts

/-! # The v1 decoder API: exact behaviour of every call -/

namespace GoV1

open Spec
open GoV2 (Err Outcome)

/-- The same call on the v1 and on the v2 decoder.  (v1 kinds are byte slices of which only the first
byte is read; `Bytes` may be given any scratch slices.) -/
inductive SameCall : Req → GoV2.Req → Prop
  | nil : SameCall .nil .nil
  | map (k ks v vs) : SameCall (.map (k :: ks) (v :: vs)) (.map k v)
  | slice (k ks) : SameCall (.slice (k :: ks)) (.slice k)
  | bytes (ret ret') : SameCall (.bytes ret) (.bytes ret')
  | string : SameCall .string .string
  | error : SameCall .error .error
  | bool : SameCall .bool .bool
  | uint8 : SameCall .uint8 .uint8
  | uint16 : SameCall .uint16 .uint16
  | uint32 : SameCall .uint32 .uint32
  | uint64 : SameCall .uint64 .uint64
  | int32 : SameCall .int32 .int32
  | int64 : SameCall .int64 .int64
  | float32 : SameCall .float32 .float32
  | float64 : SameCall .float64 .float64

/-- Inputs that are nothing but the header of the request: here v1 and v2 both fail, but leave the
decoder at different places. -/
def BareHeader (q : GoV2.Req) (b : Bytes) : Prop :=
  match q with
  | .map k v => b = [kMap, k, v]
  | .slice k => b = [kSlice, k]
  | .string => b = [kString]
  | .error => b = [kError] ∨ b = [kError, kString]
  | _ => False

theorem readItem_eq {q1 : Req} {q2 : GoV2.Req} (hs : SameCall q1 q2) (hb : ∀ ret, q2 ≠ .bytes ret) (hc : q2 ≠ .bool)
    (b : Bytes) (hbare : ¬ BareHeader q2 b) : readItem q1 b = GoV2.readItem q2 b := by
  cases hs
  case bytes => exact absurd rfl (hb _)
  case bool => exact absurd rfl hc
  case nil => simp only [readItem, GoV2.readItem, decodeNil_eq]
  case map =>
    simp only [readItem, GoV2.readItem]
    rw [decodeMap_eq _ _ _ _ _ hbare]; rfl
  case slice =>
    simp only [readItem, GoV2.readItem]
    rw [decodeSlice_eq _ _ _ hbare]; rfl
  case string =>
    simp only [readItem, GoV2.readItem]
    rw [decodeString_eq _ hbare]
  case error =>
    simp only [readItem, GoV2.readItem]
    rw [decodeError_eq _ (fun h => hbare (.inl h)) (fun h => hbare (.inr h))]
  case uint8 => rfl
  case float32 => rfl
  case float64 => rfl
  all_goals simp only [readItem, GoV2.readItem, decodeUint16_eq, decodeUint32_eq, decodeUint64_eq, decodeInt32_eq,
    decodeInt64_eq]

theorem readItem_bare {q1 : Req} {q2 : GoV2.Req} (hs : SameCall q1 q2) (b : Bytes) (hbare : BareHeader q2 b) :
    readItem q1 b = .ok ([], q2.invalid) ∧
      ∃ r, GoV2.readItem q2 b = .ok (r, q2.invalid) := by
  cases hs
  case map k ks v vs =>
    cases hbare
    refine ⟨?_, [kMap, k, v], ?_⟩
    · simp only [readItem, decodeMap_short, Go.bind_ok]; rfl
    · simp only [GoV2.readItem, GoV2.decodeMap_spec, Go.bind_ok]; rfl
  case slice k ks =>
    cases hbare
    refine ⟨?_, [kSlice, k], ?_⟩
    · simp only [readItem, decodeSlice_short, Go.bind_ok]; rfl
    · simp only [GoV2.readItem, GoV2.decodeSlice_spec, Go.bind_ok]; rfl
  case string =>
    cases hbare
    exact ⟨by decide, [kString], by decide⟩
  case error =>
    rcases hbare with rfl | rfl
    · exact ⟨by decide, [kError], by decide⟩
    · exact ⟨by decide, [kString], by decide⟩
  all_goals exact absurd hbare id

/-- `Bytes` succeeds exactly on an accepted encoding of some payload. -/
theorem decodeBytes_ok_iff (b r : Bytes) (ret v : Option Bytes) :
    decodeBytes b ret = .ok (r, v, none) ↔
      ∃ p payload, Accepts p (.bytes payload) ∧ b = p ++ r ∧ v = bytesResult ret payload := by
  rw [decodeBytes_spec]
  constructor
  · intro h
    split at h
    case h_2 => simp at h
    case h_1 m t =>
      split at h
      case isFalse => simp at h
      case isTrue hm =>
        subst hm
        obtain ⟨⟨r', size, err⟩, h1, h2⟩ := GoV2.bind_eq_ok.mp h
        simp only at h2
        by_cases he : err = none
        · subst he
          obtain ⟨cs, hcs, rfl, rfl⟩ := (GoV2.decodeUint32_ok_iff ..).mp h1
          clear h1 h
          simp only [ne_eq, not_true, if_false] at h2
          split at h2
          · rename_i hl
            simp only [Go.pure_eq, Go.ok.injEq, Prod.mk.injEq, and_true] at h2
            obtain ⟨rfl, rfl⟩ := h2
            refine ⟨_, _, Accepts.bytes cs (List.take (BitVec.ofNat 32 (groupSum cs)).toNat r') hcs ?_, ?_, rfl⟩
            · rw [List.length_take, Nat.min_eq_left hl, BitVec.toNat_ofNat]
            · simp
          · simp at h2
        · simp [he] at h2
  · rintro ⟨p, payload, ha, rfl, rfl⟩
    cases ha with
    | bytes cs _ hc hl =>
      have h1 := (GoV2.decodeUint32_ok_iff (kUint32 :: (cs ++ payload) ++ r) (payload ++ r)
        (BitVec.ofNat 32 (groupSum cs))).mpr ⟨cs, hc, by simp, rfl⟩
      simp only [List.cons_append] at h1 ⊢
      have hl' : (BitVec.ofNat 32 (groupSum cs)).toNat = payload.length := by rw [BitVec.toNat_ofNat, hl]
      simp only [if_true, h1, Go.bind_ok, hl']
      simp

theorem decodeBytes_panic_iff (b : Bytes) (ret : Option Bytes) :
    decodeBytes b ret = .panic ↔ ∃ cs, b = kBytes :: kUint32 :: cs ∧ Cut 5 cs := by
  rw [decodeBytes_spec]
  constructor
  · intro h
    split at h
    case h_2 => simp at h
    case h_1 m t =>
      split at h
      case isFalse => simp at h
      case isTrue hm =>
        subst hm
        rcases GoV2.bind_eq_panic.mp h with h1 | ⟨⟨_, _, e⟩, _, h2⟩
        · obtain ⟨cs, rfl, h2⟩ := (GoV2.decodeUint32_panic_iff _).mp h1
          exact ⟨cs, rfl, h2⟩
        · simp only at h2
          split at h2
          · simp at h2
          · split at h2 <;> simp at h2
  · rintro ⟨cs, rfl, hc⟩
    simp only [if_true]
    rw [(GoV2.decodeUint32_panic_iff _).mpr ⟨cs, rfl, hc⟩]; rfl

/-- Exactly when a v1 call panics (kinds non-empty). -/
theorem readItem_panic_iff {q1 : Req} {q2 : GoV2.Req} (hs : SameCall q1 q2) (b : Bytes) :
    readItem q1 b = .panic ↔ ∃ hd n cs, q2.varint = some (hd, n) ∧ b = hd ++ cs ∧ Cut n cs := by
  rw [← GoV2.readItem_panic_iff]
  by_cases hbare : BareHeader q2 b
  · obtain ⟨h1, r, h2⟩ := readItem_bare hs b hbare
    rw [h1, h2]; simp
  · cases hs
    case bytes ret ret' =>
      have bp : ∀ {α β : Type} (x : Go α) (f : α → β), (x >>= fun a => (pure (f a) : Go β)) = .panic ↔ x = .panic := by
        intro α β x f; cases x <;> simp
      simp only [readItem, GoV2.readItem, bp]
      rw [decodeBytes_panic_iff, GoV2.decodeBytes_panic_iff]
    case bool =>
      rw [GoV2.readItem_panic_iff]
      simp only [GoV2.Req.varint, reduceCtorEq, false_and, exists_false, iff_false]
      simp only [readItem, decodeBool_spec]
      split
      · split <;> simp
      · simp
    all_goals rw [readItem_eq (by constructor) (by simp) (by simp) b hbare]

/-- The value a successful call returns for the item that is on the wire: the item itself, except that
`Bytes` keeps the tail of a scratch slice that is longer than the payload. -/
def returned (q : Req) (i : Item) : Item :=
  match q, i with
  | .bytes ret, .bytes payload => .bytes ((bytesResult ret payload).getD [])
  | _, i => i

/-- Exactly when a v1 call succeeds, and with what (kinds non-empty). -/
theorem readItem_value_iff {q1 : Req} {q2 : GoV2.Req} (hs : SameCall q1 q2) (b r : Bytes) (o : Item) :
    readItem q1 b = .ok (r, .value o) ↔
      (∃ i p, GoV2.Matches q2 i ∧ Accepts p i ∧ b = p ++ r ∧ o = returned q1 i) ∨
      (q1 = .bool ∧ ∃ c : Byte, 2 ≤ c.toNat ∧ b = kBool :: c :: r ∧ o = .bool false) := by
  by_cases hbare : BareHeader q2 b
  · obtain ⟨h1, r', h2⟩ := readItem_bare hs b hbare
    constructor
    · intro h; rw [h1] at h
      cases hs <;> simp [GoV2.Req.invalid] at h
    · rintro (⟨i, p, hm, ha, rfl, _⟩ | ⟨rfl, _⟩)
      · have := (GoV2.readItem_value_iff q2 (p ++ r) r i).mpr (.inl ⟨hm, p, ha, rfl⟩)
        rw [h2] at this
        cases hs <;> simp [GoV2.Req.invalid] at this
      · cases hs; exact absurd hbare id
  · have gen : (∀ ret, q2 ≠ .bytes ret) → q2 ≠ .bool → (∀ i, returned q1 i = i) →
        (readItem q1 b = .ok (r, .value o) ↔
      (∃ i p, GoV2.Matches q2 i ∧ Accepts p i ∧ b = p ++ r ∧ o = returned q1 i) ∨
      (q1 = .bool ∧ ∃ c : Byte, 2 ≤ c.toNat ∧ b = kBool :: c :: r ∧ o = .bool false)) := by
      intro hb hc hr
      rw [readItem_eq hs hb hc b hbare, GoV2.readItem_value_iff]
      constructor
      · rintro (⟨hm, p, ha, rfl⟩ | ⟨ret, _, h, _⟩)
        · exact .inl ⟨o, p, hm, ha, rfl, (hr o).symm⟩
        · exact absurd h (hb ret)
      · rintro (⟨i, p, hm, ha, rfl, rfl⟩ | ⟨rfl, _⟩)
        · rw [hr]; exact .inl ⟨hm, p, ha, rfl⟩
        · cases hs; exact absurd rfl hc
    cases hs
    case bytes ret ret' =>
      simp only [readItem]
      rw [GoV2.bind_eq_ok]
      constructor
      · rintro ⟨⟨r', v, e⟩, h1, h2⟩
        cases e with
        | some e => simp [Outcome.ofErr] at h2
        | none =>
          simp only [Outcome.ofErr, Go.pure_eq, Go.ok.injEq, Prod.mk.injEq, Outcome.value.injEq] at h2
          obtain ⟨rfl, rfl⟩ := h2
          obtain ⟨p, payload, ha, rfl, rfl⟩ := (decodeBytes_ok_iff ..).mp h1
          exact .inl ⟨_, p, .bytes _ payload, ha, rfl, rfl⟩
      · rintro (⟨i, p, hm, ha, rfl, rfl⟩ | ⟨h, _⟩)
        · cases hm with
          | bytes _ payload =>
            exact ⟨_, (decodeBytes_ok_iff ..).mpr ⟨p, payload, ha, rfl, rfl⟩, rfl⟩
        · simp at h
    case bool =>
      simp only [readItem, decodeBool_spec]
      constructor
      · intro h
        split at h
        · rename_i m c t
          split at h
          · rename_i hm
            subst hm
            simp only [Go.bind_ok, Outcome.ofErr, Go.pure_eq, Go.ok.injEq, Prod.mk.injEq, Outcome.value.injEq] at h
            obtain ⟨rfl, rfl⟩ := h
            by_cases hc : 2 ≤ c.toNat
            · refine .inr ⟨trivial, c, hc, rfl, ?_⟩
              have : ¬ c = 1#8 := by intro h; subst h; simp at hc
              simp [this]
            · have : c.toNat = 0 ∨ c.toNat = 1 := by omega
              rcases this with h0 | h0
              · have : c = 0#8 := BitVec.eq_of_toNat_eq h0
                subst this
                exact .inl ⟨.bool false, [kBool, 0], .bool _, .bool false, rfl, rfl⟩
              · have : c = 1#8 := BitVec.eq_of_toNat_eq h0
                subst this
                exact .inl ⟨.bool true, [kBool, 1], .bool _, .bool true, rfl, rfl⟩
          · simp [Outcome.ofErr] at h
        · simp [Outcome.ofErr] at h
      · rintro (⟨i, p, hm, ha, rfl, rfl⟩ | ⟨_, c, hc, rfl, rfl⟩)
        · cases hm with
          | bool v => cases ha; cases v <;> rfl
        · have : ¬ c = 1#8 := by intro h; subst h; simp at hc
          simp [Outcome.ofErr, this]
    all_goals exact gen (by simp) (by simp) (by intro i; rfl)

/-- What a scratch slice does to the result of `Bytes`. -/
theorem bytesResult_contents (ret : Option Bytes) (payload : Bytes) :
    (bytesResult ret payload).getD [] = payload ++ (ret.getD []).drop payload.length := by
  unfold bytesResult
  split
  · rename_i h
    rw [List.drop_eq_nil_of_le (by omega)]; simp
  · rename_i h
    cases ret with
    | none => simp only [Option.getD_none, List.length_nil] at h; simp at h; simp [h]
    | some r => rfl

end GoV1
