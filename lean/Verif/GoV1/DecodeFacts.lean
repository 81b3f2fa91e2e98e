import Verif.GoV1.Decode
import Verif.GoV2.ReadFacts

/-! # The v1 readers in terms of the v2 readers -/

namespace GoV1

open Spec
open GoV2 (Err Outcome)

theorem at0 (k : Byte) : Bytes.at [k] 0 = .ok k := rfl

theorem and7f_setWidth {w : Nat} (hw : 8 ≤ w) (c : Byte) :
    (c &&& (continuation - 1 : Byte)).setWidth w = c.setWidth w &&& (0x80#w - 1) := by
  rw [setWidth_and_0x7f hw]
  apply BitVec.eq_of_toNat_eq
  have := c.isLt
  have h127 : (continuation - 1 : Byte).toNat = 127 := by decide
  rw [BitVec.toNat_setWidth, BitVec.toNat_and, h127, nat_and_127, BitVec.toNat_ofNat]

/-- A `for` loop whose body reads one varint group is the generic ladder. -/
theorem loop_eq {w : Nat} {R : Type} (b : Bytes) (fin : BitVec w → Nat → Go R) (err : Go R) (N : Nat)
    (g : BitVec w → Byte → Nat → BitVec w)
    (step : Nat → Option R × BitVec w × Nat → Go (ForInStep (Option R × BitVec w × Nat)))
    (hstep : ∀ i x s, i < N → step i (none, x, s) = (b.at i >>= fun c =>
      if c.setWidth w < (0x80#w) then
        fin (x ||| (c.setWidth w <<< s)) (i + 1) >>= fun r => .ok (.done (some r, g x c s, s))
      else .ok (.yield (none, x ||| ((c.setWidth w &&& (0x80#w - 1)) <<< s), s + 7)))) :
    ∀ (n i s : Nat) (x : BitVec w), i + n ≤ N →
      (forIn (List.range' i n) (none, x, s) step >>= fun r =>
        match r.1 with
        | some r => Go.ok r
        | none => err) = GoV2.decLad b fin err n i s x := by
  intro n
  induction n with
  | zero => intro i s x _; rfl
  | succ n ih =>
    intro i s x h
    rw [List.range'_succ, List.forIn_cons, hstep i x s (by omega)]
    simp only [GoV2.decLad, GoV2.continuation]
    cases b.at i with
    | panic => rfl
    | ok c =>
      simp only [Go.bind_ok]
      by_cases hc : BitVec.setWidth w c < 0x80#w
      · simp only [hc, if_true]
        cases fin (x ||| (c.setWidth w <<< s)) (i + 1) <;> rfl
      · simp only [hc, if_false, Go.bind_ok]
        exact ih (i + 1) (s + 7) _ (by omega)

theorem lt_cont {w : Nat} (hw : 8 ≤ w) (c : Byte) : (c < (continuation : Byte)) = (c.setWidth w < 0x80#w) := by
  rw [setWidth_lt_0x80 hw]; exact propext (lt_0x80 (by decide) c)

theorem dead {N i : Nat} (h : i < N + 1) (p : Prop) : ¬ (i > N ∧ p) := by omega

theorem decodeUint16_eq (b : Bytes) : decodeUint16 b = GoV2.decodeUint16 b := by
  rw [GoV2.decodeUint16_eq]
  cases b with
  | nil => rfl
  | cons c bs =>
    have h0 : Bytes.at (c :: bs) 0 = .ok c := rfl
    have h1 : Uint16Kind.at 0 = .ok GoV2.Uint16RawKind := rfl
    simp only [decodeUint16, Std.Legacy.Range.forIn_eq_forIn_range', Std.Legacy.Range.size, h0, h1,
      Go.bind_ok, List.head?_cons, Option.some.injEq, gt_iff_lt]
    congr 1
    congr 1
    refine loop_eq (c :: bs) (GoV2.finU (w := 16) (c :: bs)) (.ok (c :: bs, 0, some .InvalidUint16))
      (VarIntLen16 + 1) (fun x _ _ => x) _ ?_ 3 1 0 0#16 (by decide)
    intro i x s hi
    have hd := dead hi
    simp only [gt_iff_lt] at hd
    simp only [hd, if_false, lt_cont (w := 16) (by decide), and7f_setWidth (w := 16) (by decide), GoV2.finU]
    cases Bytes.at (c :: bs) i with
    | panic => rfl
    | ok d =>
      simp only [Go.bind_ok]
      split
      · cases Bytes.sliceFrom (c :: bs) (i + 1) <;> rfl
      · rfl

theorem decodeUint32_eq (b : Bytes) : decodeUint32 b = GoV2.decodeUint32 b := by
  rw [GoV2.decodeUint32_eq]
  cases b with
  | nil => rfl
  | cons c bs =>
    have h0 : Bytes.at (c :: bs) 0 = .ok c := rfl
    have h1 : Uint32Kind.at 0 = .ok GoV2.Uint32RawKind := rfl
    simp only [decodeUint32, Std.Legacy.Range.forIn_eq_forIn_range', Std.Legacy.Range.size, h0, h1,
      Go.bind_ok, List.head?_cons, Option.some.injEq, gt_iff_lt]
    congr 1
    congr 1
    refine loop_eq (c :: bs) (GoV2.finU (w := 32) (c :: bs)) (.ok (c :: bs, 0, some .InvalidUint32))
      (VarIntLen32 + 1) (fun x _ _ => x) _ ?_ 5 1 0 0#32 (by decide)
    intro i x s hi
    have hd := dead hi
    simp only [gt_iff_lt] at hd
    simp only [hd, if_false, lt_cont (w := 32) (by decide), and7f_setWidth (w := 32) (by decide), GoV2.finU]
    cases Bytes.at (c :: bs) i with
    | panic => rfl
    | ok d =>
      simp only [Go.bind_ok]
      split
      · cases Bytes.sliceFrom (c :: bs) (i + 1) <;> rfl
      · rfl

theorem decodeUint64_eq (b : Bytes) : decodeUint64 b = GoV2.decodeUint64 b := by
  rw [GoV2.decodeUint64_eq]
  cases b with
  | nil => rfl
  | cons c bs =>
    have h0 : Bytes.at (c :: bs) 0 = .ok c := rfl
    have h1 : Uint64Kind.at 0 = .ok GoV2.Uint64RawKind := rfl
    simp only [decodeUint64, Std.Legacy.Range.forIn_eq_forIn_range', Std.Legacy.Range.size, h0, h1,
      Go.bind_ok, List.head?_cons, Option.some.injEq, gt_iff_lt]
    congr 1
    congr 1
    refine loop_eq (c :: bs) (GoV2.finU (w := 64) (c :: bs)) (.ok (c :: bs, 0, some .InvalidUint64))
      (VarIntLen64 + 1) (fun x _ _ => x) _ ?_ 10 1 0 0#64 (by decide)
    intro i x s hi
    have hd := dead hi
    simp only [gt_iff_lt] at hd
    simp only [hd, if_false, lt_cont (w := 64) (by decide), and7f_setWidth (w := 64) (by decide), GoV2.finU]
    cases Bytes.at (c :: bs) i with
    | panic => rfl
    | ok d =>
      simp only [Go.bind_ok]
      split
      · cases Bytes.sliceFrom (c :: bs) (i + 1) <;> rfl
      · rfl

theorem decodeInt32_eq (b : Bytes) : decodeInt32 b = GoV2.decodeInt32 b := by
  rw [GoV2.decodeInt32_eq]
  cases b with
  | nil => rfl
  | cons c bs =>
    have h0 : Bytes.at (c :: bs) 0 = .ok c := rfl
    have h1 : Int32Kind.at 0 = .ok GoV2.Int32RawKind := rfl
    simp only [decodeInt32, Std.Legacy.Range.forIn_eq_forIn_range', Std.Legacy.Range.size, h0, h1,
      Go.bind_ok, List.head?_cons, Option.some.injEq, gt_iff_lt]
    congr 1
    congr 1
    refine loop_eq (c :: bs) (GoV2.finI (w := 32) (c :: bs)) (.ok (c :: bs, 0, some .InvalidInt32))
      (VarIntLen32 + 1) (fun x c s => x ||| (c.setWidth 32 <<< s)) _ ?_ 5 1 0 0#32 (by decide)
    intro i x s hi
    have hd := dead hi
    simp only [gt_iff_lt] at hd
    simp only [hd, if_false, lt_cont (w := 32) (by decide), and7f_setWidth (w := 32) (by decide), GoV2.finI]
    cases Bytes.at (c :: bs) i with
    | panic => rfl
    | ok d =>
      simp only [Go.bind_ok]
      split
      · cases Bytes.sliceFrom (c :: bs) (i + 1) with
        | panic => simp only [Go.bind_panic]; split <;> rfl
        | ok r => simp only [Go.bind_ok, Go.pure_eq]; split <;> rfl
      · rfl

theorem decodeInt64_eq (b : Bytes) : decodeInt64 b = GoV2.decodeInt64 b := by
  rw [GoV2.decodeInt64_eq]
  cases b with
  | nil => rfl
  | cons c bs =>
    have h0 : Bytes.at (c :: bs) 0 = .ok c := rfl
    have h1 : Int64Kind.at 0 = .ok GoV2.Int64RawKind := rfl
    simp only [decodeInt64, Std.Legacy.Range.forIn_eq_forIn_range', Std.Legacy.Range.size, h0, h1,
      Go.bind_ok, List.head?_cons, Option.some.injEq, gt_iff_lt]
    congr 1
    congr 1
    refine loop_eq (c :: bs) (GoV2.finI (w := 64) (c :: bs)) (.ok (c :: bs, 0, some .InvalidInt64))
      (VarIntLen64 + 1) (fun x c s => x ||| (c.setWidth 64 <<< s)) _ ?_ 10 1 0 0#64 (by decide)
    intro i x s hi
    have hd := dead hi
    simp only [gt_iff_lt] at hd
    simp only [hd, if_false, lt_cont (w := 64) (by decide), and7f_setWidth (w := 64) (by decide), GoV2.finI]
    cases Bytes.at (c :: bs) i with
    | panic => rfl
    | ok d =>
      simp only [Go.bind_ok]
      split
      · cases Bytes.sliceFrom (c :: bs) (i + 1) with
        | panic => simp only [Go.bind_panic]; split <;> rfl
        | ok r => simp only [Go.bind_ok, Go.pure_eq]; split <;> rfl
      · rfl


theorem decodeNil_eq (b : Bytes) : decodeNil b = GoV2.decodeNil b := by
  cases b <;> rfl

theorem decodeUint8_eq (b : Bytes) : decodeUint8 b = GoV2.decodeUint8 b := rfl
theorem decodeFloat32_eq (b : Bytes) : decodeFloat32 b = GoV2.decodeFloat32 b := rfl
theorem decodeFloat64_eq (b : Bytes) : decodeFloat64 b = GoV2.decodeFloat64 b := rfl

theorem decodeMap_eq (b : Bytes) (k v : Byte) (ks vs : Bytes) (h : b ≠ [kMap, k, v]) :
    decodeMap b (k :: ks) (v :: vs) = GoV2.decodeMap b k v := by
  have hk : Bytes.at (k :: ks) 0 = .ok k := rfl
  have hv : Bytes.at (v :: vs) 0 = .ok v := rfl
  have hm : MapKind.at 0 = .ok GoV2.MapRawKind := rfl
  match b with
  | [] => rfl
  | [_] => rfl
  | [_, _] => rfl
  | [m, k', v'] =>
    rw [GoV2.decodeMap_spec]
    simp only [decodeMap, MapKind, Bytes.at]
    by_cases h1 : m = 2
    · by_cases h2 : k' = k
      · by_cases h3 : v' = v
        · subst h1 h2 h3; exact absurd rfl h
        · simp [h1, h2, h3]
      · simp [h1, h2]
    · have h1' : ¬ m = 2#8 := h1
      simp [h1']
  | m :: k' :: v' :: c :: r =>
    simp only [decodeMap, GoV2.decodeMap, hk, hv, hm, decodeUint32_eq, Go.bind_ok]
    simp

theorem decodeMap_short (k v : Byte) (ks vs : Bytes) :
    decodeMap [kMap, k, v] (k :: ks) (v :: vs) = .ok ([], 0, some .InvalidMap) := by
  have hk : Bytes.at (k :: ks) 0 = .ok k := rfl
  have hv : Bytes.at (v :: vs) 0 = .ok v := rfl
  have hm : MapKind.at 0 = .ok kMap := rfl
  simp [decodeMap, MapKind, kMap, decodeUint32_eq, Bytes.at, Bytes.sliceFrom, GoV2.decodeUint32]

theorem decodeSlice_eq (b : Bytes) (k : Byte) (ks : Bytes) (h : b ≠ [kSlice, k]) :
    decodeSlice b (k :: ks) = GoV2.decodeSlice b k := by
  have hk : Bytes.at (k :: ks) 0 = .ok k := rfl
  have hm : SliceKind.at 0 = .ok GoV2.SliceRawKind := rfl
  match b with
  | [] => rfl
  | [_] => rfl
  | [m, k'] =>
    rw [GoV2.decodeSlice_spec]
    simp only [decodeSlice, SliceKind, Bytes.at]
    by_cases h1 : m = 1
    · by_cases h2 : k' = k
      · subst h1 h2; exact absurd rfl h
      · simp [h1, h2]
    · have h1' : ¬ m = 1#8 := h1
      simp [h1']
  | m :: k' :: c :: r =>
    simp only [decodeSlice, GoV2.decodeSlice, hk, hm, decodeUint32_eq, Go.bind_ok]
    simp

theorem decodeSlice_short (k : Byte) (ks : Bytes) :
    decodeSlice [kSlice, k] (k :: ks) = .ok ([], 0, some .InvalidSlice) := by
  have hk : Bytes.at (k :: ks) 0 = .ok k := rfl
  have hm : SliceKind.at 0 = .ok kSlice := rfl
  simp [decodeSlice, SliceKind, kSlice, decodeUint32_eq, Bytes.at, Bytes.sliceFrom, GoV2.decodeUint32]

theorem decodeString_eq (b : Bytes) (h : b ≠ [kString]) : decodeString b = GoV2.decodeString b := by
  have hm : StringKind.at 0 = .ok GoV2.StringRawKind := rfl
  match b with
  | [] => rfl
  | [m] =>
    simp only [decodeString, GoV2.decodeString, StringKind, Bytes.at]
    by_cases h1 : m = 5
    · subst h1; exact absurd rfl h
    · have h1' : ¬ m = 5#8 := h1
      simp [h1']
  | m :: c :: r =>
    simp only [decodeString, GoV2.decodeString, hm, decodeUint32_eq, Go.bind_ok]
    simp

theorem decodeString_short : decodeString [kString] = .ok ([], [], some .InvalidString) := by decide

theorem decodeError_eq (b : Bytes) (h : b ≠ [kError]) (h' : b ≠ [kError, kString]) :
    decodeError b = GoV2.decodeError b := by
  have hm : ErrorKind.at 0 = .ok GoV2.ErrorRawKind := rfl
  match b with
  | [] => rfl
  | [m] =>
    simp only [decodeError, GoV2.decodeError, ErrorKind, Bytes.at]
    by_cases h1 : m = 6
    · subst h1; exact absurd rfl h
    · have h1' : ¬ m = 6#8 := h1
      simp [h1']
  | m :: c :: r =>
    have h0 : Bytes.at (m :: c :: r) 0 = .ok m := rfl
    have hs : Bytes.sliceFrom (m :: c :: r) 1 = .ok (c :: r) := by simp [Bytes.sliceFrom]
    simp only [decodeError, GoV2.decodeError, hm, h0, hs, Go.bind_ok]
    by_cases h1 : m = GoV2.ErrorRawKind
    · rw [decodeString_eq (c :: r)]
      · simp
      · intro hc; apply h'; rw [hc, h1]; rfl
    · simp [h1]

theorem decodeError_short : decodeError [kError] = .ok ([], none, some .InvalidError) ∧
    decodeError [kError, kString] = .ok ([], none, some .InvalidError) := by decide

theorem decodeBool_spec (b : Bytes) : decodeBool b =
    match b with
    | m :: c :: r => if m = kBool then .ok (r, c = 1, none) else .ok (b, false, some .InvalidBool)
    | _ => .ok (b, false, some .InvalidBool) := by
  have hm : BoolKind.at 0 = .ok kBool := rfl
  match b with
  | [] => rfl
  | [_] => rfl
  | m :: c :: r =>
    simp only [decodeBool, Bytes.at, BoolKind, kBool, Bytes.sliceFrom, trueBool]
    by_cases h1 : m = kBool
    · by_cases h2 : c = 1
      · simp [h1, h2]
      · have h2' : ¬ c = 1#8 := h2
        simp [h1, h2']
    · have h1' : ¬ m = 7#8 := h1
      simp [h1']

/-- The contents of the slice `Bytes` returns. -/
def bytesResult (ret : Option Bytes) (payload : Bytes) : Option Bytes :=
  if (ret.getD []).length < payload.length then some payload
  else ret.map (fun r => payload ++ r.drop payload.length)

theorem decodeBytes_spec (b : Bytes) (ret : Option Bytes) : decodeBytes b ret =
    match b with
    | m :: t =>
      if m = kBytes then
        (do let (r, size, err) ← GoV2.decodeUint32 t
            if err ≠ none then return (r, none, some .InvalidBytes)
            if size.toNat ≤ r.length then
              return (r.drop size.toNat, bytesResult ret (r.take size.toNat), none)
            return (r, none, some .InvalidBytes))
      else .ok (b, none, some .InvalidBytes)
    | [] => .ok (b, none, some .InvalidBytes) := by
  have hm : BytesKind.at 0 = .ok kBytes := rfl
  match b with
  | [] => rfl
  | m :: t =>
    have h0 : Bytes.at (m :: t) 0 = .ok m := rfl
    have hs : Bytes.sliceFrom (m :: t) 1 = .ok t := by simp [Bytes.sliceFrom]
    simp only [decodeBytes, hm, h0, hs, Go.bind_ok, decodeUint32_eq]
    by_cases h1 : m = kBytes
    · simp only [h1, List.length_cons, gt_iff_lt, Nat.zero_lt_succ, if_true]
      cases GoV2.decodeUint32 t with
      | panic => rfl
      | ok x =>
        obtain ⟨r, size, err⟩ := x
        simp only [Go.bind_ok]
        by_cases he : err = none
        · simp only [he, ne_eq, not_true, if_false]
          by_cases hl : size.toNat ≤ r.length
          · have hl' : (r.length : Int) > (size.toNat : Int) - 1 := by omega
            have hp : Bytes.slice r 0 size.toNat = .ok (r.take size.toNat) := by simp [Bytes.slice, hl]
            have hf : Bytes.sliceFrom r size.toNat = .ok (r.drop size.toNat) := by simp [Bytes.sliceFrom, hl]
            have hlen : (r.take size.toNat).length = size.toNat := by simp [hl]
            simp only [hl, gt_iff_lt.mp hl', if_true, hp, hf, Go.bind_ok]
            cases ret with
            | none =>
              simp only [Option.getD_none, List.length_nil, bytesResult, hlen, Option.map_none, copyOver,
                List.length_replicate, Nat.min_self, if_true]
              by_cases hz : 0 < size.toNat
              · simp [hz, List.take_take, List.drop_replicate]
              · simp [hz]
            | some rt =>
              simp only [Option.getD_some, bytesResult, hlen, Option.map_some, copyOver, reduceCtorEq, if_false]
              by_cases hz : rt.length < size.toNat
              · simp [hz]
              · have : min rt.length size.toNat = size.toNat := by omega
                simp [hz, this, List.take_take]
          · have hl' : ¬ ((size.toNat : Int) - 1 < (r.length : Int)) := by omega
            simp [hl, hl']
        · simp [he]
    · simp [h1]

end GoV1
