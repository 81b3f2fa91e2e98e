import Verif.CApi.Run

/-! # What the calls of the C API do, and a C client that sends and receives a message -/

namespace CApi

open Rust (Cursor Std Out DecodingError)
open Spec

variable {α β : Type}

theorem kind_into_value (k : Kind) : k.into.toU8 = k.value := by cases k <;> rfl
theorem ofU8_value (k : Kind) : Rust.Kind.ofU8 k.value = k.into := by cases k <;> rfl

/-- The kind constant with a given value. -/
def Kind.ofValue (b : Byte) : Kind :=
  match b.toNat with
  | 0 => .None | 1 => .Array | 2 => .Map | 3 => .Any | 4 => .Bytes | 5 => .String
  | 6 => .Error | 7 => .Bool | 8 => .U8 | 9 => .U16 | 10 => .U32 | 11 => .U64
  | 12 => .I32 | 13 => .I64 | 14 => .F32 | 15 => .F64 | _ => .Unknown

theorem ofValue_into (b : Byte) : (Kind.ofValue b).into = Rust.Kind.ofU8 b := by
  revert b; decide

/-- The item a `polyglot_encode_*` call stands for, given the memory its pointers point to; with its status and
encoder pointers. -/
def Call.encodes (m : Mem) : Call → Option (Ptr × Ptr × Item)
  | .encode_none st e => some (st, e, .nil)
  | .encode_array st e n k => some (st, e, .slice n k.value)
  | .encode_map st e n k v => some (st, e, .map n k.value v.value)
  | .encode_bytes st e p n =>
    match m.obj p with
    | some (.block d) => if n.toNat ≤ d.length then some (st, e, .bytes (d.take n.toNat)) else none
    | _ => none
  | .encode_string st e p =>
    match m.obj p with
    | some (.block d) => if (0 : Byte) ∈ d ∧ utf8 (d.takeWhile (· != 0)) = true then some (st, e, .string (d.takeWhile (· != 0))) else none
    | _ => none
  | .encode_error st e p =>
    match m.obj p with
    | some (.block d) => if (0 : Byte) ∈ d ∧ utf8 (d.takeWhile (· != 0)) = true then some (st, e, .error (d.takeWhile (· != 0))) else none
    | _ => none
  | .encode_bool st e v => some (st, e, .bool v)
  | .encode_u8 st e v => some (st, e, .uint8 v)
  | .encode_u16 st e v => some (st, e, .uint16 v)
  | .encode_u32 st e v => some (st, e, .uint32 v)
  | .encode_u64 st e v => some (st, e, .uint64 v)
  | .encode_i32 st e v => some (st, e, .int32 v)
  | .encode_i64 st e v => some (st, e, .int64 v)
  | .encode_f32 st e v => some (st, e, .float32 v)
  | .encode_f64 st e v => some (st, e, .float64 v)
  | _ => none

theorem encodeScalar_ok {m : Mem} {st e : Ptr} {s0 : Status} {c c' : Cursor} {call : Rust.Enc} (h0 : st ≠ 0) (h1 : e ≠ 0)
    (hst : m.obj st = some (.status s0)) (he : m.obj e = some (.encoder c)) (hc : call c = (.ok (), c')) :
    encodeScalar st e call m = .ret () ((m.set e (some (.encoder c'))).set st (some (.status .Pass))) := by
  simp only [encodeScalar]
  rw [bind_ret (check_ok h0 m)]
  simp only [if_neg h1]
  exact encodeCall_ok hst he hc

/-- An encode call has exactly the effect of the Rust encoder call on the encoder's cursor, and sets the
status to Pass. -/
theorem run_encode (std : Std) (al : Allocator) (c : Call) {m : Mem} (hm : m.Ok) {st e : Ptr} {i : Item} (hc : c.encodes m = some (st, e, i))
    {s0 : Status} {cur : Cursor} (hst : m.obj st = some (.status s0))
    (he : m.obj e = some (.encoder cur)) {cur' : Cursor} (hr : Rust.encodeItem i cur = (.ok (), cur')) :
    run std al c m = .ret .unit ((m.set e (some (.encoder cur'))).set st (some (.status .Pass))) := by
  have h0 := hm.ne0 hst
  have h1 := hm.ne0 he
  cases c
  case encode_array a b n k =>
    simp only [Call.encodes, Option.some.injEq, Prod.mk.injEq] at hc
    obtain ⟨rfl, rfl, rfl⟩ := hc
    simp only [Rust.encodeItem, ofU8_value] at hr
    exact ret_ret (encodeScalar_ok h0 h1 hst he hr)
  case encode_map a b n k v =>
    simp only [Call.encodes, Option.some.injEq, Prod.mk.injEq] at hc
    obtain ⟨rfl, rfl, rfl⟩ := hc
    simp only [Rust.encodeItem, ofU8_value] at hr
    exact ret_ret (encodeScalar_ok h0 h1 hst he hr)
  case encode_bytes a b p n =>
    simp only [Call.encodes] at hc
    split at hc
    · next d hd =>
      split at hc
      · next hn =>
        simp only [Option.some.injEq, Prod.mk.injEq] at hc
        obtain ⟨rfl, rfl, rfl⟩ := hc
        refine ret_ret (a := ()) ?_
        have hp0 : ¬ (b = 0 ∨ p = 0) := by
          rintro (hx | hx)
          · exact h1 hx
          · exact hm.ne0 hd hx
        simp only [CApi.encode_bytes]
        rw [bind_ret (check_ok h0 m)]
        simp only [if_neg hp0]
        rw [bind_ret (rawSlice_ok hd hn)]
        exact encodeCall_ok hst he hr
      · simp at hc
    · simp at hc
  case encode_string a b p =>
    simp only [Call.encodes] at hc
    split at hc
    · next d hd =>
      split at hc
      · next hn =>
        simp only [Option.some.injEq, Prod.mk.injEq] at hc
        obtain ⟨rfl, rfl, rfl⟩ := hc
        refine ret_ret (a := ()) ?_
        simp only [CApi.encode_string]
        rw [bind_ret (check_ok h0 m)]
        simp only [if_neg h1]
        rw [bind_ret (cstr_ok hd hn.1)]
        simp only [hn.2, if_true]
        exact encodeCall_ok hst he hr
      · simp at hc
    · simp at hc
  case encode_error a b p =>
    simp only [Call.encodes] at hc
    split at hc
    · next d hd =>
      split at hc
      · next hn =>
        simp only [Option.some.injEq, Prod.mk.injEq] at hc
        obtain ⟨rfl, rfl, rfl⟩ := hc
        refine ret_ret (a := ()) ?_
        simp only [CApi.encode_error]
        rw [bind_ret (check_ok h0 m)]
        simp only [if_neg h1]
        rw [bind_ret (cstr_ok hd hn.1)]
        simp only [hn.2, if_true]
        exact encodeCall_ok hst he hr
      · simp at hc
    · simp at hc
  all_goals simp only [Call.encodes, Option.some.injEq, Prod.mk.injEq, reduceCtorEq] at hc
  all_goals obtain ⟨rfl, rfl, rfl⟩ := hc
  all_goals exact ret_ret (encodeScalar_ok h0 h1 hst he hr)

/-! ## Decoding -/

/-- The Rust decoder call behind a `polyglot_decode_*` call, with its status and decoder pointers
(`polyglot_decode_none` is separate). -/
def Call.decodes : Call → Option (Ptr × Ptr × Rust.Req)
  | .decode_array st d k => some (st, d, .array k.into)
  | .decode_map st d k v => some (st, d, .map k.into v.into)
  | .decode_bytes st d => some (st, d, .bytes)
  | .decode_string st d => some (st, d, .string)
  | .decode_error st d => some (st, d, .error)
  | .decode_bool st d => some (st, d, .bool)
  | .decode_u8 st d => some (st, d, .u8)
  | .decode_u16 st d => some (st, d, .u16)
  | .decode_u32 st d => some (st, d, .u32)
  | .decode_u64 st d => some (st, d, .u64)
  | .decode_i32 st d => some (st, d, .i32)
  | .decode_i64 st d => some (st, d, .i64)
  | .decode_f32 st d => some (st, d, .f32)
  | .decode_f64 st d => some (st, d, .f64)
  | _ => none

/-- The returned value, with the memory it points to, represents the item. -/
inductive Shows (m : Mem) : Val → Item → Prop
  | array (n k) : Shows m (.u32 n) (.slice n k)
  | map (n k v) : Shows m (.u32 n) (.map n k v)
  | emptyBytes {p} : m.obj p = some (.buffer dangling 0) → Shows m (.ptr p) (.bytes [])
  | bytes {p data v} : m.obj p = some (.buffer data (BitVec.ofNat 32 v.length)) → m.obj data = some (.block v) → v ≠ [] →
      Shows m (.ptr p) (.bytes v)
  | string {p v} : m.obj p = some (.block (v ++ [0])) → (0 : Byte) ∉ v → Shows m (.ptr p) (.string v)
  | error {p v} : m.obj p = some (.block (v ++ [0])) → (0 : Byte) ∉ v → Shows m (.ptr p) (.error v)
  | bool (v) : Shows m (.bool v) (.bool v)
  | u8 (v) : Shows m (.u8 v) (.uint8 v)
  | u16 (v) : Shows m (.u16 v) (.uint16 v)
  | u32 (v) : Shows m (.u32 v) (.uint32 v)
  | u64 (v) : Shows m (.u64 v) (.uint64 v)
  | i32 (v) : Shows m (.i32 v) (.int32 v)
  | i64 (v) : Shows m (.i64 v) (.int64 v)
  | f32 (v) : Shows m (.f32 v) (.float32 v)
  | f64 (v) : Shows m (.f64 v) (.float64 v)

/-- Whether an item is a byte slice. -/
def isBytes : Item → Bool
  | .bytes _ => true
  | _ => false

/-- Strings and errors that a C string can hold. -/
def Item.NoNul : Item → Prop
  | .string v => (0 : Byte) ∉ v
  | .error v => (0 : Byte) ∉ v
  | _ => True

theorem map_ok {f : α → Item} {x : Rust.Dec α} {c c' : Cursor} {i : Item}
    (h : (do return f (← x) : Rust.Dec Item) c = (.ok i, c')) : ∃ a, x c = (.ok a, c') ∧ f a = i := by
  change (x >>= fun a => pure (f a)) c = _ at h
  rw [Rust.bind_apply] at h
  split at h
  · next a c1 hx =>
    rw [Rust.pure_apply] at h
    simp only [Prod.mk.injEq, Out.ok.injEq] at h
    obtain ⟨rfl, rfl⟩ := h
    exact ⟨a, hx, rfl⟩
  · simp at h
  · simp at h

theorem map_err {f : α → Item} {x : Rust.Dec α} {c c' : Cursor} {e : DecodingError}
    (h : (do return f (← x) : Rust.Dec Item) c = (.err e, c')) : x c = (.err e, c') := by
  change (x >>= fun a => pure (f a)) c = _ at h
  rw [Rust.bind_apply] at h
  split at h
  · rw [Rust.pure_apply] at h; simp at h
  · next hx => rw [hx]; simpa using h
  · simp at h

/-- What a decode call does when the Rust call fails. -/
theorem run_decode_err (std : Std) (al : Allocator) (c : Call) {m : Mem} (hm : m.Ok) {st d : Ptr} {q : Rust.Req}
    (hc : c.decodes = some (st, d, q)) {s0 : Status} {cur : Cursor} (hst : m.obj st = some (.status s0))
    (hd : m.obj d = some (.decoder cur)) {e : DecodingError} {cur' : Cursor} (hr : Rust.readItem std q cur = (.err e, cur')) :
    run std al c m = .ret c.zero ((m.set d (some (.decoder cur'))).set st (some (.status .Fail))) := by
  have h0 := hm.ne0 hst
  have h1 := hm.ne0 hd
  cases c
  all_goals simp only [Call.decodes, Option.some.injEq, Prod.mk.injEq, reduceCtorEq] at hc
  all_goals obtain ⟨rfl, rfl, rfl⟩ := hc
  all_goals exact ret_ret (decodeCall_err h0 h1 hst hd (map_err hr) _ _)

theorem run_pass {γ : Type} {f : γ → Val} {m : Mem} (hm : m.Ok) {st d : Ptr} {s0 : Status} {cur cur' : Cursor}
    (hst : m.obj st = some (.status s0)) (hd : m.obj d = some (.decoder cur)) {call : Rust.Dec α} {a : α}
    (hc : call cur = (.ok a, cur')) (zero : γ) (g : α → γ) :
    ret f (decodeCall st d zero call fun a => pass st (g a)) m =
      .ret (f (g a)) ((m.set d (some (.decoder cur'))).set st (some (.status .Pass))) := by
  have hne : st ≠ d := by rintro rfl; rw [hst] at hd; simp at hd
  refine ret_ret ?_
  rw [decodeCall_ok (hm.ne0 hst) (hm.ne0 hd) hd hc]
  exact pass_ok (s0 := s0) (by rw [set_other _ _ hne]; exact hst) _

/-- What a decode call does when the Rust call succeeds: status Pass, the decoder's cursor where Rust left it,
and a result that represents the item.  The only failure is a string with a zero byte in it. -/
theorem run_decode_ok (std : Std) (al : Allocator) (c : Call) {m : Mem} (hm : m.Ok) {st d : Ptr} {q : Rust.Req}
    (hc : c.decodes = some (st, d, q)) {s0 : Status} {cur : Cursor} (hst : m.obj st = some (.status s0))
    (hd : m.obj d = some (.decoder cur)) {i : Item} {cur' : Cursor} (hr : Rust.readItem std q cur = (.ok i, cur'))
    (hnul : Item.NoNul i) :
    ∃ v m', run std al c m = .ret v m' ∧ m'.obj st = some (.status .Pass) ∧ m'.obj d = some (.decoder cur') ∧
      Shows m' v i ∧ Evolves [st, d] [] m m' ∧ (∀ p, v = .ptr p → m.obj p = none) ∧
      (isBytes i = false → ∀ p, v ≠ .ptr p → m.obj p = none → m'.obj p = none) := by
  have hne : st ≠ d := by rintro rfl; rw [hst] at hd; simp at hd
  have hst1 : (m.set d (some (.decoder cur'))).obj st = some (.status s0) := by rw [set_other _ _ hne]; exact hst
  have hst2 : ∀ s, ((m.set d (some (.decoder cur'))).set st (some (.status s))).obj st = some (.status s) := fun s => set_same _ _ _
  have hd2 : ∀ s, ((m.set d (some (.decoder cur'))).set st (some (.status s))).obj d = some (.decoder cur') := fun s => by
    rw [set_other _ _ (Ne.symm hne), set_same]
  have hok1 : (m.set d (some (.decoder cur'))).Ok := hm.set hd _
  have hok2 : ∀ s, ((m.set d (some (.decoder cur'))).set st (some (.status s))).Ok := fun s => hok1.set hst1 _
  have hev : ∀ s, Evolves [st, d] [] m ((m.set d (some (.decoder cur'))).set st (some (.status s))) := fun s =>
    (Evolves.set hm hd (o := .decoder cur') rfl (by simp)).trans (.set hok1 hst1 rfl (by simp))
  have hnn : ∀ s p, m.obj p = none → ((m.set d (some (.decoder cur'))).set st (some (.status s))).obj p = none := by
    intro s p hp
    have h1 : p ≠ st := by rintro rfl; rw [hst] at hp; simp at hp
    have h2 : p ≠ d := by rintro rfl; rw [hd] at hp; simp at hp
    rw [set_other _ _ h1, set_other _ _ h2]; exact hp
  have hpp : ∀ (s : Status) (o : Obj) (p : Ptr), (Val.ptr m.next) ≠ .ptr p → m.obj p = none →
      (((m.set d (some (.decoder cur'))).set st (some (.status s))).push o).obj p = none := by
    intro s o p h1 h2
    rw [push_ne _ (by rintro rfl; exact h1 rfl)]; exact hnn s p h2
  have hfr : ∀ p, Val.ptr m.next = .ptr p → m.obj p = none := by
    intro p h; cases h; exact hm.fresh
  have hcs : ∀ v : Bytes, (0 : Byte) ∉ v →
      newCString st v (m.set d (some (.decoder cur'))) =
        .ret m.next (((m.set d (some (.decoder cur'))).set st (some (.status .Pass))).push (.block (v ++ [0]))) := by
    intro v hv
    simp only [newCString, if_neg hv]
    rw [bind_ret (setStatus_ok hst1 _)]
    rfl
  cases c
  all_goals simp only [Call.decodes, Option.some.injEq, Prod.mk.injEq, reduceCtorEq] at hc
  all_goals obtain ⟨rfl, rfl, rfl⟩ := hc
  all_goals obtain ⟨a, ha, rfl⟩ := map_ok hr
  case decode_bytes st d =>
    let m2 := (m.set d (some (.decoder cur'))).set st (some (.status .Pass))
    by_cases hl : a.length = 0
    · have ha0 : a = [] := List.length_eq_zero_iff.mp hl
      refine ⟨.ptr m2.next, m2.push (.buffer dangling 0), ?_, push_old (hok2 _) _ (hst2 _), push_old (hok2 _) _ (hd2 _), ?_,
        (hev _).trans (.push (hok2 _) _), hfr, fun h => by simp [isBytes] at h⟩
      · refine ret_ret ?_
        rw [decode_bytes, decodeCall_ok (hm.ne0 hst) (hm.ne0 hd) hd ha]
        rw [bind_ret (setStatus_ok hst1 _)]
        simp only [hl, if_true]
        rfl
      · subst ha0; exact .emptyBytes (push_next _ _)
    · let m3 := m2.push (.block a)
      have hok3 : m3.Ok := (hok2 _).push _
      refine ⟨.ptr m3.next, m3.push (.buffer m2.next (BitVec.ofNat 32 a.length)), ?_,
        push_old hok3 _ (push_old (hok2 _) _ (hst2 _)), push_old hok3 _ (push_old (hok2 _) _ (hd2 _)), ?_,
        ((hev _).trans (.push (hok2 _) _)).trans (.push hok3 _), ?_, fun h => by simp [isBytes] at h⟩
      · refine ret_ret ?_
        rw [decode_bytes, decodeCall_ok (hm.ne0 hst) (hm.ne0 hd) hd ha]
        rw [bind_ret (setStatus_ok hst1 _)]
        simp only [hl, if_false]
        rfl
      · exact .bytes (push_next _ _) (push_old hok3 _ (push_next _ _)) (fun h => hl (by rw [h]; rfl))
      · intro p h
        cases h
        cases hx : m.obj m3.next with
        | none => rfl
        | some o => have := hm.range _ _ hx; simp [m3, m2, Mem.push, Mem.set] at this; omega
  case decode_string =>
    refine ⟨_, _, ret_ret (by rw [decode_string, decodeCall_ok (hm.ne0 hst) (hm.ne0 hd) hd ha]; exact hcs a hnul),
      push_old (hok2 _) _ (hst2 _), push_old (hok2 _) _ (hd2 _), .string (push_next _ _) hnul, (hev _).trans (.push (hok2 _) _),
      hfr, fun _ => hpp _ _⟩
  case decode_error =>
    refine ⟨_, _, ret_ret (by rw [decode_error, decodeCall_ok (hm.ne0 hst) (hm.ne0 hd) hd ha]; exact hcs a hnul),
      push_old (hok2 _) _ (hst2 _), push_old (hok2 _) _ (hd2 _), .error (push_next _ _) hnul, (hev _).trans (.push (hok2 _) _),
      hfr, fun _ => hpp _ _⟩
  all_goals exact ⟨_, _, run_pass hm hst hd ha _ _, hst2 _, hd2 _, by constructor, hev _, fun p h => by simp at h,
    fun _ p _ => hnn _ p⟩

/-- A string with a zero byte in it cannot be returned: status Fail, null, although the Rust call succeeded
and the cursor has moved past the string. -/
theorem run_decode_nul (std : Std) (al : Allocator) (c : Call) {m : Mem} (hm : m.Ok) {st d : Ptr} {q : Rust.Req}
    (hc : c.decodes = some (st, d, q)) {s0 : Status} {cur : Cursor} (hst : m.obj st = some (.status s0))
    (hd : m.obj d = some (.decoder cur)) {i : Item} {cur' : Cursor} (hr : Rust.readItem std q cur = (.ok i, cur'))
    (hnul : ¬ Item.NoNul i) :
    run std al c m = .ret (.ptr 0) ((m.set d (some (.decoder cur'))).set st (some (.status .Fail))) := by
  have hne : st ≠ d := by rintro rfl; rw [hst] at hd; simp at hd
  have hst1 : (m.set d (some (.decoder cur'))).obj st = some (.status s0) := by rw [set_other _ _ hne]; exact hst
  have hcs : ∀ v : Bytes, (0 : Byte) ∈ v → newCString st v (m.set d (some (.decoder cur'))) =
        .ret 0 ((m.set d (some (.decoder cur'))).set st (some (.status .Fail))) := by
    intro v hv
    simp only [newCString, if_pos hv]
    rw [bind_ret (setStatus_ok hst1 _)]
    rfl
  cases c
  all_goals simp only [Call.decodes, Option.some.injEq, Prod.mk.injEq, reduceCtorEq] at hc
  all_goals obtain ⟨rfl, rfl, rfl⟩ := hc
  all_goals obtain ⟨a, ha, rfl⟩ := map_ok hr
  case decode_string =>
    exact ret_ret (by rw [decode_string, decodeCall_ok (hm.ne0 hst) (hm.ne0 hd) hd ha]; exact hcs a (Classical.not_not.mp hnul))
  case decode_error =>
    exact ret_ret (by rw [decode_error, decodeCall_ok (hm.ne0 hst) (hm.ne0 hd) hd ha]; exact hcs a (Classical.not_not.mp hnul))
  all_goals exact absurd trivial hnul

/-- `polyglot_decode_none` leaves the status alone, whatever it returns. -/
theorem run_decode_none (std : Std) (al : Allocator) {m : Mem} (hm : m.Ok) {st d : Ptr} {s0 : Status} {cur : Cursor}
    (hst : m.obj st = some (.status s0)) (hd : m.obj d = some (.decoder cur)) {b : Bool} {cur' : Cursor}
    (hr : Rust.decode_none std cur = (.ok b, cur')) :
    run std al (.decode_none st d) m = .ret (.bool b) (m.set d (some (.decoder cur'))) := by
  refine ret_ret ?_
  simp only [decode_none]
  rw [bind_ret (check_ok (hm.ne0 hst) m)]
  simp only [if_neg (hm.ne0 hd)]
  rw [bind_ret (runDecoder_ok hd hr)]
  rfl

end CApi
