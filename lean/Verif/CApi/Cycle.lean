import Verif.CApi.Client
import Verif.Props.WireFormat

/-! # A C program that sends a message through memory and reads it back

Not polyglot code: a client of the C API, used to state what such a program observes. -/

namespace CApi

open Rust (Cursor Std Out DecodingError)
open Spec

variable {α β : Type}

/-- What a client asks for: one constructor per `polyglot_decode_*` function. -/
inductive Shape where
  | none | array (kind : Kind) | map (keyKind valueKind : Kind) | bytes | string | error | bool
  | u8 | u16 | u32 | u64 | i32 | i64 | f32 | f64
deriving DecidableEq, Repr

/-- The type of an item, without its value. -/
def shape : Item → Shape
  | .nil => .none
  | .map _ k v => .map (Kind.ofValue k) (Kind.ofValue v)
  | .slice _ k => .array (Kind.ofValue k)
  | .bytes _ => .bytes | .string _ => .string | .error _ => .error | .bool _ => .bool
  | .uint8 _ => .u8 | .uint16 _ => .u16 | .uint32 _ => .u32 | .uint64 _ => .u64
  | .int32 _ => .i32 | .int64 _ => .i64 | .float32 _ => .f32 | .float64 _ => .f64

/-- The encode call for an item; `p` points to the bytes of a byte slice or string. -/
def encodeCallFor (st e p : Ptr) : Item → Call
  | .nil => .encode_none st e
  | .map n k v => .encode_map st e n (Kind.ofValue k) (Kind.ofValue v)
  | .slice n k => .encode_array st e n (Kind.ofValue k)
  | .bytes v => .encode_bytes st e p (BitVec.ofNat 32 v.length)
  | .string _ => .encode_string st e p
  | .error _ => .encode_error st e p
  | .bool v => .encode_bool st e v
  | .uint8 v => .encode_u8 st e v
  | .uint16 v => .encode_u16 st e v
  | .uint32 v => .encode_u32 st e v
  | .uint64 v => .encode_u64 st e v
  | .int32 v => .encode_i32 st e v
  | .int64 v => .encode_i64 st e v
  | .float32 v => .encode_f32 st e v
  | .float64 v => .encode_f64 st e v

/-- The memory an encode call needs: the bytes, or the string and its terminator. -/
def argument : Item → Bytes
  | .bytes v => v
  | .string v => v ++ [0]
  | .error v => v ++ [0]
  | _ => []

/-- `status == POLYGLOT_STATUS_PASS`. -/
def passed (st : Ptr) : C Bool := do
  match ← load st with
  | .status .Pass => return true
  | _ => return false

/-- Put the argument in fresh memory, call, free the memory, look at the status. -/
def send (std : Std) (al : Allocator) (st e : Ptr) (i : Item) : C Bool := do
  let p ← alloc (.block (argument i))
  let _ ← run std al (encodeCallFor st e p i)
  release p
  passed st

/-- Send all items; stop at the first failure. -/
def sendAll (std : Std) (al : Allocator) (st e : Ptr) : List Item → C Bool
  | [] => return true
  | i :: is => do if ← send std al st e i then sendAll std al st e is else return false

/-- The decode call for a shape. -/
def decodeCallFor (st d : Ptr) : Shape → Call
  | .none => .decode_none st d
  | .array k => .decode_array st d k
  | .map k v => .decode_map st d k v
  | .bytes => .decode_bytes st d
  | .string => .decode_string st d
  | .error => .decode_error st d
  | .bool => .decode_bool st d
  | .u8 => .decode_u8 st d
  | .u16 => .decode_u16 st d
  | .u32 => .decode_u32 st d
  | .u64 => .decode_u64 st d
  | .i32 => .decode_i32 st d
  | .i64 => .decode_i64 st d
  | .f32 => .decode_f32 st d
  | .f64 => .decode_f64 st d

/-- Use a returned value: read strings and byte slices through the returned pointer, then free strings and errors.
Byte slices are not freed (see C59). -/
def use (std : Std) (al : Allocator) : Shape → Val → C (Option Item)
  | .array k, .u32 n => return some (.slice n k.value)
  | .map k v, .u32 n => return some (.map n k.value v.value)
  | .bytes, .ptr p => do
    match ← load p with
    | .buffer data n => return some (.bytes (← rawSlice data n.toNat))
    | _ => C.ub
  | .string, .ptr p => do
    let s ← cstr p
    let _ ← run std al (.free_decode_string p)
    return some (.string s)
  | .error, .ptr p => do
    let s ← cstr p
    let _ ← run std al (.free_decode_error p)
    return some (.error s)
  | .bool, .bool v => return some (.bool v)
  | .u8, .u8 v => return some (.uint8 v)
  | .u16, .u16 v => return some (.uint16 v)
  | .u32, .u32 v => return some (.uint32 v)
  | .u64, .u64 v => return some (.uint64 v)
  | .i32, .i32 v => return some (.int32 v)
  | .i64, .i64 v => return some (.int64 v)
  | .f32, .f32 v => return some (.float32 v)
  | .f64, .f64 v => return some (.float64 v)
  | _, _ => return none

/-- One decode call: for a nil the returned flag tells, otherwise the status. -/
def receive (std : Std) (al : Allocator) (st d : Ptr) (s : Shape) : C (Option Item) := do
  let v ← run std al (decodeCallFor st d s)
  match s with
  | .none => return if v = .bool true then some .nil else none
  | s => if ← passed st then use std al s v else return none

/-- Receive a message of known shape; stop at the first failure. -/
def receiveAll (std : Std) (al : Allocator) (st d : Ptr) : List Shape → C (Option (List Item))
  | [] => return some []
  | s :: ss => do
    match ← receive std al st d s with
    | none => return none
    | some i =>
      match ← receiveAll std al st d ss with
      | none => return none
      | some is => return some (i :: is)

/-- Encode, ask for the size, copy the bytes to a block of that size, free the encoder, decode that block and
free it and the decoder. -/
def cycle (std : Std) (al : Allocator) (st : Ptr) (is : List Item) (ss : List Shape) : C (Option (List Item)) := do
  let e ← new_encoder st
  if ← sendAll std al st e is then
    let n ← encoder_size st e
    let p ← alloc (.block (List.replicate n.toNat 0))
    encoder_buffer st e p n
    if ← passed st then
      free_encoder e
      let d ← new_decoder st p n
      release p
      let r ← receiveAll std al st d ss
      free_decoder d
      return r
    else return none
  else return none

/-! ## Proofs -/

theorem passed_ok {m : Mem} {st : Ptr} (h : m.obj st = some (.status .Pass)) : passed st m = .ret true m := by
  simp only [passed]; rw [bind_ret (load_some h)]; rfl

theorem release_ok {m : Mem} {p : Ptr} {o : Obj} (h : m.obj p = some o) : release p m = .ret () (m.set p none) := by
  simp [release, h]

theorem ofValue_value (k : Byte) (h : k.toNat ≤ 16) : (Kind.ofValue k).value = k := by
  revert k; decide

theorem encodes_for (m : Mem) (st e p : Ptr) (i : Item) (hk : Rust.Item.KindsOk i) (hf : i.Fits) (hu : Rust.Item.Utf8Ok i)
    (hn : Item.NoNul i) (hp : m.obj p = some (.block (argument i))) :
    (encodeCallFor st e p i).encodes m = some (st, e, i) := by
  cases i with
  | map n k v => simp only [encodeCallFor, Call.encodes, ofValue_value _ hk.1, ofValue_value _ hk.2]
  | slice n k => simp only [encodeCallFor, Call.encodes, ofValue_value _ hk]
  | bytes v =>
    simp only [encodeCallFor, Call.encodes, hp, argument]
    rw [GoV2.toNat_len32 hf]; simp
  | string v =>
    simp only [encodeCallFor, Call.encodes, hp, argument, takeWhile_cstr hn]
    rw [if_pos ⟨by simp, hu⟩]
  | error v =>
    simp only [encodeCallFor, Call.encodes, hp, argument, takeWhile_cstr hn]
    rw [if_pos ⟨by simp, hu⟩]
  | _ => rfl

/-- Memory is as before except at `st` and `x`. -/
structure Only (st x : Ptr) (m m' : Mem) : Prop where
  ok : m'.Ok
  same : ∀ p, p ≠ st → p ≠ x → m'.obj p = m.obj p

theorem Only.trans {st x : Ptr} {m m1 m2 : Mem} (h1 : Only st x m m1) (h2 : Only st x m1 m2) : Only st x m m2 :=
  ⟨h2.ok, fun p a b => (h2.same p a b).trans (h1.same p a b)⟩

theorem send_ok (std : Std) (al : Allocator) {m : Mem} (hm : m.Ok) {st e : Ptr} {s0 : Status} {cur cur' : Cursor}
    (hst : m.obj st = some (.status s0)) (he : m.obj e = some (.encoder cur)) {i : Item} (hk : Rust.Item.KindsOk i)
    (hf : i.Fits) (hu : Rust.Item.Utf8Ok i) (hn : Item.NoNul i) (hr : Rust.encodeItem i cur = (.ok (), cur')) :
    ∃ m', send std al st e i m = .ret true m' ∧ m'.obj st = some (.status .Pass) ∧ m'.obj e = some (.encoder cur') ∧
      Only st e m m' := by
  let m1 := m.push (.block (argument i))
  have hok1 : m1.Ok := hm.push _
  have hp1 : m1.obj m.next = some (.block (argument i)) := push_next _ _
  have hst1 : m1.obj st = some (.status s0) := push_old hm _ hst
  have he1 : m1.obj e = some (.encoder cur) := push_old hm _ he
  have hse : st ≠ e := by rintro rfl; rw [hst] at he; simp at he
  have hps : m.next ≠ st := by have := (hm.range _ _ hst).2; omega
  have hpe : m.next ≠ e := by have := (hm.range _ _ he).2; omega
  let m2 := (m1.set e (some (.encoder cur'))).set st (some (.status .Pass))
  have hrun := run_encode std al (encodeCallFor st e m.next i) hok1 (encodes_for m1 st e m.next i hk hf hu hn hp1) hst1 he1 hr
  have hok2 : m2.Ok := (hok1.set he1 _).set (by rw [set_other _ _ hse]; exact hst1) _
  have hp2 : m2.obj m.next = some (.block (argument i)) := by
    simp only [m2]; rw [set_other _ _ hps, set_other _ _ hpe]; exact hp1
  let m3 := m2.set m.next none
  have hst3 : m3.obj st = some (.status .Pass) := by
    simp only [m3, m2]; rw [set_other _ _ (Ne.symm hps), set_same]
  refine ⟨m3, ?_, hst3, ?_, hok2.set hp2 _, ?_⟩
  · simp only [send]
    rw [bind_ret (alloc_apply _ m), bind_ret hrun, bind_ret (release_ok hp2)]
    exact passed_ok hst3
  · simp only [m3, m2]; rw [set_other _ _ (Ne.symm hpe), set_other _ _ (Ne.symm hse), set_same]
  · intro p h1 h2
    simp only [m3, m2]
    by_cases hp : p = m.next
    · subst hp; rw [set_same]; exact hm.fresh.symm
    · rw [set_other _ _ hp, set_other _ _ h1, set_other _ _ h2]; exact push_ne _ hp

theorem sendAll_ok (std : Std) (al : Allocator) {st e : Ptr} (is : List Item) (hk : ∀ i ∈ is, Rust.Item.KindsOk i)
    (hf : ∀ i ∈ is, i.Fits) (hu : ∀ i ∈ is, Rust.Item.Utf8Ok i) (hn : ∀ i ∈ is, Item.NoNul i) :
    ∀ {m : Mem} (_ : m.Ok) {s0 : Status} {vec : Bytes} (_ : m.obj st = some (.status s0))
      (_ : m.obj e = some (.encoder ⟨vec, vec.length⟩)),
    ∃ m' s, sendAll std al st e is m = .ret true m' ∧ m'.obj st = some (.status s) ∧
      m'.obj e = some (.encoder ⟨vec ++ wireAll is, (vec ++ wireAll is).length⟩) ∧ Only st e m m' := by
  induction is with
  | nil => intro m hm s0 vec hst he; exact ⟨m, s0, rfl, hst, by simpa [wireAll] using he, hm, fun _ _ _ => rfl⟩
  | cons i is ih =>
    intro m hm s0 vec hst he
    have hw : Rust.encodeItem i ⟨vec, vec.length⟩ = (.ok (), ⟨vec ++ wire i, (vec ++ wire i).length⟩) := by
      rw [Rust.encodeItem_writes i (hk i (by simp)) (hf i (by simp)), Rust.write_all]
      have : wire i ≠ [] := by cases i <;> simp [wire]
      rw [if_neg this]
      simp [Rust.writeAt]
    obtain ⟨m1, h1, hst1, he1, o1⟩ := send_ok std al hm hst he (hk i (by simp)) (hf i (by simp)) (hu i (by simp)) (hn i (by simp)) hw
    obtain ⟨m2, s, h2, hst2, he2, o2⟩ := ih (fun j h => hk j (by simp [h])) (fun j h => hf j (by simp [h]))
      (fun j h => hu j (by simp [h])) (fun j h => hn j (by simp [h])) o1.ok hst1 he1
    refine ⟨m2, s, ?_, hst2, ?_, o1.trans o2⟩
    · simp only [sendAll]; rw [bind_ret h1]; exact h2
    · rw [he2]; simp [wireAll]

/-- Memory is as before except at `st`, `x` and, when `leak`, at new addresses. -/
structure Keeps (st x : Ptr) (leak : Bool) (m m' : Mem) : Prop where
  ok : m'.Ok
  same : ∀ p, p ≠ st → p ≠ x → (m.obj p ≠ none ∨ leak = false) → m'.obj p = m.obj p

theorem Keeps.trans {st x : Ptr} {a b : Bool} {m m1 m2 : Mem} (h1 : Keeps st x a m m1) (h2 : Keeps st x b m1 m2) :
    Keeps st x (a || b) m m2 := by
  refine ⟨h2.ok, fun p hp hx h => ?_⟩
  have e1 := h1.same p hp hx (h.imp id (fun h => by simp at h; exact h.1))
  rw [h2.same p hp hx ?_, e1]
  exact h.imp (fun h => by rwa [e1]) (fun h => by simp at h; exact h.2)

theorem shape_matches {i : Item} (hk : Rust.Item.KindsOk i) (st d : Ptr) (hn : i ≠ .nil) :
    ∃ q, (decodeCallFor st d (shape i)).decodes = some (st, d, q) ∧ Rust.Matches q i := by
  cases i with
  | nil => exact absurd rfl hn
  | map n k v =>
    refine ⟨_, rfl, ?_⟩
    have := Rust.Matches.map n (Kind.ofValue k).into (Kind.ofValue v).into
    rwa [kind_into_value, kind_into_value, ofValue_value _ hk.1, ofValue_value _ hk.2] at this
  | slice n k =>
    refine ⟨_, rfl, ?_⟩
    have := Rust.Matches.array n (Kind.ofValue k).into
    rwa [kind_into_value, ofValue_value _ hk] at this
  | _ => exact ⟨_, rfl, by constructor⟩

theorem free_string_ok {al : Allocator} {m : Mem} {s : Ptr} {v : Bytes} (hm : m.Ok) (hv : (0 : Byte) ∉ v)
    (hs : m.obj s = some (.block (v ++ [0]))) : free_decode_string al s m = .ret () (m.set s none) := by
  have h0 := hm.ne0 hs
  simp only [free_decode_string, ne_eq, h0, not_false_eq_true, if_true]
  rw [bind_ret (cstr_ok hs (by simp)), takeWhile_cstr hv]
  exact dealloc_ok hs (fun _ => by simp)

theorem receive_ok (std : Std) (al : Allocator) {m : Mem} (hm : m.Ok) {st d : Ptr} {s0 : Status} {cur cur' : Cursor}
    (hst : m.obj st = some (.status s0)) (hd : m.obj d = some (.decoder cur)) {i : Item} (hk : Rust.Item.KindsOk i)
    (hf : i.Fits) (hu : Rust.Item.Utf8Ok i) (hn : Item.NoNul i) {t : Bytes} (hr : cur.rest = wire i ++ t)
    (hc : cur' = cur.adv (wire i).length) :
    ∃ m' s, receive std al st d (shape i) m = .ret (some i) m' ∧ m'.obj st = some (.status s) ∧
      m'.obj d = some (.decoder cur') ∧ Keeps st d (isBytes i) m m' := by
  have hne : st ≠ d := by rintro rfl; rw [hst] at hd; simp at hd
  by_cases hnil : i = .nil
  · subst hnil
    have hdn : Rust.decode_none std cur = (.ok true, cur') := by
      rw [Rust.decode_none_spec, hr, hc]; rfl
    refine ⟨_, s0, ?_, ?_, set_same _ _ _, hm.set hd _, fun p h1 h2 _ => set_other _ _ h2⟩
    · simp only [receive, shape, decodeCallFor]
      rw [bind_ret (run_decode_none std al hm hst hd hdn)]; rfl
    · rw [set_other _ _ hne]; exact hst
  · obtain ⟨q, hq, hmt⟩ := shape_matches hk st d hnil
    have hri : Rust.readItem std q cur = (.ok i, cur') :=
      (Rust.readItem_value_iff ..).mpr (.inl ⟨_, t, hmt, Props.wire_accepts hf, hu, hr, hc⟩)
    obtain ⟨v, m1, hrun, hst1, hd1, hsh, hev, hfresh, hleak⟩ := run_decode_ok std al _ hm hq hst hd hri hn
    have hrec : ∀ {x m2}, use std al (shape i) v m1 = .ret x m2 → receive std al st d (shape i) m = .ret x m2 := by
      intro x m2 hx
      have h2 := passed_ok hst1
      simp only [receive]
      rw [bind_ret hrun]
      cases i <;> simp only [shape] at hx ⊢
      case nil => exact absurd rfl hnil
      all_goals (rw [bind_ret h2]; exact hx)
    have hold : ∀ p o, m.obj p = some o → p ≠ st → p ≠ d → m1.obj p = some o := by
      intro p o hp h1 h2
      rw [← hp]; exact hev.frame p (hm.range _ _ hp).2 (by simp [h1, h2]) (by simp)
    have hkeep : isBytes i = true ∨ (∀ p, v ≠ .ptr p) → Keeps st d (isBytes i) m m1 := by
      intro hb
      refine ⟨hev.ok, fun p h1 h2 h => ?_⟩
      cases hp : m.obj p with
      | some o => exact hold p o hp h1 h2
      | none =>
        rcases h with h | h
        · exact absurd hp h
        · exact hleak h p (hb.resolve_left (by simp [h]) p) hp
    have hstr : ∀ {p : Ptr} {w : Bytes}, v = .ptr p → isBytes i = false → m1.obj p = some (.block (w ++ [0])) →
        (m1.set p none).obj st = some (.status .Pass) ∧ (m1.set p none).obj d = some (.decoder cur') ∧
        Keeps st d (isBytes i) m (m1.set p none) := by
      intro p w hv hb hp
      have hpst : st ≠ p := by rintro rfl; rw [hst1] at hp; simp at hp
      have hpd : d ≠ p := by rintro rfl; rw [hd1] at hp; simp at hp
      refine ⟨by rw [set_other _ _ hpst]; exact hst1, by rw [set_other _ _ hpd]; exact hd1, hev.ok.set hp _, ?_⟩
      intro r h1 h2 _
      by_cases hrp : r = p
      · subst hrp; rw [set_same]; exact (hfresh r hv).symm
      · rw [set_other _ _ hrp]
        cases hx : m.obj r with
        | some o => exact hold r o hx h1 h2
        | none => exact hleak hb r (by rw [hv]; intro h; cases h; exact hrp rfl) hx
    cases hsh with
    | array n k =>
      refine ⟨m1, _, hrec ?_, hst1, hd1, hkeep (.inr (by simp))⟩
      simp only [shape, use]; rw [ofValue_value _ hk]; rfl
    | map n k w =>
      refine ⟨m1, _, hrec ?_, hst1, hd1, hkeep (.inr (by simp))⟩
      simp only [shape, use]; rw [ofValue_value _ hk.1, ofValue_value _ hk.2]; rfl
    | emptyBytes hp =>
      refine ⟨m1, _, hrec ?_, hst1, hd1, hkeep (.inl rfl)⟩
      simp only [shape, use]; rw [bind_ret (load_some hp)]; rfl
    | @bytes p data w hp hdata hw =>
      refine ⟨m1, _, hrec ?_, hst1, hd1, hkeep (.inl rfl)⟩
      simp only [shape, use]; rw [bind_ret (load_some hp)]
      have hrs := rawSlice_ok hdata (Nat.le_refl _)
      rw [List.take_length] at hrs
      simp only
      rw [GoV2.toNat_len32 hf, bind_ret hrs]; rfl
    | @string p w hp hw =>
      obtain ⟨h1, h2, h3⟩ := hstr rfl rfl hp
      refine ⟨_, _, hrec ?_, h1, h2, h3⟩
      simp only [shape, use]
      rw [bind_ret (cstr_ok hp (by simp)), takeWhile_cstr hw]
      rw [bind_ret (show run std al (.free_decode_string p) m1 = .ret .unit (m1.set p none) from ret_ret (free_string_ok hev.ok hw hp))]
      rfl
    | @error p w hp hw =>
      obtain ⟨h1, h2, h3⟩ := hstr rfl rfl hp
      refine ⟨_, _, hrec ?_, h1, h2, h3⟩
      simp only [shape, use]
      rw [bind_ret (cstr_ok hp (by simp)), takeWhile_cstr hw]
      rw [bind_ret (show run std al (.free_decode_error p) m1 = .ret .unit (m1.set p none) from ret_ret (free_string_ok hev.ok hw hp))]
      rfl
    | _ => exact ⟨m1, _, hrec rfl, hst1, hd1, hkeep (.inr (by simp))⟩

theorem receiveAll_ok (std : Std) (al : Allocator) {st d : Ptr} (is : List Item) (hk : ∀ i ∈ is, Rust.Item.KindsOk i)
    (hf : ∀ i ∈ is, i.Fits) (hu : ∀ i ∈ is, Rust.Item.Utf8Ok i) (hn : ∀ i ∈ is, Item.NoNul i) :
    ∀ {m : Mem} (_ : m.Ok) {s0 : Status} {cur : Cursor} {t : Bytes} (_ : m.obj st = some (.status s0))
      (_ : m.obj d = some (.decoder cur)) (_ : cur.rest = wireAll is ++ t),
    ∃ m' s, receiveAll std al st d (is.map shape) m = .ret (some is) m' ∧ m'.obj st = some (.status s) ∧
      m'.obj d = some (.decoder (cur.adv (wireAll is).length)) ∧ Keeps st d (is.any isBytes) m m' := by
  induction is with
  | nil =>
    intro m hm s0 cur t hst hd _
    exact ⟨m, s0, rfl, hst, by simpa [wireAll, Cursor.adv] using hd, hm, fun _ _ _ _ => rfl⟩
  | cons i is ih =>
    intro m hm s0 cur t hst hd hr
    have hr' : cur.rest = wire i ++ (wireAll is ++ t) := by simpa [wireAll] using hr
    obtain ⟨m1, s1, h1, hst1, hd1, k1⟩ := receive_ok std al hm hst hd (hk i (by simp)) (hf i (by simp)) (hu i (by simp)) (hn i (by simp)) hr' rfl
    obtain ⟨m2, s2, h2, hst2, hd2, k2⟩ := ih (fun j h => hk j (by simp [h])) (fun j h => hf j (by simp [h]))
      (fun j h => hu j (by simp [h])) (fun j h => hn j (by simp [h])) k1.ok (t := t) hst1 hd1
      (by rw [Rust.adv_rest, hr', List.drop_left])
    refine ⟨m2, s2, ?_, hst2, ?_, ?_⟩
    · simp only [List.map_cons, receiveAll]
      rw [bind_ret h1]
      simp only
      rw [bind_ret h2]; rfl
    · rw [hd2, Rust.adv_adv]; simp [wireAll]
    · rw [List.any_cons]; exact k1.trans k2

theorem new_encoder_ok {m : Mem} (hm : m.Ok) {st : Ptr} {s0 : Status} (hst : m.obj st = some (.status s0)) :
    new_encoder st m = .ret m.next ((m.set st (some (.status .Pass))).push (.encoder ⟨[], 0⟩)) := by
  simp only [new_encoder]
  rw [bind_ret (check_ok (hm.ne0 hst) m), bind_ret (setStatus_ok hst _)]; rfl

theorem encoder_size_ok {m : Mem} (hm : m.Ok) {st e : Ptr} {s0 : Status} {c : Cursor} (hst : m.obj st = some (.status s0))
    (he : m.obj e = some (.encoder c)) : encoder_size st e m = .ret (BitVec.ofNat 32 c.vec.length) m := by
  simp only [encoder_size]
  rw [bind_ret (check_ok (hm.ne0 hst) m)]
  simp only [if_neg (hm.ne0 he)]
  rw [bind_ret (encoderCursor_ok he)]; rfl

theorem encoder_buffer_ok {m : Mem} (hm : m.Ok) {st e p : Ptr} {s0 : Status} {c : Cursor} {d : Bytes} {n : BitVec 32}
    (hst : m.obj st = some (.status s0)) (he : m.obj e = some (.encoder c)) (hp : m.obj p = some (.block d))
    (hn : n.toNat ≤ d.length) (hc : c.vec.length ≤ n.toNat) :
    encoder_buffer st e p n m =
      .ret () ((m.set p (some (.block (c.vec ++ d.drop c.vec.length)))).set st (some (.status .Pass))) := by
  have hsp : st ≠ p := by rintro rfl; rw [hst] at hp; simp at hp
  have hlt : c.vec.length < 2 ^ 32 := Nat.lt_of_le_of_lt hc n.isLt
  simp only [encoder_buffer]
  rw [bind_ret (check_ok (hm.ne0 hst) m)]
  simp only [if_neg (show ¬ (e = 0 ∨ p = 0) from fun h => h.elim (hm.ne0 he) (hm.ne0 hp))]
  rw [bind_ret (encoderCursor_ok he)]
  have hnlt : ¬ n < BitVec.ofNat 32 c.vec.length := by
    rw [BitVec.lt_def, GoV2.toNat_len32 hlt]; omega
  simp only [if_neg hnlt]
  rw [bind_ret (rawSlice_ok hp hn)]
  have hmin : min (d.take n.toNat).length c.vec.length = c.vec.length := by
    rw [List.length_take]; omega
  simp only [hmin]
  by_cases h0 : c.vec.length = 0
  · have hv : c.vec = [] := List.length_eq_zero_iff.mp h0
    simp only [hv, List.length_nil, ne_eq, not_true, if_false, List.drop_zero, List.nil_append]
    have : m.set p (some (.block d)) = m := by
      cases m with
      | mk obj next =>
        simp only [Mem.set, Mem.mk.injEq, and_true]
        funext q
        split
        · next h => rw [h]; exact hp.symm
        · rfl
    rw [this]; exact setStatus_ok hst _
  · simp only [ne_eq, h0, not_false_eq_true, if_true]
    rw [bind_ret (load_some hp)]
    simp only [List.take_length]
    rw [bind_ret (store_some hp _)]
    exact setStatus_ok (s0 := s0) (by rw [set_other _ _ hsp]; exact hst) _

theorem cycle_ok (std : Std) (al : Allocator) {m : Mem} (hm : m.Ok) {st : Ptr} {s0 : Status}
    (hst : m.obj st = some (.status s0)) (is : List Item) (hk : ∀ i ∈ is, Rust.Item.KindsOk i)
    (hf : ∀ i ∈ is, i.Fits) (hu : ∀ i ∈ is, Rust.Item.Utf8Ok i) (hn : ∀ i ∈ is, Item.NoNul i)
    (hl : (wireAll is).length < 2 ^ 32) :
    ∃ m', cycle std al st is (is.map shape) m = .ret (some is) m' ∧
      (∀ p, p ≠ st → (m.obj p ≠ none ∨ is.any isBytes = false) → m'.obj p = m.obj p) ∧ m'.Ok := by
  -- new_encoder
  let m1 := (m.set st (some (.status .Pass))).push (.encoder ⟨[], 0⟩)
  have hok0 : (m.set st (some (.status .Pass))).Ok := hm.set hst _
  have hok1 : m1.Ok := hok0.push _
  have hst1 : m1.obj st = some (.status .Pass) := push_old hok0 _ (set_same _ _ _)
  have he1 : m1.obj m.next = some (.encoder ⟨[], ([] : Bytes).length⟩) := push_next (m.set st (some (.status .Pass))) _
  have hf1 : ∀ p, p ≠ st → p ≠ m.next → m1.obj p = m.obj p := fun p a b => by
    simp only [m1]; rw [push_ne (m := m.set st (some (.status .Pass))) _ b, set_other _ _ a]
  have hsn : st ≠ m.next := by have := (hm.range _ _ hst).2; omega
  -- sendAll
  obtain ⟨m2, s2, h2, hst2, he2, o2⟩ := sendAll_ok std al is hk hf hu hn hok1 hst1 he1
  simp only [List.nil_append] at he2
  have hf2 : ∀ p, p ≠ st → p ≠ m.next → m2.obj p = m.obj p := fun p a b => (o2.same p a b).trans (hf1 p a b)
  -- the block
  have hlen : (BitVec.ofNat 32 (wireAll is).length).toNat = (wireAll is).length := GoV2.toNat_len32 hl
  let m3 := m2.push (.block (List.replicate (wireAll is).length 0))
  have hok3 : m3.Ok := o2.ok.push _
  have hp3 : m3.obj m2.next = some (.block (List.replicate (wireAll is).length 0)) := push_next _ _
  have hst3 : m3.obj st = some (.status s2) := push_old o2.ok _ hst2
  have he3 : m3.obj m.next = some (.encoder ⟨wireAll is, (wireAll is).length⟩) := push_old o2.ok _ he2
  have hb := encoder_buffer_ok hok3 hst3 he3 hp3 (n := BitVec.ofNat 32 (wireAll is).length) (by rw [hlen]; simp) (by rw [hlen]; exact Nat.le_refl _)
  simp only [List.drop_replicate, Nat.sub_self, List.replicate_zero, List.append_nil] at hb
  have hps : st ≠ m2.next := by have := (o2.ok.range _ _ hst2).2; omega
  have hpe : m.next ≠ m2.next := by have := (o2.ok.range _ _ he2).2; omega
  let m4 := (m3.set m2.next (some (.block (wireAll is)))).set st (some (.status .Pass))
  have hok4 : m4.Ok := (hok3.set hp3 _).set (by rw [set_other _ _ hps]; exact hst3) _
  have hst4 : m4.obj st = some (.status .Pass) := set_same _ _ _
  have he4 : m4.obj m.next = some (.encoder ⟨wireAll is, (wireAll is).length⟩) := by
    simp only [m4]; rw [set_other _ _ (Ne.symm hsn), set_other _ _ hpe]; exact he3
  have hp4 : m4.obj m2.next = some (.block (wireAll is)) := by
    simp only [m4]; rw [set_other _ _ (Ne.symm hps), set_same]
  -- free_encoder
  let m5 := m4.set m.next none
  have hfe : free_encoder m.next m4 = .ret () m5 := by
    simp only [free_encoder, ne_eq, show ¬ m.next = 0 from by have := hm.low; omega, not_false_eq_true, if_true]
    rw [bind_ret (encoderCursor_ok he4)]; exact release_ok he4
  have hok5 : m5.Ok := hok4.set he4 _
  have hst5 : m5.obj st = some (.status .Pass) := by simp only [m5]; rw [set_other _ _ hsn]; exact hst4
  have hp5 : m5.obj m2.next = some (.block (wireAll is)) := by simp only [m5]; rw [set_other _ _ (Ne.symm hpe)]; exact hp4
  -- new_decoder
  let m6 := (m5.set st (some (.status .Pass))).push (.decoder ⟨wireAll is, 0⟩)
  have hok5' : (m5.set st (some (.status .Pass))).Ok := hok5.set hst5 _
  have hnd : new_decoder st m2.next (BitVec.ofNat 32 (wireAll is).length) m5 = .ret m5.next m6 := by
    simp only [new_decoder]
    rw [bind_ret (check_ok (hm.ne0 hst) _)]
    simp only [if_neg (hok5.ne0 hp5)]
    rw [bind_ret (rawSlice_ok hp5 (by rw [hlen]; exact Nat.le_refl _)), hlen, List.take_length, bind_ret (setStatus_ok hst5 _)]
    rfl
  have hok6 : m6.Ok := hok5'.push _
  have hst6 : m6.obj st = some (.status .Pass) := push_old hok5' _ (set_same _ _ _)
  have hd6 : m6.obj m5.next = some (.decoder ⟨wireAll is, 0⟩) := push_next (m5.set st (some (.status .Pass))) _
  have hp6 : m6.obj m2.next = some (.block (wireAll is)) := push_old hok5' _ (by rw [set_other _ _ (Ne.symm hps)]; exact hp5)
  have hds : st ≠ m5.next := by have := (hok5.range _ _ hst5).2; omega
  have hdp : m2.next ≠ m5.next := by have := (hok5.range _ _ hp5).2; omega
  -- release
  let m7 := m6.set m2.next none
  have hok7 : m7.Ok := hok6.set hp6 _
  have hst7 : m7.obj st = some (.status .Pass) := by simp only [m7]; rw [set_other _ _ hps]; exact hst6
  have hd7 : m7.obj m5.next = some (.decoder ⟨wireAll is, 0⟩) := by simp only [m7]; rw [set_other _ _ (Ne.symm hdp)]; exact hd6
  -- receiveAll
  obtain ⟨m8, s8, h8, hst8, hd8, k8⟩ := receiveAll_ok std al is hk hf hu hn hok7 (t := []) hst7 hd7 (by simp [Cursor.rest])
  have hfd : free_decoder m5.next m8 = .ret () (m8.set m5.next none) := by
    simp only [free_decoder, ne_eq, show ¬ m5.next = 0 from by have := hok5.low; omega, not_false_eq_true, if_true]
    rw [bind_ret (decoderCursor_ok hd8)]; exact release_ok hd8
  have hf7 : ∀ p, p ≠ st → p ≠ m5.next → m7.obj p = m.obj p := by
    intro p h1 h2
    by_cases h3 : p = m2.next
    · subst h3
      simp only [m7]; rw [set_same]
      have := o2.ok.fresh
      rw [← hf2 _ h1 (Ne.symm hpe)]; exact this.symm
    · simp only [m7, m6]; rw [set_other _ _ h3, push_ne (m := m5.set st (some (.status .Pass))) _ h2, set_other _ _ h1]
      by_cases h4 : p = m.next
      · subst h4; simp only [m5]; rw [set_same]; exact hm.fresh.symm
      · simp only [m5, m4, m3]
        rw [set_other _ _ h4, set_other _ _ h1, set_other _ _ h3, push_ne _ h3]; exact hf2 p h1 h4
  have hmd : m.obj m5.next = none := by
    cases hx : m.obj m5.next with
    | none => rfl
    | some o =>
      have hne : m5.next ≠ m.next := by have := (hm.range _ _ hx).2; omega
      have := hf2 _ (Ne.symm hds) hne
      rw [hx] at this
      have a := (o2.ok.range _ _ this).2
      have b : m5.next = m2.next + 1 := rfl
      omega
  refine ⟨m8.set m5.next none, ?_, ?_, k8.ok.set hd8 _⟩
  · simp only [cycle]
    rw [bind_ret (new_encoder_ok hm hst), bind_ret h2]
    simp only [if_true]
    rw [bind_ret (encoder_size_ok o2.ok hst2 he2)]
    simp only [hlen]
    rw [bind_ret (alloc_apply _ m2), bind_ret hb, bind_ret (passed_ok hst4)]
    simp only [if_true]
    rw [bind_ret hfe, bind_ret hnd, bind_ret (release_ok hp6), bind_ret h8, bind_ret hfd]
    rfl
  · intro p h1 h
    by_cases h2 : p = m5.next
    · subst h2; rw [set_same]; exact hmd.symm
    · rw [set_other _ _ h2, ← hf7 p h1 h2]
      exact k8.same p h1 h2 (h.imp (fun h => by rwa [hf7 p h1 h2]) id)

end CApi
