import Verif.CApi.Calls

/-! # Facts about the C bindings -/

namespace CApi

open Rust (Cursor Std Out DecodingError)
open Spec

variable {α β : Type}

theorem bind_apply (x : C α) (f : α → C β) (m : Mem) : (x >>= f) m =
    match x m with
    | .ret a m => f a m
    | .abort => .abort
    | .ub => .ub := rfl

theorem bind_ret {x : C α} {m m1 : Mem} {a : α} (h : x m = .ret a m1) (f : α → C β) : (x >>= f) m = f a m1 := by
  rw [bind_apply, h]

theorem bind_ub {x : C α} {m : Mem} (h : x m = .ub) (f : α → C β) : (x >>= f) m = .ub := by
  rw [bind_apply, h]

theorem bind_abort {x : C α} {m : Mem} (h : x m = .abort) (f : α → C β) : (x >>= f) m = .abort := by
  rw [bind_apply, h]

theorem pure_apply (a : α) (m : Mem) : (pure a : C α) m = .ret a m := rfl

theorem bind_assoc' {γ : Type} (x : C α) (f : α → C β) (g : β → C γ) : (x >>= f) >>= g = x >>= fun a => f a >>= g := by
  funext m
  simp only [bind_apply]
  cases x m <;> rfl

theorem load_some {m : Mem} {p : Ptr} {o : Obj} (h : m.obj p = some o) : load p m = .ret o m := by
  simp [load, h]

theorem load_none {m : Mem} {p : Ptr} (h : m.obj p = none) : load p m = .ub := by simp [load, h]

theorem store_some {m : Mem} {p : Ptr} {o : Obj} (h : m.obj p = some o) (o' : Obj) :
    store p o' m = .ret () (m.set p (some o')) := by simp [store, h]

theorem check_ok {st : Ptr} (h : st ≠ 0) (m : Mem) : check_not_null st m = .ret () m := by
  simp only [check_not_null, if_neg h]; rfl

theorem setStatus_ok {m : Mem} {st : Ptr} {s0 : Status} (h : m.obj st = some (.status s0)) (s : Status) :
    setStatus st s m = .ret () (m.set st (some (.status s))) := by
  simp only [setStatus]; rw [bind_ret (load_some h)]; exact store_some h _

theorem encoderCursor_ok {m : Mem} {e : Ptr} {c : Cursor} (h : m.obj e = some (.encoder c)) :
    encoderCursor e m = .ret c m := by
  simp only [encoderCursor]; rw [bind_ret (load_some h)]; rfl

theorem decoderCursor_ok {m : Mem} {e : Ptr} {c : Cursor} (h : m.obj e = some (.decoder c)) :
    decoderCursor e m = .ret c m := by
  simp only [decoderCursor]; rw [bind_ret (load_some h)]; rfl

theorem set_same (m : Mem) (p : Ptr) (o : Option Obj) : (m.set p o).obj p = o := by simp [Mem.set]
theorem set_other (m : Mem) {p q : Ptr} (o : Option Obj) (h : q ≠ p) : (m.set p o).obj q = m.obj q := by
  simp [Mem.set, h]

/-- Addresses 0 and 1 are never used, and everything lives below the next free address. -/
structure Mem.Ok (m : Mem) : Prop where
  low : 2 ≤ m.next
  range : ∀ p o, m.obj p = some o → 2 ≤ p ∧ p < m.next

theorem Mem.Ok.null {m : Mem} (h : m.Ok) : m.obj 0 = none := by
  cases hx : m.obj 0 with
  | none => rfl
  | some o => have := h.range 0 o hx; omega

theorem Mem.Ok.one {m : Mem} (h : m.Ok) : m.obj 1 = none := by
  cases hx : m.obj 1 with
  | none => rfl
  | some o => have := h.range 1 o hx; omega

theorem Mem.Ok.fresh {m : Mem} (h : m.Ok) : m.obj m.next = none := by
  cases hx : m.obj m.next with
  | none => rfl
  | some o => have := h.range _ o hx; omega

theorem Mem.Ok.ne0 {m : Mem} (h : m.Ok) {p : Ptr} {o : Obj} (hp : m.obj p = some o) : p ≠ 0 := by
  have := h.range p o hp; omega

theorem Mem.Ok.set {m : Mem} (h : m.Ok) {p : Ptr} {o0 : Obj} (hp : m.obj p = some o0) (o : Option Obj) : (m.set p o).Ok := by
  refine ⟨h.low, fun q o' hq => ?_⟩
  simp only [Mem.set] at hq ⊢
  split at hq
  · next heq => rw [heq]; exact h.range p o0 hp
  · exact h.range q o' hq

/-- The memory after an allocation. -/
def Mem.push (m : Mem) (o : Obj) : Mem := { obj := fun q => if q = m.next then some o else m.obj q, next := m.next + 1 }

theorem alloc_apply (o : Obj) (m : Mem) : alloc o m = .ret m.next (m.push o) := rfl

theorem Mem.Ok.push {m : Mem} (h : m.Ok) (o : Obj) : (m.push o).Ok := by
  refine ⟨by simp only [Mem.push]; have := h.low; omega, fun q o' hq => ?_⟩
  simp only [Mem.push] at hq ⊢
  split at hq
  · next heq => have := h.low; omega
  · have := h.range q o' hq; omega

theorem push_next (m : Mem) (o : Obj) : (m.push o).obj m.next = some o := by simp [Mem.push]
theorem push_old {m : Mem} (h : m.Ok) (o : Obj) {p : Ptr} {x : Obj} (hp : m.obj p = some x) : (m.push o).obj p = some x := by
  have := h.range p x hp
  have : p ≠ m.next := by omega
  simp [Mem.push, this, hp]
theorem push_ne {m : Mem} (o : Obj) {p : Ptr} (hp : p ≠ m.next) : (m.push o).obj p = m.obj p := by
  simp [Mem.push, hp]

/-! ## Null arguments -/

/-- The status pointer of a call, if it has one. -/
def Call.status : Call → Option Ptr
  | .new_encoder st | .encoder_size st _ | .encoder_buffer st _ _ _ | .encode_none st _ | .encode_array st _ _ _
  | .encode_map st _ _ _ _ | .encode_bytes st _ _ _ | .encode_string st _ _ | .encode_error st _ _ | .encode_bool st _ _
  | .encode_u8 st _ _ | .encode_u16 st _ _ | .encode_u32 st _ _ | .encode_u64 st _ _ | .encode_i32 st _ _
  | .encode_i64 st _ _ | .encode_f32 st _ _ | .encode_f64 st _ _ | .new_decoder st _ _ | .decode_none st _
  | .decode_array st _ _ | .decode_map st _ _ _ | .decode_bytes st _ | .decode_string st _ | .decode_error st _
  | .decode_bool st _ | .decode_u8 st _ | .decode_u16 st _ | .decode_u32 st _ | .decode_u64 st _ | .decode_i32 st _
  | .decode_i64 st _ | .decode_f32 st _ | .decode_f64 st _ => some st
  | .free_encoder _ | .free_decoder _ | .free_decode_bytes _ | .free_decode_string _ | .free_decode_error _ => none

/-- One of the encoder, decoder or buffer arguments is null. -/
def Call.nullArgument : Call → Bool
  | .encoder_size _ e | .encode_none _ e | .encode_array _ e _ _ | .encode_map _ e _ _ _ | .encode_string _ e _
  | .encode_error _ e _ | .encode_bool _ e _ | .encode_u8 _ e _ | .encode_u16 _ e _ | .encode_u32 _ e _
  | .encode_u64 _ e _ | .encode_i32 _ e _ | .encode_i64 _ e _ | .encode_f32 _ e _ | .encode_f64 _ e _ => e == 0
  | .encoder_buffer _ e p _ | .encode_bytes _ e p _ => e == 0 || p == 0
  | .new_decoder _ p _ => p == 0
  | .decode_none _ d | .decode_array _ d _ | .decode_map _ d _ _ | .decode_bytes _ d | .decode_string _ d
  | .decode_error _ d | .decode_bool _ d | .decode_u8 _ d | .decode_u16 _ d | .decode_u32 _ d | .decode_u64 _ d
  | .decode_i32 _ d | .decode_i64 _ d | .decode_f32 _ d | .decode_f64 _ d => d == 0
  | .free_encoder p | .free_decoder p | .free_decode_bytes p | .free_decode_string p | .free_decode_error p => p == 0
  | .new_encoder _ => false

/-- The zero value of a call's return type. -/
def Call.zero : Call → Val
  | .new_encoder _ | .new_decoder .. | .decode_bytes .. | .decode_string .. | .decode_error .. => .ptr 0
  | .encoder_size .. | .decode_array .. | .decode_map .. | .decode_u32 .. => .u32 0
  | .decode_none .. | .decode_bool .. => .bool false
  | .decode_u8 .. => .u8 0 | .decode_u16 .. => .u16 0 | .decode_u64 .. => .u64 0
  | .decode_i32 .. => .i32 0 | .decode_i64 .. => .i64 0 | .decode_f32 .. => .f32 0 | .decode_f64 .. => .f64 0
  | _ => .unit

theorem encodeScalar_null {st : Ptr} {m : Mem} {s0 : Status} (hst : m.obj st = some (.status s0)) (h0 : st ≠ 0)
    (call : Rust.Enc) : encodeScalar st 0 call m = .ret () (m.set st (some (.status .NullPointer))) := by
  simp only [encodeScalar]
  rw [bind_ret (check_ok h0 m)]
  simp only [if_true]
  rw [bind_ret (setStatus_ok hst _)]
  rfl

theorem decodeCall_null {st : Ptr} {m : Mem} {s0 : Status} (hst : m.obj st = some (.status s0)) (h0 : st ≠ 0)
    (zero : β) (call : Rust.Dec α) (ok : α → C β) :
    decodeCall st 0 zero call ok m = .ret zero (m.set st (some (.status .NullPointer))) := by
  simp only [decodeCall]
  rw [bind_ret (check_ok h0 m)]
  simp only [if_true]
  rw [bind_ret (setStatus_ok hst _)]
  rfl

theorem ret_ret {f : α → Val} {x : C α} {m m' : Mem} {a : α} (h : x m = .ret a m') : ret f x m = .ret (f a) m' := by
  simp only [ret]; rw [bind_ret h]; rfl

theorem ret_ub {f : α → Val} {x : C α} {m : Mem} (h : x m = .ub) : ret f x m = .ub := by
  simp only [ret]; rw [bind_ub h]

theorem ret_abort {f : α → Val} {x : C α} {m : Mem} (h : x m = .abort) : ret f x m = .abort := by
  simp only [ret]; rw [bind_abort h]

theorem run_null (std : Std) (al : Allocator) (c : Call) {st : Ptr} (hs : c.status = some st) (hn : c.nullArgument = true)
    (hd : ∀ a b, c ≠ .decode_none a b) {m : Mem} {s0 : Status} (hst : m.obj st = some (.status s0)) (h0 : st ≠ 0) :
    run std al c m = .ret c.zero (m.set st (some (.status .NullPointer))) := by
  cases c
  all_goals simp only [Call.status, Option.some.injEq, reduceCtorEq] at hs
  all_goals subst hs
  all_goals simp only [Call.nullArgument, beq_iff_eq, Bool.or_eq_true, Bool.false_eq_true] at hn
  case decode_none a b => exact absurd rfl (hd a b)
  case encoder_size e =>
    subst hn
    refine ret_ret ?_
    simp only [CApi.encoder_size]
    rw [bind_ret (check_ok h0 m)]
    simp only [if_true]
    rw [bind_ret (setStatus_ok hst _)]; rfl
  case encoder_buffer e p n =>
    refine ret_ret (a := ()) ?_
    simp only [CApi.encoder_buffer]
    rw [bind_ret (check_ok h0 m)]
    simp only [if_pos hn]
    rw [bind_ret (setStatus_ok hst _)]; rfl
  case encode_bytes e p n =>
    refine ret_ret (a := ()) ?_
    simp only [CApi.encode_bytes]
    rw [bind_ret (check_ok h0 m)]
    simp only [if_pos hn]
    rw [bind_ret (setStatus_ok hst _)]; rfl
  case encode_string e p =>
    subst hn
    refine ret_ret (a := ()) ?_
    simp only [CApi.encode_string]
    rw [bind_ret (check_ok h0 m)]
    simp only [if_true]
    rw [bind_ret (setStatus_ok hst _)]; rfl
  case encode_error e p =>
    subst hn
    refine ret_ret (a := ()) ?_
    simp only [CApi.encode_error]
    rw [bind_ret (check_ok h0 m)]
    simp only [if_true]
    rw [bind_ret (setStatus_ok hst _)]; rfl
  case new_decoder p n =>
    subst hn
    refine ret_ret ?_
    simp only [CApi.new_decoder]
    rw [bind_ret (check_ok h0 m)]
    simp only [if_true]
    rw [bind_ret (setStatus_ok hst _)]; rfl
  case encode_none => subst hn; exact ret_ret (encodeScalar_null hst h0 _)
  case encode_array => subst hn; exact ret_ret (encodeScalar_null hst h0 _)
  case encode_map => subst hn; exact ret_ret (encodeScalar_null hst h0 _)
  case encode_bool => subst hn; exact ret_ret (encodeScalar_null hst h0 _)
  case encode_u8 => subst hn; exact ret_ret (encodeScalar_null hst h0 _)
  case encode_u16 => subst hn; exact ret_ret (encodeScalar_null hst h0 _)
  case encode_u32 => subst hn; exact ret_ret (encodeScalar_null hst h0 _)
  case encode_u64 => subst hn; exact ret_ret (encodeScalar_null hst h0 _)
  case encode_i32 => subst hn; exact ret_ret (encodeScalar_null hst h0 _)
  case encode_i64 => subst hn; exact ret_ret (encodeScalar_null hst h0 _)
  case encode_f32 => subst hn; exact ret_ret (encodeScalar_null hst h0 _)
  case encode_f64 => subst hn; exact ret_ret (encodeScalar_null hst h0 _)
  all_goals (subst hn; exact ret_ret (decodeCall_null hst h0 _ _ _))

theorem check_null (m : Mem) : check_not_null 0 m = .abort := rfl

theorem run_null_status (std : Std) (al : Allocator) (c : Call) (hs : c.status = some 0) (m : Mem) :
    run std al c m = .abort := by
  cases c
  all_goals simp only [Call.status, Option.some.injEq, reduceCtorEq] at hs
  all_goals subst hs
  all_goals exact ret_abort (bind_abort (check_null m) _)

theorem run_null_free (std : Std) (al : Allocator) (c : Call) (hs : c.status = none) (hn : c.nullArgument = true) (m : Mem) :
    run std al c m = .ret .unit m := by
  cases c
  all_goals simp only [Call.status, reduceCtorEq] at hs
  all_goals simp only [Call.nullArgument, beq_iff_eq] at hn
  all_goals subst hn
  all_goals rfl

theorem run_decode_none_null (std : Std) (al : Allocator) (st : Ptr) (m : Mem) (hm : m.obj 0 = none) (h0 : st ≠ 0)
    {s0 : Status} (hst : m.obj st = some (.status s0)) : run std al (.decode_none st 0) m = .ub := by
  refine ret_ub ?_
  simp only [CApi.decode_none]
  rw [bind_ret (check_ok h0 m)]
  simp only [if_true]
  rw [bind_ret (setStatus_ok hst _)]
  refine bind_ub ?_ _
  simp only [runDecoder]
  refine bind_ub ?_ _
  simp only [decoderCursor]
  refine bind_ub (load_none ?_) _
  rw [set_other _ _ (Ne.symm h0)]
  exact hm

theorem cstr_null (m : Mem) (hm : m.obj 0 = none) : cstr 0 m = .ub := by
  simp only [cstr]; exact bind_ub (load_none hm) _

theorem run_encode_string_null (std : Std) (al : Allocator) (st e : Ptr) (m : Mem) (hm : m.obj 0 = none) (h0 : st ≠ 0)
    (he : e ≠ 0) : run std al (.encode_string st e 0) m = .ub ∧ run std al (.encode_error st e 0) m = .ub := by
  constructor
  · refine ret_ub ?_
    simp only [CApi.encode_string]
    rw [bind_ret (check_ok h0 m)]
    simp only [if_neg he]
    exact bind_ub (cstr_null m hm) _
  · refine ret_ub ?_
    simp only [CApi.encode_error]
    rw [bind_ret (check_ok h0 m)]
    simp only [if_neg he]
    exact bind_ub (cstr_null m hm) _

end CApi
