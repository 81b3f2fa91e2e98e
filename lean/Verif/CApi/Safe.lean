import Verif.CApi.Facts

/-! # Memory safety and effects of the C bindings -/

namespace CApi

open Rust (Cursor Std Out DecodingError)
open Spec

variable {α β : Type}

/-! ## Effects of encoder and decoder calls -/

theorem encodeCall_ok {m : Mem} {st e : Ptr} {s0 : Status} {c c' : Cursor} {call : Rust.Enc}
    (hst : m.obj st = some (.status s0)) (he : m.obj e = some (.encoder c)) (hc : call c = (.ok (), c')) :
    encodeCall st e call m = .ret () ((m.set e (some (.encoder c'))).set st (some (.status .Pass))) := by
  have hne : st ≠ e := by rintro rfl; rw [hst] at he; simp at he
  simp only [encodeCall]
  rw [bind_ret (encoderCursor_ok he)]
  simp only [hc]
  rw [bind_ret (store_some he _)]
  exact setStatus_ok (by rw [set_other _ _ hne]; exact hst) _

theorem runDecoder_ok {m : Mem} {d : Ptr} {c c' : Cursor} {call : Rust.Dec α} {a : α}
    (hd : m.obj d = some (.decoder c)) (hc : call c = (.ok a, c')) :
    runDecoder d call m = .ret (some a) (m.set d (some (.decoder c'))) := by
  simp only [runDecoder]
  rw [bind_ret (decoderCursor_ok hd)]
  simp only [hc]
  rw [bind_ret (store_some hd _)]
  rfl

theorem runDecoder_err {m : Mem} {d : Ptr} {c c' : Cursor} {call : Rust.Dec α} {e : DecodingError}
    (hd : m.obj d = some (.decoder c)) (hc : call c = (.err e, c')) :
    runDecoder d call m = .ret none (m.set d (some (.decoder c'))) := by
  simp only [runDecoder]
  rw [bind_ret (decoderCursor_ok hd)]
  simp only [hc]
  rw [bind_ret (store_some hd _)]
  rfl

theorem decodeCall_ok {m : Mem} {st d : Ptr} {c c' : Cursor} {call : Rust.Dec α} {a : α} (h0 : st ≠ 0) (hd0 : d ≠ 0)
    (hd : m.obj d = some (.decoder c)) (hc : call c = (.ok a, c')) (zero : β) (ok : α → C β) :
    decodeCall st d zero call ok m = ok a (m.set d (some (.decoder c'))) := by
  simp only [decodeCall]
  rw [bind_ret (check_ok h0 m)]
  simp only [if_neg hd0]
  rw [bind_ret (runDecoder_ok hd hc)]

theorem decodeCall_err {m : Mem} {st d : Ptr} {s0 : Status} {c c' : Cursor} {call : Rust.Dec α} {e : DecodingError}
    (h0 : st ≠ 0) (hd0 : d ≠ 0) (hst : m.obj st = some (.status s0))
    (hd : m.obj d = some (.decoder c)) (hc : call c = (.err e, c')) (zero : β) (ok : α → C β) :
    decodeCall st d zero call ok m =
      .ret zero ((m.set d (some (.decoder c'))).set st (some (.status .Fail))) := by
  have hne : st ≠ d := by rintro rfl; rw [hst] at hd; simp at hd
  simp only [decodeCall]
  rw [bind_ret (check_ok h0 m)]
  simp only [if_neg hd0]
  rw [bind_ret (runDecoder_err hd hc)]
  simp only
  rw [bind_ret (setStatus_ok (by rw [set_other _ _ hne]; exact hst) _)]
  rfl

theorem pass_ok {m : Mem} {st : Ptr} {s0 : Status} (hst : m.obj st = some (.status s0)) (a : α) :
    pass st a m = .ret a (m.set st (some (.status .Pass))) := by
  simp only [pass]; rw [bind_ret (setStatus_ok hst _)]; rfl

theorem rawSlice_zero (p : Ptr) (m : Mem) : rawSlice p 0 m = .ret [] m := rfl

theorem rawSlice_ok {m : Mem} {p : Ptr} {d : Bytes} (hp : m.obj p = some (.block d)) {n : Nat} (hn : n ≤ d.length) :
    rawSlice p n m = .ret (d.take n) m := by
  by_cases h : n = 0
  · subst h; simp [rawSlice_zero]
  · simp only [rawSlice, if_neg h]
    rw [bind_ret (load_some hp)]
    simp only [if_pos hn]
    rfl

theorem cstr_ok {m : Mem} {p : Ptr} {d : Bytes} (hp : m.obj p = some (.block d)) (h0 : (0 : Byte) ∈ d) :
    cstr p m = .ret (d.takeWhile (· != 0)) m := by
  simp only [cstr]
  rw [bind_ret (load_some hp)]
  simp only [if_pos h0]
  rfl

/-! ## How memory may change -/

/-- The type of an object, with its size and pointers. -/
inductive Ty where
  | status | encoder | decoder | buffer (data : Ptr) (length : BitVec 32) | block (size : Nat)
deriving DecidableEq

def Obj.type : Obj → Ty
  | .status _ => .status
  | .encoder _ => .encoder
  | .decoder _ => .decoder
  | .buffer d n => .buffer d n
  | .block d => .block d.length

/-- From `m` to `m'` only objects in `T` change, keeping their type, those in `F` are freed, and new objects are
at new addresses. -/
structure Evolves (T F : List Ptr) (m m' : Mem) : Prop where
  ok : m'.Ok
  next : m.next ≤ m'.next
  frame : ∀ p, p < m.next → p ∉ T → p ∉ F → m'.obj p = m.obj p
  types : ∀ p, p < m.next → p ∉ F → (m'.obj p).map Obj.type = (m.obj p).map Obj.type
  freed : ∀ p, p ∈ F → m'.obj p = none

theorem Evolves.refl {T : List Ptr} {m : Mem} (h : m.Ok) : Evolves T [] m m :=
  ⟨h, Nat.le_refl _, fun _ _ _ _ => rfl, fun _ _ _ => rfl, by simp⟩

theorem Evolves.trans {T F : List Ptr} {m m1 m2 : Mem} (h1 : Evolves T [] m m1) (h2 : Evolves T F m1 m2) :
    Evolves T F m m2 := by
  refine ⟨h2.ok, Nat.le_trans h1.next h2.next, fun p hp ht hf => ?_, fun p hp hf => ?_, h2.freed⟩
  · rw [h2.frame p (Nat.lt_of_lt_of_le hp h1.next) ht hf, h1.frame p hp ht (by simp)]
  · rw [h2.types p (Nat.lt_of_lt_of_le hp h1.next) hf, h1.types p hp (by simp)]

theorem Evolves.set {T : List Ptr} {m : Mem} (h : m.Ok) {p : Ptr} {o0 o : Obj} (hp : m.obj p = some o0)
    (ht : o.type = o0.type) (hT : p ∈ T) : Evolves T [] m (m.set p (some o)) := by
  refine ⟨h.set hp _, Nat.le_refl _, fun q _ hq _ => ?_, fun q _ _ => ?_, by simp⟩
  · exact set_other _ _ (by rintro rfl; exact hq hT)
  · by_cases hqp : q = p
    · subst hqp; rw [set_same, hp]; simp [ht]
    · rw [set_other _ _ hqp]

theorem Evolves.push {T : List Ptr} {m : Mem} (h : m.Ok) (o : Obj) : Evolves T [] m (m.push o) := by
  refine ⟨h.push o, by simp [Mem.push], fun q hq _ _ => ?_, fun q hq _ => ?_, by simp⟩
  · exact push_ne _ (by omega)
  · rw [push_ne _ (by omega)]

theorem Evolves.release {T : List Ptr} {m : Mem} (h : m.Ok) {p : Ptr} {o0 : Obj} (hp : m.obj p = some o0) :
    Evolves T [p] m (m.set p none) := by
  refine ⟨h.set hp _, Nat.le_refl _, fun q _ _ hq => ?_, fun q _ hq => ?_, ?_⟩
  · exact set_other _ _ (by simpa using hq)
  · rw [set_other _ _ (by simpa using hq)]
  · intro q hq; simp at hq; subst hq; exact set_same _ _ _

/-- The call returns, and memory evolves. -/
def SafeAt (T F : List Ptr) (x : C α) (m : Mem) : Prop := ∃ v m', x m = .ret v m' ∧ Evolves T F m m'

theorem SafeAt.bind {T F : List Ptr} {x : C α} {f : α → C β} {m : Mem} (hx : SafeAt T [] x m)
    (hf : ∀ a m1, x m = .ret a m1 → Evolves T [] m m1 → SafeAt T F (f a) m1) : SafeAt T F (x >>= f) m := by
  obtain ⟨a, m1, h1, e1⟩ := hx
  obtain ⟨b, m2, h2, e2⟩ := hf a m1 h1 e1
  exact ⟨b, m2, by rw [bind_ret h1]; exact h2, e1.trans e2⟩

theorem SafeAt.pure {T : List Ptr} {m : Mem} (h : m.Ok) (a : α) : SafeAt T [] (pure a : C α) m :=
  ⟨a, m, rfl, .refl h⟩

theorem SafeAt.ret {T F : List Ptr} {m : Mem} {x : C α} {f : α → Val} (h : SafeAt T F x m) : SafeAt T F (CApi.ret f x) m := by
  obtain ⟨v, m', h1, h2⟩ := h
  exact ⟨_, m', ret_ret h1, h2⟩

/-- There is a status variable at `p`. -/
def StatusAt (m : Mem) (p : Ptr) : Prop := ∃ s, m.obj p = some (.status s)
/-- `p` is null or an encoder. -/
def EncoderAt (m : Mem) (p : Ptr) : Prop := p = 0 ∨ ∃ c, m.obj p = some (.encoder c)
/-- `p` is null or a decoder. -/
def DecoderAt (m : Mem) (p : Ptr) : Prop := p = 0 ∨ ∃ c, m.obj p = some (.decoder c)
/-- `p` is null or `n` bytes of memory. -/
def BytesAt (m : Mem) (p : Ptr) (n : Nat) : Prop := p = 0 ∨ n = 0 ∨ ∃ d, m.obj p = some (.block d) ∧ n ≤ d.length
/-- A zero-terminated string (not null). -/
def StringAt (m : Mem) (p : Ptr) : Prop := ∃ d, m.obj p = some (.block d) ∧ (0 : Byte) ∈ d

theorem StatusAt.type {m : Mem} {p : Ptr} : StatusAt m p ↔ (m.obj p).map Obj.type = some .status := by
  constructor
  · rintro ⟨s, h⟩; rw [h]; rfl
  · intro h
    cases hx : m.obj p with
    | none => rw [hx] at h; simp at h
    | some o => rw [hx] at h; cases o <;> simp [Obj.type] at h; exact ⟨_, hx⟩

theorem StatusAt.evolve {T F : List Ptr} {m m' : Mem} {p : Ptr} (h : StatusAt m p) (hm : m.Ok) (e : Evolves T F m m')
    (hF : p ∉ F) : StatusAt m' p := by
  obtain ⟨s, hs⟩ := h
  have := hm.range p _ hs
  rw [StatusAt.type, e.types p this.2 hF, hs]; rfl

theorem setStatus_safe {T : List Ptr} {m : Mem} (hm : m.Ok) {st : Ptr} (h : StatusAt m st) (hT : st ∈ T) (s : Status) :
    SafeAt T [] (setStatus st s) m := by
  obtain ⟨s0, hs⟩ := h
  exact ⟨_, _, setStatus_ok hs s, .set hm hs rfl hT⟩

theorem check_safe {T : List Ptr} {m : Mem} (hm : m.Ok) {st : Ptr} (h : StatusAt m st) :
    check_not_null st m = .ret () m ∧ SafeAt T [] (check_not_null st) m := by
  obtain ⟨s0, hs⟩ := h
  have := hm.ne0 hs
  exact ⟨check_ok this m, _, _, check_ok this m, .refl hm⟩

theorem alloc_safe {T : List Ptr} {m : Mem} (hm : m.Ok) (o : Obj) : SafeAt T [] (alloc o) m :=
  ⟨_, _, alloc_apply o m, .push hm o⟩

/-- Encoder calls never fail, whatever the cursor. -/
def Total (call : Rust.Enc) : Prop := ∀ c, ∃ c', call c = (.ok (), c')

theorem total_writes {call : Rust.Enc} {bs : Bytes} (h : Rust.Writes call bs) : Total call := by
  intro c; rw [h c]; exact ⟨_, rfl⟩

theorem total_bind {x y : Rust.Enc} (hx : Total x) (hy : Total y) : Total (x >>= fun _ => y) := by
  intro c
  obtain ⟨c1, h1⟩ := hx c
  obtain ⟨c2, h2⟩ := hy c1
  exact ⟨c2, by rw [Rust.bind_ok h1]; exact h2⟩

theorem encodeCall_safe {T : List Ptr} {m : Mem} (hm : m.Ok) {st e : Ptr} {c : Cursor} (h : StatusAt m st)
    (he : m.obj e = some (.encoder c)) (h1 : st ∈ T) (h2 : e ∈ T) {call : Rust.Enc} (ht : Total call) :
    SafeAt T [] (encodeCall st e call) m := by
  obtain ⟨s0, hs⟩ := h
  obtain ⟨c', hc⟩ := ht c
  have hne : st ≠ e := by rintro rfl; rw [hs] at he; simp at he
  refine ⟨_, _, encodeCall_ok hs he hc, ?_⟩
  refine (Evolves.set hm he (o := .encoder c') rfl h2).trans ?_
  exact .set (hm.set he _) (o0 := .status s0) (by rw [set_other _ _ hne]; exact hs) rfl h1

theorem encodeScalar_safe {T : List Ptr} {m : Mem} (hm : m.Ok) {st e : Ptr} (h : StatusAt m st)
    (he : EncoderAt m e) (h1 : st ∈ T) (h2 : e ∈ T) {call : Rust.Enc} (ht : Total call) :
    SafeAt T [] (encodeScalar st e call) m := by
  simp only [encodeScalar]
  refine (check_safe hm h).2.bind fun _ m1 hm1 _ => ?_
  rw [(check_safe (T := []) hm h).1] at hm1
  cases hm1
  by_cases h0 : e = 0
  · simp only [if_pos h0]
    exact (setStatus_safe hm h h1 _).bind fun _ m1 _ e1 => SafeAt.pure e1.ok _
  · simp only [if_neg h0]
    obtain ⟨c, hc⟩ := he.resolve_left h0
    exact encodeCall_safe hm h hc h1 h2 ht

theorem runDecoder_safe {T : List Ptr} {m : Mem} (hm : m.Ok) {d : Ptr} {c : Cursor} (hd : m.obj d = some (.decoder c))
    (h2 : d ∈ T) {call : Rust.Dec α} (hp : (call c).1 ≠ .panic) : SafeAt T [] (runDecoder d call) m := by
  cases hc : call c with
  | mk o c' =>
    cases o with
    | ok a => exact ⟨_, _, runDecoder_ok hd hc, .set hm hd rfl h2⟩
    | err e => exact ⟨_, _, runDecoder_err hd hc, .set hm hd rfl h2⟩
    | panic => rw [hc] at hp; simp at hp

theorem decodeCall_safe {T : List Ptr} {m : Mem} (hm : m.Ok) {st d : Ptr} (h : StatusAt m st) (hd : DecoderAt m d)
    (h1 : st ∈ T) (h2 : d ∈ T) (zero : β) {call : Rust.Dec α} (hp : ∀ c, (call c).1 ≠ .panic) {ok : α → C β}
    (hok : ∀ a m1, m1.Ok → StatusAt m1 st → SafeAt T [] (ok a) m1) : SafeAt T [] (decodeCall st d zero call ok) m := by
  simp only [decodeCall]
  refine (check_safe hm h).2.bind fun _ m1 hm1 _ => ?_
  rw [(check_safe (T := []) hm h).1] at hm1
  cases hm1
  by_cases h0 : d = 0
  · simp only [if_pos h0]
    exact (setStatus_safe hm h h1 _).bind fun _ m1 _ e1 => SafeAt.pure e1.ok _
  · simp only [if_neg h0]
    obtain ⟨c, hc⟩ := hd.resolve_left h0
    refine (runDecoder_safe hm hc h2 (hp c)).bind fun a m1 _ e1 => ?_
    have hs1 := h.evolve hm e1 (by simp)
    cases a with
    | some a => exact hok a m1 e1.ok hs1
    | none => exact (setStatus_safe e1.ok hs1 h1 _).bind fun _ m2 _ e2 => SafeAt.pure e2.ok _

theorem pass_safe {T : List Ptr} {m : Mem} (hm : m.Ok) {st : Ptr} (h : StatusAt m st) (h1 : st ∈ T) (a : α) :
    SafeAt T [] (pass st a) m :=
  (setStatus_safe hm h h1 _).bind fun _ _ _ e1 => SafeAt.pure e1.ok _

theorem newCString_safe {T : List Ptr} {m : Mem} (hm : m.Ok) {st : Ptr} (h : StatusAt m st) (h1 : st ∈ T) (v : Bytes) :
    SafeAt T [] (newCString st v) m := by
  simp only [newCString]
  split
  · exact (setStatus_safe hm h h1 _).bind fun _ _ _ e1 => SafeAt.pure e1.ok _
  · exact (setStatus_safe hm h h1 _).bind fun _ _ _ e1 => alloc_safe e1.ok _

theorem rawSlice_safe {T : List Ptr} {m : Mem} (hm : m.Ok) {p : Ptr} {n : Nat} (h : BytesAt m p n) (h0 : p ≠ 0) :
    ∃ bs, rawSlice p n m = .ret bs m ∧ bs.length = n ∧ SafeAt T [] (rawSlice p n) m := by
  rcases h with h | h | ⟨d, hd, hn⟩
  · exact absurd h h0
  · subst h; exact ⟨[], rfl, rfl, _, _, rfl, .refl hm⟩
  · exact ⟨_, rawSlice_ok hd hn, by simp [hn], _, _, rawSlice_ok hd hn, .refl hm⟩

/-! ## Every call -/

/-- What a C program must guarantee before a call: the pointers are what polyglot.h says.  Encoder, decoder and
buffer arguments may be null, except in `decode_none`; string arguments may not. -/
def Call.Valid (al : Allocator) (m : Mem) : Call → Prop
  | .new_encoder st => StatusAt m st
  | .encoder_size st e | .encode_none st e | .encode_array st e _ _ | .encode_map st e _ _ _ | .encode_bool st e _
  | .encode_u8 st e _ | .encode_u16 st e _ | .encode_u32 st e _ | .encode_u64 st e _ | .encode_i32 st e _
  | .encode_i64 st e _ | .encode_f32 st e _ | .encode_f64 st e _ => StatusAt m st ∧ EncoderAt m e
  | .encoder_buffer st e p n | .encode_bytes st e p n => StatusAt m st ∧ EncoderAt m e ∧ BytesAt m p n.toNat
  | .encode_string st e p | .encode_error st e p => StatusAt m st ∧ EncoderAt m e ∧ StringAt m p
  | .new_decoder st p n => StatusAt m st ∧ BytesAt m p n.toNat
  | .decode_none st d => StatusAt m st ∧ DecoderAt m d ∧ d ≠ 0
  | .decode_array st d _ | .decode_map st d _ _ | .decode_bytes st d | .decode_string st d
  | .decode_error st d | .decode_bool st d | .decode_u8 st d | .decode_u16 st d | .decode_u32 st d | .decode_u64 st d
  | .decode_i32 st d | .decode_i64 st d | .decode_f32 st d | .decode_f64 st d => StatusAt m st ∧ DecoderAt m d
  | .free_encoder e => EncoderAt m e
  | .free_decoder d => DecoderAt m d
  | .free_decode_bytes b => b = 0 ∨ ∃ data n d, m.obj b = some (.buffer data n) ∧ m.obj data = some (.block d) ∧
      n.toNat ≤ d.length ∧ (al.strict = true → d.length = 1)
  | .free_decode_string s | .free_decode_error s =>
      s = 0 ∨ ∃ v, (0 : Byte) ∉ v ∧ m.obj s = some (.block (v ++ [0]))

/-- The objects a call may write to. -/
def Call.writes : Call → List Ptr
  | .new_encoder st | .new_decoder st _ _ => [st]
  | .encoder_size st e | .encode_none st e | .encode_array st e _ _ | .encode_map st e _ _ _ | .encode_bytes st e _ _
  | .encode_string st e _ | .encode_error st e _ | .encode_bool st e _
  | .encode_u8 st e _ | .encode_u16 st e _ | .encode_u32 st e _ | .encode_u64 st e _ | .encode_i32 st e _
  | .encode_i64 st e _ | .encode_f32 st e _ | .encode_f64 st e _ => [st, e]
  | .encoder_buffer st _ p _ => [st, p]
  | .decode_none st d | .decode_array st d _ | .decode_map st d _ _ | .decode_bytes st d | .decode_string st d
  | .decode_error st d | .decode_bool st d | .decode_u8 st d | .decode_u16 st d | .decode_u32 st d | .decode_u64 st d
  | .decode_i32 st d | .decode_i64 st d | .decode_f32 st d | .decode_f64 st d => [st, d]
  | .free_encoder _ | .free_decoder _ | .free_decode_bytes _ | .free_decode_string _ | .free_decode_error _ => []

/-- The objects a call frees. -/
def Call.frees (m : Mem) : Call → List Ptr
  | .free_encoder p | .free_decoder p | .free_decode_string p | .free_decode_error p => if p = 0 then [] else [p]
  | .free_decode_bytes b =>
    match m.obj b with
    | some (.buffer data _) => [data, b]
    | _ => []
  | _ => []

theorem varint_total {w : Nat} (hw : 8 ≤ w) (v : BitVec w) : Total (Rust.varintLoop v hw) :=
  total_writes (Rust.varintLoop_writes hw v.toNat v rfl)

theorem write_total (b : Byte) : Total (Rust.write_u8 b) := fun _ => ⟨_, rfl⟩

theorem write_all_total (b : Bytes) : Total (Rust.write_all b) := fun _ => ⟨_, rfl⟩

theorem encode_u32_total (v : BitVec 32) : Total (Rust.encode_u32 v) := total_writes (Rust.encode_u32_writes v)

theorem decode_noPanic (std : Std) (q : Rust.Req) (c : Cursor) : (Rust.readItem std q c).1 ≠ .panic :=
  (Rust.readItem_good std q c).1

theorem noPanic_of_map {f : α → Item} {x : Rust.Dec α} {c : Cursor}
    (h : ((do return f (← x) : Rust.Dec Item) c).1 ≠ .panic) : (x c).1 ≠ .panic := by
  intro hx
  apply h
  have : x c = (.panic, (x c).2) := by rw [← hx]
  show ((x >>= fun a => pure (f a)) c).1 = .panic
  rw [Rust.bind_apply, this]

theorem dealloc_ok {al : Allocator} {m : Mem} {p : Ptr} {d : Bytes} {n : Nat} (hp : m.obj p = some (.block d))
    (h : al.strict = true → d.length = n) : dealloc al p n m = .ret () (m.set p none) := by
  simp only [dealloc]
  rw [bind_ret (load_some hp)]
  have : ¬ (al.strict = true ∧ d.length ≠ n) := fun hh => hh.2 (h hh.1)
  simp only [if_neg this]
  simp [release, hp]

theorem takeWhile_cstr {v : Bytes} (hv : (0 : Byte) ∉ v) : (v ++ [0]).takeWhile (· != 0) = v := by
  induction v with
  | nil => rfl
  | cons a t ih =>
    simp only [List.mem_cons, not_or] at hv
    have : (a != 0) = true := by simp only [bne_iff_ne, ne_eq]; exact fun h => hv.1 h.symm
    simp only [List.cons_append, List.takeWhile_cons, this, if_true, ih hv.2]

theorem free_string_safe {al : Allocator} {m : Mem} (hm : m.Ok) {s : Ptr}
    (h : s = 0 ∨ ∃ v, (0 : Byte) ∉ v ∧ m.obj s = some (.block (v ++ [0]))) :
    SafeAt [] (if s = 0 then [] else [s]) (free_decode_string al s) m := by
  by_cases h0 : s = 0
  · simp only [free_decode_string, h0, ne_eq, not_true, if_false, if_true]
    exact SafeAt.pure hm _
  · obtain ⟨v, hv, hs⟩ := h.resolve_left h0
    simp only [free_decode_string, ne_eq, h0, not_false_eq_true, if_true, if_false]
    refine ⟨(), m.set s none, ?_, .release hm hs⟩
    rw [bind_ret (cstr_ok hs (by simp)), takeWhile_cstr hv]
    exact dealloc_ok hs (fun _ => by simp)

end CApi
