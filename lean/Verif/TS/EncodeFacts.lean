import Verif.TS.Encode
import Verif.Spec.Facts
import Verif.BitFacts

/-! # Facts about the TypeScript encoder -/

namespace TS

open Spec

section
variable {σ α β : Type}

theorem bind_apply (x : Js σ α) (f : α → Js σ β) (s : σ) : (x >>= f) s =
    (match x s with
     | (.ok a, s) => f a s
     | (.error e, s) => (.error e, s)) := rfl

theorem bind_ok {x : Js σ α} {s s1 : σ} {a : α} (h : x s = (.ok a, s1)) (f : α → Js σ β) :
    (x >>= f) s = f a s1 := by rw [bind_apply, h]

theorem bind_err {x : Js σ α} {s s1 : σ} {e : JsError} (h : x s = (.error e, s1)) (f : α → Js σ β) :
    (x >>= f) s = (.error e, s1) := by rw [bind_apply, h]

theorem pure_apply (a : α) (s : σ) : (pure a : Js σ α) s = (.ok a, s) := rfl

theorem bind_assoc {γ : Type} (x : Js σ α) (f : α → Js σ β) (g : β → Js σ γ) :
    (x >>= f) >>= g = x >>= fun a => f a >>= g := by
  funext s
  rw [bind_apply, bind_apply, bind_apply]
  cases h : x s with
  | mk o s1 => cases o <;> rfl

end

/-! ## Views -/

theorem View.contents_length {v : View} (h : v.Ok) : v.contents.length = v.len := by
  unfold View.Ok at h
  simp [View.contents]; omega

theorem View.store_ok {v : View} (h : v.Ok) (i : Nat) (b : Byte) : (v.store i b).Ok := by
  unfold View.store
  split <;> simpa [View.Ok] using h

@[simp] theorem View.store_len (v : View) (i : Nat) (b : Byte) : (v.store i b).len = v.len := by
  unfold View.store; split <;> rfl

@[simp] theorem View.store_off (v : View) (i : Nat) (b : Byte) : (v.store i b).off = v.off := by
  unfold View.store; split <;> rfl

@[simp] theorem View.store_buffer_length (v : View) (i : Nat) (b : Byte) :
    (v.store i b).buffer.length = v.buffer.length := by
  unfold View.store; split <;> simp

theorem View.store_contents {v : View} (i : Nat) (b : Byte) (h : i < v.len) :
    (v.store i b).contents = v.contents.set i b := by
  unfold View.store View.contents
  rw [if_pos h]
  simp only
  rw [List.drop_set, if_neg (by omega), Nat.add_sub_cancel_left, List.take_set]

theorem View.set_some {v : View} (h : v.Ok) (bs : Bytes) (i : Nat) (hi : i + bs.length ≤ v.len) :
    ∃ w, v.set bs i = some w ∧ w.Ok ∧ w.len = v.len ∧ w.off = v.off ∧ w.buffer.length = v.buffer.length ∧
      w.contents.take (i + bs.length) = v.contents.take i ++ bs := by
  refine ⟨_, if_pos hi, ?_, rfl, rfl, ?_, ?_⟩
  · unfold View.Ok at h ⊢; simp; omega
  · unfold View.Ok at h; simp; omega
  · unfold View.Ok at h
    simp only [View.contents]
    rw [List.take_take, Nat.min_eq_left hi, List.take_take, Nat.min_eq_left (by omega), List.append_assoc,
      List.drop_append_of_le_length (by simp; omega)]
    have h1 : ((v.buffer.take (v.off + i)).drop v.off) = (v.buffer.drop v.off).take i := by
      rw [List.drop_take, Nat.add_sub_cancel_left]
    rw [h1, ← List.append_assoc, List.take_append_of_le_length (by simp; omega), List.take_of_length_le (by simp; omega)]

/-! ## Appending -/

/-- The encoder's position is inside its array. -/
def Encoder.Ok (e : Encoder) : Prop := e.buf.Ok ∧ e.pos ≤ e.buf.len

/-- The array is a window onto a whole buffer, as with `new Encoder()` and `new Encoder(new Uint8Array(n))`. -/
def Encoder.Whole (e : Encoder) : Prop := e.buf.off = 0 ∧ e.buf.len = e.buf.buffer.length

/-- What has been written so far. -/
def Encoder.written (e : Encoder) : Bytes := e.buf.contents.take e.pos

theorem Encoder.Whole.bytes {e : Encoder} (hw : e.Whole) (ho : e.Ok) : e.bytes = .ok e.written := by
  unfold Encoder.bytes Encoder.written View.contents
  rw [if_pos (by rw [← hw.2]; exact ho.2), hw.1, hw.2, List.drop_zero, List.take_length]

/-- `e'` is `e` with `bs` appended. -/
structure App (e e' : Encoder) (bs : Bytes) : Prop where
  ok : e'.Ok
  written : e'.written = e.written ++ bs
  pos : e'.pos = e.pos + bs.length
  len : e.buf.len ≤ e'.buf.len
  whole : e.Whole → e'.Whole

theorem App.refl {e : Encoder} (h : e.Ok) : App e e [] := ⟨h, by simp, by simp, Nat.le_refl _, id⟩

theorem App.trans {e1 e2 e3 : Encoder} {xs ys : Bytes} (h1 : App e1 e2 xs) (h2 : App e2 e3 ys) : App e1 e3 (xs ++ ys) :=
  ⟨h2.ok, by rw [h2.written, h1.written, List.append_assoc], by rw [h2.pos, h1.pos, List.length_append, Nat.add_assoc],
    Nat.le_trans h1.len h2.len, fun h => h2.whole (h1.whole h)⟩

/-- Wherever there is room for `bs`, `x` succeeds and appends `bs`. -/
def Puts (x : E Unit) (bs : Bytes) : Prop :=
  ∀ e : Encoder, e.Ok → e.pos + bs.length ≤ e.buf.len → ∃ e', x e = (.ok (), e') ∧ App e e' bs

theorem Puts.seq {x y : E Unit} {xs ys : Bytes} (hx : Puts x xs) (hy : Puts y ys) :
    Puts (do x; y) (xs ++ ys) := by
  intro e ho hr
  rw [List.length_append] at hr
  obtain ⟨e1, h1, a1⟩ := hx e ho (by omega)
  obtain ⟨e2, h2, a2⟩ := hy e1 a1.ok (by have := a1.pos; have := a1.len; omega)
  exact ⟨e2, by rw [bind_ok h1, h2], a1.trans a2⟩

/-- `this.#buf[this.#pos++] = b`. -/
def put (b : Byte) : E Unit := do
  storeAt 0 b
  advance 1

theorem put_puts (b : Byte) : Puts (put b) [b] := by
  intro e ho hr
  simp only [List.length_singleton] at hr
  refine ⟨_, rfl, ?_⟩
  have hc := View.contents_length ho.1
  refine ⟨⟨View.store_ok ho.1 .., by simpa using hr⟩, ?_, rfl, by simp, fun hw => ⟨by simpa using hw.1, by simpa using hw.2⟩⟩
  simp only [Encoder.written, Nat.add_zero]
  rw [View.store_contents _ _ (by omega), List.take_add_one, List.take_set_of_le (Nat.le_refl _)]
  congr 1
  rw [List.getElem?_set_self (by omega)]; rfl

theorem setAt_puts (bs : Bytes) : Puts (do setAt 0 bs; advance bs.length) bs := by
  intro e ho hr
  obtain ⟨w, h1, h2, h3, h4, h5, h6⟩ := View.set_some ho.1 bs e.pos hr
  have h7 : setAt 0 bs e = (.ok (), { e with buf := w }) := by
    simp only [setAt, Nat.add_zero]; rw [h1]
  refine ⟨_, bind_ok h7 _, ⟨h2, ?_⟩, ?_, rfl, Nat.le_of_eq h3.symm, fun hw => ⟨?_, ?_⟩⟩
  · exact Nat.le_trans hr (Nat.le_of_eq h3.symm)
  · exact h6
  · show w.off = 0; rw [h4]; exact hw.1
  · show w.len = w.buffer.length; rw [h3, h5]; exact hw.2

/-- `resize` never throws, changes nothing but the array, and makes it larger or leaves it alone. -/
theorem resize_spec (m : Nat) (e : Encoder) (ho : e.Ok) : ∃ e', resize m e = (.ok (), e') ∧ App e e' [] ∧
    (e.pos + m ≤ e.buf.len → e' = e) ∧
    (e.buf.len < e.pos + m → e'.buf.len = 2 * e.buf.buffer.length ∧ e'.Whole) := by
  by_cases h : e.buf.len < e.pos + m
  · have hc := View.contents_length ho.1
    have hl : e.buf.len ≤ e.buf.buffer.length := by have := ho.1; unfold View.Ok at this; omega
    have hz : (View.zeros (e.buf.buffer.length * 2)).Ok := by simp [View.Ok, View.zeros, View.ofBytes]
    have hzl : (View.zeros (e.buf.buffer.length * 2)).len = e.buf.buffer.length * 2 := by simp [View.zeros, View.ofBytes]
    obtain ⟨w, h1, h2, h3, h4, h5, h6⟩ := View.set_some hz e.buf.contents 0 (by omega)
    refine ⟨⟨w, e.pos⟩, by simp only [resize]; rw [if_pos h, h1], ⟨⟨h2, ?_⟩, ?_, rfl, ?_, fun _ => ?_⟩, fun h' => by omega,
      fun _ => ⟨by simp only; omega, ?_⟩⟩
    · have := ho.2; simp only; omega
    · simp only [Encoder.written, List.append_nil]
      rw [Nat.zero_add, hc] at h6
      have : w.contents.take e.pos = (w.contents.take e.buf.len).take e.pos := by
        rw [List.take_take, Nat.min_eq_left ho.2]
      rw [this, h6]; simp
    · simp only; omega
    · exact ⟨h4, by simp only; rw [h3, h5, hzl]; simp [View.zeros, View.ofBytes]⟩
    · exact ⟨h4, by simp only; rw [h3, h5, hzl]; simp [View.zeros, View.ofBytes]⟩
  · exact ⟨e, by simp only [resize]; rw [if_neg h], App.refl ho, fun _ => rfl, fun h' => absurd h' h⟩

theorem resize_puts (m : Nat) : Puts (resize m) [] := by
  intro e ho _
  obtain ⟨e', h1, h2, _⟩ := resize_spec m e ho
  exact ⟨e', h1, h2⟩

/-- A method that starts with a resize: it also works where there is too little room for the resize but
enough after it. -/
theorem Puts.resized {x : E Unit} {bs : Bytes} (hx : Puts x bs) (m : Nat) (e : Encoder) (ho : e.Ok)
    (hr : e.pos + bs.length ≤ e.buf.len ∨
      (e.buf.len < e.pos + m ∧ e.pos + bs.length ≤ 2 * e.buf.buffer.length)) :
    ∃ e', (do resize m; x) e = (.ok (), e') ∧ App e e' bs := by
  obtain ⟨e1, h1, a1, _, h2⟩ := resize_spec m e ho
  have hp := a1.pos; have hl := a1.len
  simp only [List.length_nil, Nat.add_zero] at hp
  obtain ⟨e2, h3, a2⟩ := hx e1 a1.ok (by
    rcases hr with h | ⟨h, h'⟩
    · omega
    · have := (h2 h).1; omega)
  exact ⟨e2, by rw [bind_ok h1, h3], by simpa using a1.trans a2⟩

/-! ## Varints -/

theorem toUint8_nat (n : Nat) : toUint8 (n : Int) = BitVec.ofNat 8 n := by
  simp [toUint8, BitVec.ofInt_natCast]

theorem low_or_cont (n : Nat) : BitVec.ofNat 8 n ||| 0x80#8 = BitVec.ofNat 8 (128 + n % 128) := by
  have h : ∀ c : BitVec 8, c ||| 0x80#8 = BitVec.ofNat 8 (128 + c.toNat % 128) := by decide
  rw [h]; simp only [BitVec.toNat_ofNat]
  congr 2
  omega

theorem varintLoop_puts : ∀ (n : Nat), n < 2 ^ 32 → Puts (varintLoop n) (leb128 n) := by
  intro n
  induction n using Nat.strongRecOn with
  | _ n ih =>
    intro hn
    rw [varintLoop, leb128]
    by_cases h : n < 128
    · rw [dif_neg (by omega), if_pos h, toUint8_nat]; exact put_puts _
    · rw [dif_pos (by omega), if_neg h, toUint8_nat, low_or_cont]
      have h1 : toUint32 n / 128 = n / 128 := by
        have : toUint32 (n : Int) = n := by simp only [toUint32]; omega
        rw [this]
      rw [h1]
      have := (put_puts (BitVec.ofNat 8 (128 + n % 128))).seq (ih (n / 128) (by omega) (by omega))
      simpa only [put, bind_assoc, List.singleton_append] using this

theorem varintBigLoop_puts : ∀ (n : Nat), Puts (varintBigLoop n) (leb128 n) := by
  intro n
  induction n using Nat.strongRecOn with
  | _ n ih =>
    rw [varintBigLoop, leb128]
    by_cases h : n < 128
    · rw [dif_neg (by omega), if_pos h, toUint8_nat]; exact put_puts _
    · rw [dif_pos (by omega), if_neg h]
      have h1 : toUint8 ((n : Int) % 128) ||| 0x80#8 = BitVec.ofNat 8 (128 + n % 128) := by
        rw [show ((n : Int) % 128) = ((n % 128 : Nat) : Int) by omega, toUint8_nat, low_or_cont, Nat.mod_mod]
      rw [h1, show ((n : Int) / 128) = ((n / 128 : Nat) : Int) by omega]
      have := (put_puts (BitVec.ofNat 8 (128 + n % 128))).seq (ih (n / 128) (by omega))
      simpa only [put, bind_assoc, List.singleton_append] using this

theorem zigzag_js (v : Int) : (if 0 ≤ v then v * 2 else v * -2 - 1) = ((zigzag v : Nat) : Int) := by
  unfold zigzag; split <;> omega

/-- Everything an item's method does after its first `resize`, and that `resize`'s argument. -/
def body : Item → Nat × E Unit
  | .nil => (1, put Kind.Null)
  | .map size k v => (3, do storeAt 0 Kind.Map; storeAt 1 k; storeAt 2 v; advance 3; encUint32 size.toNat)
  | .slice size k => (2, do storeAt 0 Kind.Array; storeAt 1 k; advance 2; encUint32 size.toNat)
  | .bytes v => (5 + v.length, do
      storeAt 0 Kind.Uint8Array; advance 1; encUint32 v.length; setAt 0 v; advance v.length)
  | .string v => (5 + v.length, do
      storeAt 0 Kind.String; advance 1; encUint32 v.length; setAt 0 v; advance v.length)
  | .error v => (6 + v.length, do
      storeAt 0 Kind.Error; storeAt 1 Kind.String; advance 2; encUint32 v.length; setAt 0 v; advance v.length)
  | .bool v => (2, do storeAt 0 Kind.Boolean; storeAt 1 (if v then 0x01 else 0x00); advance 2)
  | .uint8 v => (2, do storeAt 0 Kind.Uint8; setAt 1 [toUint8 v.toNat]; advance ([toUint8 v.toNat].length + 1))
  | .uint16 v => (3, do storeAt 0 Kind.Uint16; advance 1; varintLoop v.toNat)
  | .uint32 v => (5, do storeAt 0 Kind.Uint32; advance 1; varintLoop v.toNat)
  | .uint64 v => (9, do storeAt 0 Kind.Uint64; advance 1; varintBigLoop v.toNat)
  | .int32 v => (5, do
      storeAt 0 Kind.Int32; advance 1; varintLoop (if 0 ≤ v.toInt then v.toInt * 2 else v.toInt * -2 - 1))
  | .int64 v => (9, do
      storeAt 0 Kind.Int64; advance 1; varintBigLoop (if 0 ≤ v.toInt then v.toInt * 2 else v.toInt * -2 - 1))
  | .float32 v => (5, do storeAt 0 Kind.Float32; setAt 1 (beBytes 4 v); advance ((beBytes 4 v).length + 1))
  | .float64 v => (9, do storeAt 0 Kind.Float64; setAt 1 (beBytes 8 v); advance ((beBytes 8 v).length + 1))

theorem encodeItem_body (i : Item) : encodeItem i = (do resize (body i).1; (body i).2) := by
  cases i <;> rfl

theorem putThen {x : E Unit} {k : Byte} {bs : Bytes} (hx : Puts x bs) : Puts (do storeAt 0 k; advance 1; x) (k :: bs) := by
  have := (put_puts k).seq hx
  simpa only [put, bind_assoc, List.singleton_append] using this

theorem put2Then {x : E Unit} {a b : Byte} {bs : Bytes} (hx : Puts x bs) :
    Puts (do storeAt 0 a; storeAt 1 b; advance 2; x) (a :: b :: bs) := putThen (putThen hx)

theorem put3Then {x : E Unit} {a b c : Byte} {bs : Bytes} (hx : Puts x bs) :
    Puts (do storeAt 0 a; storeAt 1 b; storeAt 2 c; advance 3; x) (a :: b :: c :: bs) := putThen (putThen (putThen hx))

theorem putSet (k : Byte) (bs : Bytes) : Puts (do storeAt 0 k; setAt 1 bs; advance (bs.length + 1)) (k :: bs) := by
  intro e ho hr
  obtain ⟨e', h1, a⟩ := putThen (k := k) (setAt_puts bs) e ho hr
  refine ⟨e', ?_, a⟩
  rw [← h1]
  have h2 : ∀ e : Encoder, setAt 1 bs e =
      (match (setAt 0 bs { e with pos := e.pos + 1 }) with
       | (o, e1) => (o, { e1 with pos := e.pos })) := by
    intro e; simp only [setAt, Nat.add_zero]; cases e.buf.set bs (e.pos + 1) <;> rfl
  show (setAt 1 bs >>= fun _ => advance (bs.length + 1)) _ = (setAt 0 bs >>= fun _ => advance bs.length) _
  rw [bind_apply, h2]
  rw [bind_ok (show storeAt 0 k e = (.ok (), { e with buf := e.buf.store (e.pos + 0) k }) from rfl),
    bind_ok (show advance 1 _ = (.ok (), _) from rfl), bind_apply] at h1
  simp only at h1 ⊢
  rw [bind_apply]
  generalize hs : setAt 0 bs (⟨e.buf.store (e.pos + 0) k, e.pos + 1⟩ : Encoder) = r at h1 ⊢
  cases r with
  | mk o e1 =>
    cases o with
    | error _ => simp at h1
    | ok u =>
      have hp : e1.pos = e.pos + 1 := by
        simp only [setAt, Nat.add_zero] at hs
        split at hs
        · simp only [Prod.mk.injEq] at hs; rw [← hs.2]
        · simp at hs
      simp only [advance, Js.modify, hp]
      congr 2
      omega

theorem beBytes4 (v : BitVec 32) : beBytes 4 v = bigEndian 4 v.toNat := by
  simp only [beBytes, List.range, List.range.loop, List.map, bigEndian, setWidth8_small]
  simp [Nat.shiftRight_eq_div_pow]

theorem beBytes8 (v : BitVec 64) : beBytes 8 v = bigEndian 8 v.toNat := by
  simp only [beBytes, List.range, List.range.loop, List.map, bigEndian, setWidth8_small]
  simp [Nat.shiftRight_eq_div_pow]

theorem encUint32_puts (n : Nat) (hn : n < 2 ^ 32) : Puts (encUint32 n) (size32 n) :=
  (resize_puts 5).seq (putThen (varintLoop_puts n hn))

theorem zigzag_lt32 (v : BitVec 32) : zigzag v.toInt < 2 ^ 32 := by
  have h1 := BitVec.toInt_lt (x := v); have h2 := BitVec.le_toInt (x := v)
  unfold zigzag; split <;> omega

theorem body_puts (i : Item) (hf : i.Fits) : Puts (body i).2 (wire i) := by
  cases i with
  | nil => exact put_puts _
  | map size k v => exact put3Then (encUint32_puts _ size.isLt)
  | slice size k => exact put2Then (encUint32_puts _ size.isLt)
  | bytes v =>
    have h := (encUint32_puts _ (show v.length < 2 ^ 32 from hf)).seq (setAt_puts v)
    exact putThen h
  | string v =>
    have h := (encUint32_puts _ (show v.length < 2 ^ 32 from hf)).seq (setAt_puts v)
    exact putThen h
  | error v =>
    have h := (encUint32_puts _ (show v.length < 2 ^ 32 from hf)).seq (setAt_puts v)
    exact put2Then h
  | bool v => exact putThen (put_puts _)
  | uint8 v =>
    have h := putSet Kind.Uint8 [toUint8 v.toNat]
    have hv : toUint8 v.toNat = v := by rw [toUint8_nat]; simp
    simp only [body]; rw [hv] at h ⊢; exact h
  | uint16 v => exact putThen (varintLoop_puts _ (by have := v.isLt; omega))
  | uint32 v => exact putThen (varintLoop_puts _ v.isLt)
  | uint64 v => exact putThen (varintBigLoop_puts _)
  | int32 v =>
    simp only [body]; rw [zigzag_js]
    exact putThen (varintLoop_puts _ (zigzag_lt32 v))
  | int64 v =>
    simp only [body]; rw [zigzag_js]
    exact putThen (varintBigLoop_puts _)
  | float32 v =>
    have h := putSet Kind.Float32 (beBytes 4 v)
    simp only [body]; rw [beBytes4] at h ⊢; exact h
  | float64 v =>
    have h := putSet Kind.Float64 (beBytes 8 v)
    simp only [body]; rw [beBytes8] at h ⊢; exact h

theorem encodeItem_puts (i : Item) (hf : i.Fits) : Puts (encodeItem i) (wire i) := by
  rw [encodeItem_body]; exact (resize_puts _).seq (body_puts i hf)

theorem encodeItems_puts (is : List Item) (hf : ∀ i ∈ is, i.Fits) : Puts (encodeItems is) (wireAll is) := by
  induction is with
  | nil => exact fun e ho _ => ⟨e, rfl, App.refl ho⟩
  | cons i is ih =>
    have := (encodeItem_puts i (hf i (by simp))).seq (ih (fun j h => hf j (by simp [h])))
    simpa [wireAll, encodeItems] using this

/-! ## Running out of room -/

/-- `x` never throws, whatever the room; it moves the position by `n` and does not change the array's size. -/
def Runs (x : E Unit) (n : Nat) : Prop :=
  ∀ e : Encoder, ∃ e', x e = (.ok (), e') ∧ e'.pos = e.pos + n ∧ e'.buf.len = e.buf.len ∧
    e'.buf.buffer.length = e.buf.buffer.length

theorem Runs.seq {x y : E Unit} {m n : Nat} (hx : Runs x m) (hy : Runs y n) : Runs (do x; y) (m + n) := by
  intro e
  obtain ⟨e1, h1, p1, l1, b1⟩ := hx e
  obtain ⟨e2, h2, p2, l2, b2⟩ := hy e1
  exact ⟨e2, by rw [bind_ok h1, h2], by omega, by omega, by omega⟩

theorem put_runs (b : Byte) : Runs (put b) 1 := fun e => ⟨_, rfl, rfl, by simp, by simp⟩

theorem put_bind_runs {x : E Unit} {n : Nat} (b : Byte) (hx : Runs x n) : Runs (do storeAt 0 b; advance 1; x) (1 + n) := by
  have := (put_runs b).seq hx
  simpa only [put, bind_assoc] using this

theorem varintLoop_runs : ∀ (n : Nat), n < 2 ^ 32 → Runs (varintLoop n) (leb128 n).length := by
  intro n
  induction n using Nat.strongRecOn with
  | _ n ih =>
    intro hn
    rw [varintLoop, leb128]
    by_cases h : n < 128
    · rw [dif_neg (by omega), if_pos h]; exact put_runs _
    · rw [dif_pos (by omega), if_neg h]
      have h1 : toUint32 n / 128 = n / 128 := by
        have : toUint32 (n : Int) = n := by simp only [toUint32]; omega
        rw [this]
      rw [h1, List.length_cons, Nat.add_comm]
      exact put_bind_runs _ (ih (n / 128) (by omega) (by omega))

theorem varintBigLoop_runs : ∀ (n : Nat), Runs (varintBigLoop n) (leb128 n).length := by
  intro n
  induction n using Nat.strongRecOn with
  | _ n ih =>
    rw [varintBigLoop, leb128]
    by_cases h : n < 128
    · rw [dif_neg (by omega), if_pos h]; exact put_runs _
    · rw [dif_pos (by omega), if_neg h, show ((n : Int) / 128) = ((n / 128 : Nat) : Int) by omega, List.length_cons,
        Nat.add_comm]
      exact put_bind_runs _ (ih (n / 128) (by omega))

/-- The integer items, whose methods are a `resize` and a varint. -/
def IsVarint : Item → Prop
  | .uint16 _ | .uint32 _ | .uint64 _ | .int32 _ | .int64 _ => True
  | _ => False

instance : DecidablePred IsVarint := fun i => by
  cases i <;> simp only [IsVarint] <;> infer_instance

theorem body_runs (i : Item) (hi : IsVarint i) : Runs (body i).2 (wire i).length := by
  cases i with
  | uint16 v =>
    simp only [wire, List.length_cons]; rw [Nat.add_comm]
    exact put_bind_runs _ (varintLoop_runs _ (by have := v.isLt; omega))
  | uint32 v =>
    simp only [wire, List.length_cons]; rw [Nat.add_comm]
    exact put_bind_runs _ (varintLoop_runs _ v.isLt)
  | uint64 v =>
    simp only [wire, List.length_cons]; rw [Nat.add_comm]
    exact put_bind_runs _ (varintBigLoop_runs _)
  | int32 v =>
    simp only [wire, List.length_cons, body]; rw [Nat.add_comm, zigzag_js]
    exact put_bind_runs _ (varintLoop_runs _ (zigzag_lt32 v))
  | int64 v =>
    simp only [wire, List.length_cons, body]; rw [Nat.add_comm, zigzag_js]
    exact put_bind_runs _ (varintBigLoop_runs _)
  | _ => exact hi.elim

end TS
