import Verif.GoV1.Encode
import Verif.GoV2.ApiFacts

/-! # Proof machinery for the v1 encoders -/

namespace GoV1

open GoV2 (Runtime overwrite)
open Spec

/-- Go's slice invariant `len ≤ cap`. -/
def Buffer.Ok (b : Buffer) : Prop := b.len ≤ b.cap

/-- `b'` is `b` with `v` appended. -/
def App (b b' : Buffer) (v : Bytes) : Prop := b'.Ok ∧ b'.Bytes = b.Bytes ++ v ∧ b'.len = b.len + v.length

theorem App.trans {a b c : Buffer} {u v : Bytes} (h1 : App a b u) (h2 : App b c v) : App a c (u ++ v) := by
  obtain ⟨_, a2, a3⟩ := h1; obtain ⟨b1, b2, b3⟩ := h2
  exact ⟨b1, by rw [b2, a2, List.append_assoc], by simp; omega⟩

theorem append_spec (rt : Runtime) (b : Buffer) (v : Bytes) (h : b.Ok) : App b (b.append rt v) v := by
  unfold Buffer.Ok Buffer.cap at h
  unfold Buffer.append
  split
  · rename_i hc
    unfold Buffer.cap at hc
    refine ⟨?_, ?_, rfl⟩
    · simp only [Buffer.Ok, Buffer.cap]; rw [GoV2.overwrite_length hc]; exact hc
    · simp only [Buffer.Bytes]; rw [GoV2.overwrite_take hc]
  · refine ⟨?_, ?_, rfl⟩
    · simp [Buffer.Ok, Buffer.cap]; omega
    · simp only [Buffer.Bytes]
      rw [List.take_left']
      simp [h]

theorem Write_spec (rt : Runtime) (b : Buffer) (v : Bytes) (h : b.Ok) :
    ∃ b', b.Write rt v = .ok (b', v.length) ∧ App b b' v := by
  unfold Buffer.Write
  have h' := h
  unfold Buffer.Ok at h'
  split
  · rename_i hc
    simp only [Buffer.reslice, h', if_true, Go.bind_ok]
    exact ⟨_, rfl, append_spec rt b v h⟩
  · rename_i hc
    have hfit : b.len + v.length ≤ b.cap := by omega
    have hc1 : ¬ ((b.len : Int) < 0 ∨ (b.cap : Int) < b.len) := by omega
    have hmin : min (b.cap - b.len) v.length = v.length := by omega
    have hcl : (overwrite b.arr b.len v).length = b.cap := GoV2.overwrite_length hfit
    have hcp : GoV2.copyInto b.arr b.len b.cap v = .ok (overwrite b.arr b.len v, v.length) := by
      simp only [GoV2.copyInto, hc1, if_false, Int.toNat_natCast, hmin, List.take_length]
    have hrs : Buffer.reslice { b with arr := overwrite b.arr b.len v } (b.len + v.length) =
        .ok { arr := overwrite b.arr b.len v, len := b.len + v.length } := by
      unfold Buffer.reslice
      rw [if_pos]
      show _ ≤ (overwrite b.arr b.len v).length
      rw [hcl]; exact hfit
    simp only [hcp, Go.bind_ok, hrs]
    refine ⟨_, rfl, ?_, ?_, rfl⟩
    · simp only [Buffer.Ok, Buffer.cap]; rw [hcl]; exact hfit
    · simp only [Buffer.Bytes]; rw [GoV2.overwrite_take hfit]

theorem contByte' {w : Nat} (hw : 8 ≤ w) (v : BitVec w) :
    v.setWidth 8 ||| (continuation : Byte) = BitVec.ofNat 8 (128 + v.toNat % 128) := by
  rw [← contByte hw]
  unfold continuation
  apply BitVec.eq_of_getLsbD_eq
  intro i hi
  have h7 : (128#w - 1) = BitVec.ofNat w 127 := by
    apply BitVec.eq_of_toNat_eq
    rw [toNat_0x7f hw, BitVec.toNat_ofNat, Nat.mod_eq_of_lt]
    calc 127 < 2 ^ 8 := by decide
      _ ≤ 2 ^ w := Nat.pow_le_pow_right (by decide) hw
  rw [h7]
  have hiw : i < w := by omega
  simp only [BitVec.getLsbD_or, BitVec.getLsbD_setWidth, BitVec.getLsbD_and, BitVec.getLsbD_ofNat, hi, hiw]
  have : i = 0 ∨ i = 1 ∨ i = 2 ∨ i = 3 ∨ i = 4 ∨ i = 5 ∨ i = 6 ∨ i = 7 := by omega
  rcases this with rfl | rfl | rfl | rfl | rfl | rfl | rfl | rfl <;> simp [Nat.testBit]

theorem varintLoop_spec {w : Nat} (rt : Runtime) (hw : 8 ≤ w) : ∀ (n : Nat) (v : BitVec w) (b : Buffer),
    v.toNat = n → b.Ok → App b (varintLoop rt b v hw) (leb128 v.toNat) := by
  intro n
  induction n using Nat.strongRecOn with
  | _ n ih =>
    intro v b hn h
    rw [varintLoop]
    have hc : (v ≥ (continuation : BitVec w)) ↔ 128 ≤ v.toNat := by
      rw [ge_iff_le, BitVec.le_def, continuation, toNat_0x80 hw]
    split
    · rename_i hv
      have hv := hc.mp hv
      rw [leb128_big (by omega)]
      have h1 := append_spec rt b [v.setWidth 8 ||| continuation] h
      have h2 := ih (v >>> 7).toNat (by rw [toNat_shr7]; omega) (v >>> 7) _ rfl h1.1
      have := h1.trans h2
      rw [contByte' hw, toNat_shr7] at this
      rw [contByte' hw]
      exact this
    · rename_i hv
      have hv : ¬ 128 ≤ v.toNat := fun c => hv (hc.mpr c)
      rw [leb128_small (by omega), ← setWidth8_small]
      exact append_spec rt b _ h

theorem encodeUint32_spec (rt : Runtime) (b : Buffer) (v : BitVec 32) (h : b.Ok) :
    ∃ b', encodeUint32 rt b v = .ok b' ∧ App b b' (size32 v.toNat) := by
  obtain ⟨b1, h1, a1⟩ := Write_spec rt b Uint32Kind h
  exact ⟨_, by simp only [encodeUint32, h1, Go.bind_ok]; rfl,
    a1.trans (varintLoop_spec rt _ _ v b1 rfl a1.1)⟩

theorem encodeString_spec (rt : Runtime) (b : Buffer) (v : Bytes) (h : b.Ok) (hv : v.length < 2 ^ 32) :
    ∃ b', encodeString rt b v = .ok b' ∧ App b b' (wire (.string v)) := by
  obtain ⟨b1, h1, a1⟩ := Write_spec rt b StringKind h
  obtain ⟨b2, h2, a2⟩ := encodeUint32_spec rt b1 (BitVec.ofNat 32 v.length) a1.1
  obtain ⟨b3, h3, a3⟩ := Write_spec rt b2 v a2.1
  refine ⟨b3, by simp only [encodeString, h1, h2, h3, Go.bind_ok]; rfl, ?_⟩
  have := (a1.trans a2).trans a3
  rwa [GoV2.toNat_len32 hv] at this

/-- A kind byte and then a varint. -/
theorem kindVarint {w : Nat} (rt : Runtime) (hw : 8 ≤ w) (b : Buffer) (k : Kind) (v : BitVec w) (n : Nat) (h : b.Ok)
    (hv : v.toNat = n) :
    ∃ b', (do let (b, _) ← b.Write rt k; return varintLoop rt b v hw : Go Buffer) = .ok b' ∧ App b b' (k ++ leb128 n) := by
  obtain ⟨b1, h1, a1⟩ := Write_spec rt b k h
  refine ⟨_, by simp only [h1, Go.bind_ok]; rfl, ?_⟩
  have := a1.trans (varintLoop_spec rt hw _ v b1 rfl a1.1)
  rwa [hv] at this

/-- A kind byte and then some bytes. -/
theorem kindBytes (rt : Runtime) (b : Buffer) (k : Kind) (v : Bytes) (h : b.Ok) :
    ∃ b', (do let (b, _) ← b.Write rt k; return b.append rt v : Go Buffer) = .ok b' ∧ App b b' (k ++ v) := by
  obtain ⟨b1, h1, a1⟩ := Write_spec rt b k h
  exact ⟨_, by simp only [h1, Go.bind_ok]; rfl, a1.trans (append_spec rt b1 v a1.1)⟩

theorem encodeItem_spec (rt : Runtime) (b : Buffer) (i : Item) (h : b.Ok) (hf : i.Fits) :
    ∃ b', encodeItem rt b i = .ok b' ∧ App b b' (wire i) := by
  cases i with
  | nil =>
    obtain ⟨b1, h1, a1⟩ := Write_spec rt b NilKind h
    exact ⟨b1, by simp only [encodeItem, encodeNil, h1, Go.bind_ok]; rfl, a1⟩
  | map size k v =>
    obtain ⟨b1, h1, a1⟩ := Write_spec rt b MapKind h
    obtain ⟨b2, h2, a2⟩ := Write_spec rt b1 [k] a1.1
    obtain ⟨b3, h3, a3⟩ := Write_spec rt b2 [v] a2.1
    obtain ⟨b4, h4, a4⟩ := encodeUint32_spec rt b3 size a3.1
    exact ⟨b4, by simp only [encodeItem, encodeMap, h1, h2, h3, h4, Go.bind_ok], ((a1.trans a2).trans a3).trans a4⟩
  | slice size k =>
    obtain ⟨b1, h1, a1⟩ := Write_spec rt b SliceKind h
    obtain ⟨b2, h2, a2⟩ := Write_spec rt b1 [k] a1.1
    obtain ⟨b3, h3, a3⟩ := encodeUint32_spec rt b2 size a2.1
    exact ⟨b3, by simp only [encodeItem, encodeSlice, h1, h2, h3, Go.bind_ok], (a1.trans a2).trans a3⟩
  | bytes v =>
    obtain ⟨b1, h1, a1⟩ := Write_spec rt b BytesKind h
    obtain ⟨b2, h2, a2⟩ := encodeUint32_spec rt b1 (BitVec.ofNat 32 v.length) a1.1
    obtain ⟨b3, h3, a3⟩ := Write_spec rt b2 v a2.1
    refine ⟨b3, by simp only [encodeItem, encodeBytes, h1, h2, h3, Go.bind_ok]; rfl, ?_⟩
    have := (a1.trans a2).trans a3
    rwa [GoV2.toNat_len32 hf] at this
  | string v =>
    exact encodeString_spec rt b v h hf
  | error m =>
    obtain ⟨b1, h1, a1⟩ := Write_spec rt b ErrorKind h
    obtain ⟨b2, h2, a2⟩ := encodeString_spec rt b1 m a1.1 hf
    exact ⟨b2, by simp only [encodeItem, encodeError, h1, h2, Go.bind_ok], a1.trans a2⟩
  | bool v =>
    have := kindBytes rt b BoolKind [if v then 1 else 0] h
    cases v
    · exact this
    · exact this
  | uint8 v => exact kindBytes rt b Uint8Kind [v] h
  | uint16 v => exact kindVarint rt (by decide) b Uint16Kind v _ h rfl
  | uint32 v => exact kindVarint rt (by decide) b Uint32Kind v _ h rfl
  | uint64 v => exact kindVarint rt (by decide) b Uint64Kind v _ h rfl
  | int32 v =>
    have := kindVarint rt (w := 32) (by decide) b Int32Kind (if v.slt 0 then ~~~(v <<< 1) else v <<< 1) _ h
      (zigzag_bits v)
    simp only [encodeItem, encodeInt32]
    by_cases hs : v.slt 0
    · simp only [hs, if_true] at this ⊢; exact this
    · simp only [hs] at this ⊢; exact this
  | int64 v =>
    have := kindVarint rt (w := 64) (by decide) b Int64Kind (if v.slt 0 then ~~~(v <<< 1) else v <<< 1) _ h
      (zigzag_bits v)
    simp only [encodeItem, encodeInt64]
    by_cases hs : v.slt 0
    · simp only [hs, if_true] at this ⊢; exact this
    · simp only [hs] at this ⊢; exact this
  | float32 v =>
    have := kindBytes rt b Float32Kind (bigEndian 4 v.toNat) h
    rw [GoV2.bigEndian4] at this
    rw [wire, GoV2.bigEndian4]; exact this
  | float64 v =>
    have := kindBytes rt b Float64Kind (bigEndian 8 v.toNat) h
    rw [GoV2.bigEndian8] at this
    rw [wire, GoV2.bigEndian8]; exact this

theorem encodeItems_spec (rt : Runtime) : ∀ (is : List Item) (b : Buffer), b.Ok → (∀ i ∈ is, i.Fits) →
    ∃ b', encodeItems rt b is = .ok b' ∧ App b b' (wireAll is) := by
  intro is
  induction is with
  | nil => intro b h _; exact ⟨b, rfl, h, by simp [wireAll], by simp [wireAll]⟩
  | cons i is ih =>
    intro b h hf
    obtain ⟨b1, h1, a1⟩ := encodeItem_spec rt b i h (hf i (by simp))
    obtain ⟨b2, h2, a2⟩ := ih b1 a1.1 (fun j hj => hf j (by simp [hj]))
    exact ⟨b2, by simp only [encodeItems, h1, Go.bind_ok, h2], a1.trans a2⟩

theorem Reset_spec (b : Buffer) : ∃ b', b.Reset = .ok b' ∧ b'.Ok ∧ b'.Bytes = [] ∧ b'.len = 0 := by
  refine ⟨{ b with len := 0 }, by simp [Buffer.Reset, Buffer.reslice], ?_, ?_, rfl⟩
  · simp [Buffer.Ok]
  · simp [Buffer.Bytes]

end GoV1
