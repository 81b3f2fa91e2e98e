import Verif.GoV2.ApiFacts

/-!
# Payloads of any length, and buffers with spare capacity

`encodeItem_spec` covers payloads whose length the format can express (byte slices: below 2^28).  Here is
what the encoders do outside that range, and on buffers whose slice is shorter than its capacity.
-/

namespace GoV2

open Spec

/-- What the v2 encoder appends for *every* item: lengths are truncated to 32 bits, and `encodeBytes`
loses the fifth length byte. -/
def wireV2 : Item → Bytes
  | .bytes v =>
    if v.length % 2 ^ 32 < 2 ^ 28 then kBytes :: size32 (v.length % 2 ^ 32) ++ v
    else kBytes :: kUint32 :: (leb128 (v.length % 2 ^ 32)).take 4 ++ v
  | .string v => kString :: size32 (v.length % 2 ^ 32) ++ v
  | .error m => kError :: kString :: size32 (m.length % 2 ^ 32) ++ m
  | i => wire i

theorem wireV2_eq_wire {i : Item} (h : i.FitsV2) : wireV2 i = wire i := by
  cases i <;> simp only [wireV2, wire, Item.FitsV2, Item.Fits] at *
  case bytes v =>
    have : v.length % 2 ^ 32 = v.length := Nat.mod_eq_of_lt (by omega)
    rw [this, if_pos h]
  case string v => rw [Nat.mod_eq_of_lt h]
  case error v => rw [Nat.mod_eq_of_lt h]

theorem overwrite_front {arr : Bytes} {i : Nat} {x : Byte} {v : Bytes} (hv : v ≠ [])
    (h : i + v.length ≤ arr.length) :
    overwrite (overwrite arr i [x]) i v = overwrite arr i v := by
  have hl : i < arr.length := by
    have := List.length_pos_iff.mpr hv; omega
  have h1 : (overwrite arr i [x]).take i = arr.take i := by
    rw [overwrite, List.append_assoc]; exact List.take_left' (by simp; omega)
  have h2 : (overwrite arr i [x]).drop (i + v.length) = arr.drop (i + v.length) := by
    obtain ⟨m, hm⟩ : ∃ m, v.length = 1 + m := ⟨v.length - 1, by
      have := List.length_pos_iff.mpr hv; omega⟩
    have hl2 : (List.take i arr ++ [x]).length = i + 1 := by simp; omega
    rw [hm, ← Nat.add_assoc, ← List.drop_drop, overwrite, ← hl2, List.drop_left' rfl]
    rw [hl2, List.drop_drop]; simp
  rw [overwrite, h1, h2]; rfl

/-- Exactly five groups are needed from 2^28 on. -/
theorem lastBytes_spec (k : Buffer → Int → Go Buffer) : ∀ (m : Nat) (b : Buffer) (off : Int) (v : BitVec 32),
    128 ^ m ≤ v.toNat → v.toNat < 128 ^ (m + 1) →
    lad k (lastBytes k) m b off v =
      pre ((leb128 v.toNat).take m) (fun b off => do
        let b ← b.store off (BitVec.ofNat 8 (v.toNat / 128 ^ m))
        k b off) b off := by
  intro m
  induction m with
  | zero =>
    intro b off v _ h
    have h : v.toNat < 128 := by simpa using h
    simp only [lad, lastBytes, continuation, lt_0x80 (w := 32) (by decide), h, if_true,
      setWidth8_small, List.take_zero, pre, Nat.pow_zero, Nat.div_one]
  | succ m ih =>
    intro b off v h1 h2
    have hb : ¬ v.toNat < 128 := by
      have : 128 ^ 1 ≤ 128 ^ (m + 1) := Nat.pow_le_pow_right (by decide) (by omega)
      omega
    simp only [lad, continuation, lt_0x80 (w := 32) (by decide), hb, if_false, leb128_big hb,
      List.take_succ_cons, pre]
    rw [contByte (w := 32) (by decide)]
    have hd : (v >>> 7).toNat = v.toNat / 128 := toNat_shr7 v
    have := fun b => ih b (off + 1) (v >>> 7)
      (by rw [hd, Nat.le_div_iff_mul_le (by decide)]; rw [Nat.pow_succ] at h1; exact h1)
      (by rw [hd, Nat.div_lt_iff_lt_mul (by decide)]; rw [Nat.pow_succ] at h2; exact h2)
    simp only [this, hd]
    have e : v.toNat / 128 / 128 ^ m = v.toNat / 128 ^ (m + 1) := by
      rw [Nat.div_div_eq_div_mul, Nat.pow_succ, Nat.mul_comm]
    simp only [e]

theorem encodeBytes_big (rt : Runtime) (b : Buffer) (v : Bytes) (h : b.Usable)
    (hbig : 2 ^ 28 ≤ v.length % 2 ^ 32) :
    ∃ b', encodeBytes rt b v = .ok b' ∧
      Appended b b' (kBytes :: kUint32 :: (leb128 (v.length % 2 ^ 32)).take 4 ++ v) := by
  have hv : v ≠ [] := by intro c; subst c; simp at hbig
  have h32 : (BitVec.ofNat 32 v.length).toNat = v.length % 2 ^ 32 := BitVec.toNat_ofNat ..
  rw [encodeBytes_eq]
  have hs : bytesSize + (v.length : Int) = ((7 + v.length : Nat) : Int) := by
    simp [bytesSize, uint32Size, VarIntLen32]
  rw [hs]
  obtain ⟨b1, hg, g⟩ := Grow_spec rt b (7 + v.length) h
  rw [hg, Go.bind_ok]
  have hl := fun b off => lastBytes_spec (fun b off => b.copyTail off v) 4 b off
    (BitVec.ofNat 32 v.length) (by rw [h32]; exact hbig)
    (by rw [h32]; exact Nat.lt_of_lt_of_le (Nat.mod_lt _ (by decide)) (by decide))
  have hlen4 : ((leb128 (v.length % 2 ^ 32)).take 4).length = 4 := by
    have := lt_leb128_length 4 (v.length % 2 ^ 32) hbig
    rw [List.length_take]; omega
  simp only [hl, h32]
  rw [← pre_append]
  have h0 : b1.offset = (b.offset.toNat : Int) := by rw [g.offset]; have := h.2.1; omega
  have hfit : b.offset.toNat + (7 + v.length) ≤ b1.len := by
    have := g.room; have := g.usable.1; have := g.usable.2.2; unfold Buffer.cap at *; omega
  rw [h0, pre_eq _ _ b1 _ (Nat.le_of_eq g.usable.1) (by simp [BytesRawKind])]
  rw [if_pos (by simp [hlen4]; omega)]
  generalize hhd : [BytesRawKind, Uint32RawKind] ++ (leb128 (v.length % 2 ^ 32)).take 4 = hd
  have hhl : hd.length = 6 := by rw [← hhd]; simp [hlen4]
  have hst := pre_eq (fun b (_ : Int) => b.copyTail ((b1.offset.toNat + hd.length : Nat) : Int) v)
    [BitVec.ofNat 8 (v.length % 2 ^ 32 / 128 ^ 4)] (b1.at_ b.offset.toNat hd)
    (b.offset.toNat + hd.length)
    (by simp [overwrite_length (arr := b1.arr) (i := b.offset.toNat) (v := hd)
          (by have := g.usable.1; omega)]; exact Nat.le_of_eq g.usable.1) (by simp)
  have hoff : b1.offset.toNat = b.offset.toNat := by rw [h0]; rfl
  simp only [pre, hoff] at hst
  rw [hst, if_pos (by simp; omega)]
  have hc := copyTail_eq ((b1.at_ b.offset.toNat hd).at_ (b.offset.toNat + hd.length)
    [BitVec.ofNat 8 (v.length % 2 ^ 32 / 128 ^ 4)]) (b.offset.toNat + hd.length) v
    (by simp; omega)
  have hmin : min (((b1.at_ b.offset.toNat hd).at_ (b.offset.toNat + hd.length)
    [BitVec.ofNat 8 (v.length % 2 ^ 32 / 128 ^ 4)]).len - (b.offset.toNat + hd.length)) v.length
      = v.length := by simp; omega
  rw [hmin, List.take_length] at hc
  refine ⟨_, hc, ?_⟩
  have hhd' : kBytes :: kUint32 :: (leb128 (v.length % 2 ^ 32)).take 4 ++ v = hd ++ v := by
    rw [← hhd]; rfl
  rw [hhd']
  refine put_appended (hd ++ v) g (by simp [hhl]) ?_ rfl ?_
  · simp only [Buffer.at_arr]
    have hbl : b1.arr.length = b1.len := g.usable.1.symm
    rw [overwrite_front hv]
    · exact overwrite_overwrite (by omega)
    · rw [overwrite_length (by omega)]; omega
  · simp [Nat.add_assoc]

/-- On a usable buffer every encoder call, for every argument, appends exactly `wireV2`. -/
theorem encodeItem_exact (rt : Runtime) (b : Buffer) (i : Item) (h : b.Usable) :
    ∃ b', encodeItem rt b i = .ok b' ∧ Appended b b' (wireV2 i) := by
  by_cases hf : i.FitsV2
  · rw [wireV2_eq_wire hf]; exact encodeItem_spec rt b i h hf
  cases i <;> simp only [Item.FitsV2, Item.Fits, not_true_eq_false] at hf
  case bytes v =>
    simp only [wireV2, encodeItem]
    split
    · rename_i hlt
      rw [encodeBytes_eq]
      have h32 : (BitVec.ofNat 32 v.length).toNat = v.length % 2 ^ 32 := BitVec.toNat_ofNat ..
      have hs : bytesSize + (v.length : Int) = ((7 + v.length : Nat) : Int) := by
        simp [bytesSize, uint32Size, VarIntLen32]
      rw [hs]
      have hl := leb128_length_le 3 (v.length % 2 ^ 32) hlt
      obtain ⟨b', he, ha⟩ := emitPayload_spec rt b (7 + v.length)
        ([kBytes, kUint32] ++ leb128 (v.length % 2 ^ 32)) v h
        (by simp only [List.length_append, List.length_cons, List.length_nil]; omega) (by simp)
      refine ⟨b', ?_, by simpa [size32] using ha⟩
      rw [← he]
      simp only [pre_append]
      congr 1; funext b1
      congr 1; funext b2 off
      rw [lad_lt (by decide) _ _ 4 b2 off _ (by rw [h32]; exact hlt) (by decide), h32]
    · rename_i hge
      exact encodeBytes_big rt b v h (by omega)
  case string v =>
    simp only [wireV2, encodeItem]
    rw [encodeString_eq]
    have h32 : (BitVec.ofNat 32 v.length).toNat = v.length % 2 ^ 32 := BitVec.toNat_ofNat ..
    have hs : stringSize + (v.length : Int) = ((7 + v.length : Nat) : Int) := by
      simp [stringSize, uint32Size, VarIntLen32]
    rw [hs]
    have hl := leb128_length_le 4 (v.length % 2 ^ 32)
      (Nat.lt_of_lt_of_le (Nat.mod_lt _ (by decide)) (by decide))
    obtain ⟨b', he, ha⟩ := emitPayload_spec rt b (7 + v.length)
      ([kString, kUint32] ++ leb128 (v.length % 2 ^ 32)) v h
        (by simp only [List.length_append, List.length_cons, List.length_nil]; omega) (by simp)
    refine ⟨b', ?_, by simpa [size32] using ha⟩
    rw [← he]
    simp only [pre_append]
    congr 1; funext b1
    congr 1; funext b2 off
    rw [lad_ok (by decide) _ 5 b2 off _ (bv_lt_pow _ _ (by decide)), h32]
  case error v =>
    simp only [wireV2, encodeItem, encodeError]
    rw [encodeErrorMessage_eq]
    have h32 : (BitVec.ofNat 32 v.length).toNat = v.length % 2 ^ 32 := BitVec.toNat_ofNat ..
    have hs : errorSize + (v.length : Int) = ((8 + v.length : Nat) : Int) := by
      simp [errorSize, stringSize, uint32Size, VarIntLen32]
    rw [hs]
    have hl := leb128_length_le 4 (v.length % 2 ^ 32)
      (Nat.lt_of_lt_of_le (Nat.mod_lt _ (by decide)) (by decide))
    obtain ⟨b', he, ha⟩ := emitPayload_spec rt b (8 + v.length)
      ([kError, kString, kUint32] ++ leb128 (v.length % 2 ^ 32)) v h
        (by simp only [List.length_append, List.length_cons, List.length_nil]; omega) (by simp)
    refine ⟨b', ?_, by simpa [size32] using ha⟩
    rw [← he]
    simp only [pre_append]
    congr 1; funext b1
    congr 1; funext b2 off
    rw [lad_ok (by decide) _ 5 b2 off _ (bv_lt_pow _ _ (by decide)), h32]

end GoV2
