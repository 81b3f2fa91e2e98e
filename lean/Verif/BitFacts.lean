import Verif.Spec.Facts

/-! # Bit-level facts used by the codec proofs (no model involved) -/

theorem toNat_0x80 {w : Nat} (hw : 8 ≤ w) : (0x80#w).toNat = 128 := by
  rw [BitVec.toNat_ofNat]
  apply Nat.mod_eq_of_lt
  calc 128 < 2 ^ 8 := by decide
    _ ≤ 2 ^ w := Nat.pow_le_pow_right (by decide) hw

theorem lt_0x80 {w : Nat} (hw : 8 ≤ w) (v : BitVec w) : v < 0x80#w ↔ v.toNat < 128 := by
  rw [BitVec.lt_def, toNat_0x80 hw]

theorem toNat_0x7f {w : Nat} (hw : 8 ≤ w) : (0x80#w - 1).toNat = 127 := by
  have h1 : (1 : BitVec w).toNat = 1 := by
    change (BitVec.ofNat w 1).toNat = 1
    rw [BitVec.toNat_ofNat]; apply Nat.mod_eq_of_lt; exact Nat.one_lt_two_pow (by omega)
  rw [BitVec.toNat_sub_of_le]
  · rw [toNat_0x80 hw, h1]
  · rw [BitVec.le_def, h1, toNat_0x80 hw]; decide

theorem nat_and_127 (n : Nat) : n &&& 127 = n % 128 := Nat.and_two_pow_sub_one_eq_mod n 7

theorem nat_or_128 {n : Nat} (h : n < 128) : n ||| 128 = 128 + n := by
  have := Nat.two_pow_add_eq_or_of_lt (i := 7) (b := n) h 1
  rw [Nat.or_comm]; simpa using this.symm

theorem setWidth8_small {w : Nat} (v : BitVec w) : v.setWidth 8 = BitVec.ofNat 8 v.toNat := by
  apply BitVec.eq_of_toNat_eq; simp

theorem contByte {w : Nat} (hw : 8 ≤ w) (v : BitVec w) :
    (v &&& (0x80#w - 1)).setWidth 8 ||| 0x80#8 = BitVec.ofNat 8 (128 + v.toNat % 128) := by
  apply BitVec.eq_of_toNat_eq
  rw [BitVec.toNat_or, BitVec.toNat_setWidth, BitVec.toNat_and, toNat_0x7f hw, nat_and_127,
    BitVec.toNat_ofNat, BitVec.toNat_ofNat]
  have : v.toNat % 128 % 2 ^ 8 = v.toNat % 128 := by omega
  rw [this]
  change v.toNat % 128 ||| 128 = _
  rw [nat_or_128 (by omega)]; omega

theorem toNat_shr7 {w : Nat} (v : BitVec w) : (v >>> 7).toNat = v.toNat / 128 := by
  rw [BitVec.toNat_ushiftRight, Nat.shiftRight_eq_div_pow]

/-- The zig-zag computation of the integer encoders. -/
theorem zigzag_bits {w : Nat} (v : BitVec (w + 1)) :
    (if v.slt 0 then ~~~(v <<< 1) else v <<< 1).toNat = Spec.zigzag v.toInt := by
  have hlt := v.isLt
  have hp : 2 ^ (w + 1) = 2 * 2 ^ w := by rw [Nat.pow_succ]; omega
  have hpos : 0 < 2 ^ w := Nat.two_pow_pos w
  have hs : v.slt 0 = decide (v.toInt < 0) := by simp [BitVec.slt]
  have hi : v.toInt = if 2 * v.toNat < 2 ^ (w + 1) then (v.toNat : Int)
      else (v.toNat : Int) - (2 ^ (w + 1) : Nat) := BitVec.toInt_eq_toNat_cond v
  rw [hs]
  have hsh : (v <<< 1).toNat = (v.toNat * 2) % 2 ^ (w + 1) := by
    rw [BitVec.toNat_shiftLeft, Nat.shiftLeft_eq, Nat.pow_one]
  unfold Spec.zigzag
  by_cases h : 2 * v.toNat < 2 ^ (w + 1)
  · rw [if_pos h] at hi
    have h0 : ¬ v.toInt < 0 := by omega
    have h1 : 0 ≤ v.toInt := by omega
    simp only [h0, decide_false, Bool.false_eq_true, if_false, h1, if_true, hsh]
    rw [Nat.mod_eq_of_lt (by omega)]; omega
  · rw [if_neg h] at hi
    have h0 : v.toInt < 0 := by omega
    have h1 : ¬ 0 ≤ v.toInt := by omega
    simp only [h0, decide_true, if_true, h1, if_false]
    rw [BitVec.toNat_not, hsh]
    have : v.toNat * 2 % 2 ^ (w + 1) = v.toNat * 2 - 2 ^ (w + 1) := by
      rw [Nat.mod_eq_sub_mod (by omega), Nat.mod_eq_of_lt (by omega)]
    rw [this, hp] at *
    rw [hp] at hi
    omega

theorem zigzag_lt {w : Nat} (v : BitVec (w + 1)) : Spec.zigzag v.toInt < 2 ^ (w + 1) := by
  rw [← zigzag_bits]; exact BitVec.isLt _

theorem bigEndian_byte {w : Nat} (v : BitVec w) (s : Nat) :
    (v >>> s).setWidth 8 = BitVec.ofNat 8 (v.toNat / 2 ^ s) := by
  apply BitVec.eq_of_toNat_eq
  simp [Nat.shiftRight_eq_div_pow]

/-! ## Accumulating varint groups -/

theorem ofNat_or (w a b : Nat) : BitVec.ofNat w a ||| BitVec.ofNat w b = BitVec.ofNat w (a ||| b) := by
  apply BitVec.eq_of_getLsbD_eq; intro i hi
  simp [hi]

theorem ofNat_shl (w a s : Nat) : BitVec.ofNat w a <<< s = BitVec.ofNat w (a * 2 ^ s) := by
  apply BitVec.eq_of_toNat_eq
  simp [BitVec.toNat_shiftLeft, Nat.shiftLeft_eq]

theorem acc_or (w acc c s : Nat) (h : acc < 2 ^ s) :
    BitVec.ofNat w acc ||| (BitVec.ofNat w c <<< s) = BitVec.ofNat w (acc + c * 2 ^ s) := by
  rw [ofNat_shl, ofNat_or]
  congr 1
  have := Nat.two_pow_add_eq_or_of_lt h c
  rw [Nat.or_comm, Nat.mul_comm c, ← this, Nat.add_comm]

theorem setWidth_ofNat8 {w : Nat} (_ : 8 ≤ w) (c : Byte) : c.setWidth w = BitVec.ofNat w c.toNat := by
  apply BitVec.eq_of_toNat_eq
  simp

theorem setWidth_lt_0x80 {w : Nat} (hw : 8 ≤ w) (c : Byte) : c.setWidth w < 0x80#w ↔ c.toNat < 128 := by
  rw [lt_0x80 hw, BitVec.toNat_setWidth, Nat.mod_eq_of_lt]
  exact Nat.lt_of_lt_of_le c.isLt (Nat.pow_le_pow_right (by decide) hw)

theorem setWidth_and_0x7f {w : Nat} (hw : 8 ≤ w) (c : Byte) :
    c.setWidth w &&& (0x80#w - 1) = BitVec.ofNat w (c.toNat % 128) := by
  apply BitVec.eq_of_toNat_eq
  rw [BitVec.toNat_and, toNat_0x7f hw, nat_and_127, BitVec.toNat_setWidth, BitVec.toNat_ofNat]
  have h8 : 2 ^ 8 ≤ 2 ^ w := Nat.pow_le_pow_right (by decide) hw
  have := c.isLt
  have h1 : c.toNat % 2 ^ w = c.toNat := Nat.mod_eq_of_lt (by omega)
  have h2 : c.toNat % 128 % 2 ^ w = c.toNat % 128 := Nat.mod_eq_of_lt (by omega)
  rw [h1, h2]
