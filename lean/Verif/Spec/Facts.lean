import Verif.Spec.Wire

/-! # Facts about the wire format specification (no model involved) -/

namespace Spec

theorem leb128_small {n : Nat} (h : n < 128) : leb128 n = [BitVec.ofNat 8 n] := by
  rw [leb128]; simp [h]

theorem leb128_big {n : Nat} (h : ¬ n < 128) :
    leb128 n = BitVec.ofNat 8 (128 + n % 128) :: leb128 (n / 128) := by
  rw [leb128]; simp [h]

theorem leb128_ne_nil (n : Nat) : leb128 n ≠ [] := by
  rw [leb128]; split <;> simp

theorem leb128_length_pos (n : Nat) : 0 < (leb128 n).length :=
  List.length_pos_iff.mpr (leb128_ne_nil n)

/-- A number below `128^k` needs at most `k` bytes (`k ≥ 1`). -/
theorem leb128_length_le : ∀ (k n : Nat), n < 128 ^ (k + 1) → (leb128 n).length ≤ k + 1 := by
  intro k
  induction k with
  | zero => intro n h; rw [leb128_small (by simpa using h)]; simp
  | succ k ih =>
    intro n h
    by_cases hn : n < 128
    · rw [leb128_small hn]; simp
    · rw [leb128_big hn]
      have : n / 128 < 128 ^ (k + 1) := by
        rw [Nat.div_lt_iff_lt_mul (by decide)]; rw [Nat.pow_succ] at h; omega
      simpa using ih _ this

/-- A number of at least `128^k` needs more than `k` bytes. -/
theorem lt_leb128_length : ∀ (k n : Nat), 128 ^ k ≤ n → k < (leb128 n).length := by
  intro k
  induction k with
  | zero => intro n _; exact leb128_length_pos n
  | succ k ih =>
    intro n h
    have h1 : 128 ≤ n := by
      have : 128 ^ 1 ≤ 128 ^ (k + 1) := Nat.pow_le_pow_right (by decide) (by omega)
      omega
    rw [leb128_big (by omega)]
    have : 128 ^ k ≤ n / 128 := by
      rw [Nat.le_div_iff_mul_le (by decide)]; rw [Nat.pow_succ] at h; exact h
    simpa using ih _ this

/-- Reading back a canonical varint. -/
theorem readVarint_leb128 : ∀ (k n : Nat) (t : Bytes), n < 128 ^ (k + 1) →
    readVarint (k + 1) (leb128 n ++ t) = .done n t := by
  intro k
  induction k with
  | zero =>
    intro n t h
    have h : n < 128 := by simpa using h
    have : n % 256 = n := by omega
    simp [leb128_small h, readVarint, this, h]
  | succ k ih =>
    intro n t h
    by_cases hn : n < 128
    · have : n % 256 = n := by omega
      simp [leb128_small hn, readVarint, this, hn]
    · rw [leb128_big hn]
      have hd : n / 128 < 128 ^ (k + 1) := by
        rw [Nat.div_lt_iff_lt_mul (by decide)]; rw [Nat.pow_succ] at h; omega
      have h1 : (128 + n % 128) % 256 = 128 + n % 128 := by omega
      rw [List.cons_append, readVarint, ih _ t hd]
      have h2 : ¬ (128 + n % 128 < 128) := by omega
      simp only [BitVec.toNat_ofNat, Nat.reducePow, h1, h2, if_false]
      congr 1; omega

/-- A completed read consumed a non-empty prefix, and is unaffected by what follows. -/
theorem readVarint_done_append : ∀ (k : Nat) (bs t rest : Bytes) (n : Nat),
    readVarint k bs = .done n rest → readVarint k (bs ++ t) = .done n (rest ++ t) := by
  intro k
  induction k with
  | zero => intro bs t rest n h; simp [readVarint] at h
  | succ k ih =>
    intro bs t rest n h
    cases bs with
    | nil => simp [readVarint] at h
    | cons c bs =>
      simp only [readVarint, List.cons_append] at h ⊢
      split at h
      · rename_i hc; simp only [VRes.done.injEq] at h; obtain ⟨rfl, rfl⟩ := h; simp [hc]
      · rename_i hc
        simp only [hc, if_false]
        cases hr : readVarint k bs with
        | done m r =>
          rw [hr] at h; simp only [VRes.done.injEq] at h; obtain ⟨rfl, rfl⟩ := h
          simp [ih _ t _ _ hr]
        | truncated => rw [hr] at h; simp at h
        | tooLong => rw [hr] at h; simp at h

theorem readVarint_done_suffix : ∀ (k : Nat) (bs rest : Bytes) (n : Nat),
    readVarint k bs = .done n rest → ∃ p, bs = p ++ rest ∧ 0 < p.length ∧ p.length ≤ k := by
  intro k
  induction k with
  | zero => intro bs rest n h; simp [readVarint] at h
  | succ k ih =>
    intro bs rest n h
    cases bs with
    | nil => simp [readVarint] at h
    | cons c bs =>
      simp only [readVarint] at h
      split at h
      · simp only [VRes.done.injEq] at h; obtain ⟨rfl, rfl⟩ := h
        exact ⟨[c], rfl, by simp, by simp⟩
      · cases hr : readVarint k bs with
        | done m r =>
          rw [hr] at h; simp only [VRes.done.injEq] at h; obtain ⟨rfl, rfl⟩ := h
          obtain ⟨p, hp, h0, hk⟩ := ih _ _ _ hr
          exact ⟨c :: p, by simp [hp], by simp, by simp; omega⟩
        | truncated => rw [hr] at h; simp at h
        | tooLong => rw [hr] at h; simp at h

/-- Exactly when the input is too short: all its bytes are continuation bytes and there are fewer
than `k` of them. -/
theorem readVarint_truncated_iff : ∀ (k : Nat) (bs : Bytes),
    readVarint k bs = .truncated ↔ bs.length < k ∧ ∀ c ∈ bs, 128 ≤ c.toNat := by
  intro k
  induction k with
  | zero => intro bs; simp [readVarint]
  | succ k ih =>
    intro bs
    cases bs with
    | nil => simp [readVarint]
    | cons c bs =>
      simp only [readVarint]
      split
      · rename_i hc; simp; intro _ h; omega
      · rename_i hc
        have hc' : 128 ≤ c.toNat := by omega
        have := ih bs
        cases hr : readVarint k bs <;> simp_all

theorem readVarint_tooLong_iff : ∀ (k : Nat) (bs : Bytes),
    readVarint k bs = .tooLong ↔ k ≤ bs.length ∧ ∀ c ∈ bs.take k, 128 ≤ c.toNat := by
  intro k
  induction k with
  | zero => intro bs; simp [readVarint]
  | succ k ih =>
    intro bs
    cases bs with
    | nil => simp [readVarint]
    | cons c bs =>
      simp only [readVarint]
      split
      · rename_i hc; simp; intro _ h; omega
      · rename_i hc
        have hc' : 128 ≤ c.toNat := by omega
        have := ih bs
        cases hr : readVarint k bs <;> simp_all

/-- The value of a completed read of `p.length` groups is below `128 ^ p.length`. -/
theorem readVarint_done_lt : ∀ (k : Nat) (bs rest : Bytes) (n : Nat),
    readVarint k bs = .done n rest → n < 128 ^ (bs.length - rest.length) := by
  intro k
  induction k with
  | zero => intro bs rest n h; simp [readVarint] at h
  | succ k ih =>
    intro bs rest n h
    cases bs with
    | nil => simp [readVarint] at h
    | cons c bs =>
      simp only [readVarint] at h
      split at h
      · rename_i hc; simp only [VRes.done.injEq] at h; obtain ⟨rfl, rfl⟩ := h
        simpa using hc
      · cases hr : readVarint k bs with
        | done m r =>
          rw [hr] at h; simp only [VRes.done.injEq] at h; obtain ⟨rfl, rfl⟩ := h
          have := ih _ _ _ hr
          obtain ⟨p, hp, h0, _⟩ := readVarint_done_suffix _ _ _ _ hr
          have hl : (c :: bs).length - r.length = (bs.length - r.length) + 1 := by
            subst hp; simp; omega
          rw [hl, Nat.pow_succ]; omega
        | truncated => rw [hr] at h; simp at h
        | tooLong => rw [hr] at h; simp at h

@[simp] theorem bigEndian_length (k n : Nat) : (bigEndian k n).length = k := by
  induction k with
  | zero => rfl
  | succ k ih => simp [bigEndian, ih]

theorem zigzag_unzigzag (n : Nat) : zigzag (unzigzag n) = n := by
  unfold zigzag unzigzag; split <;> split <;> omega

theorem unzigzag_zigzag (v : Int) : unzigzag (zigzag v) = v := by
  unfold zigzag unzigzag; split <;> split <;> omega

theorem foldl_be (bs : Bytes) (a : Nat) :
    bs.foldl (fun n c => n * 256 + c.toNat) a = a * 256 ^ bs.length + fromBigEndian bs := by
  induction bs generalizing a with
  | nil => simp [fromBigEndian]
  | cons c bs ih =>
    simp only [fromBigEndian, List.foldl_cons, List.length_cons]
    rw [ih, ih (0 * 256 + c.toNat)]
    rw [Nat.pow_succ, Nat.add_mul, Nat.zero_mul, Nat.zero_add, Nat.mul_assoc, Nat.mul_comm 256,
      Nat.add_assoc]

theorem fromBigEndian_cons (c : Byte) (bs : Bytes) :
    fromBigEndian (c :: bs) = c.toNat * 256 ^ bs.length + fromBigEndian bs := by
  have := foldl_be bs c.toNat
  simpa [fromBigEndian] using this

theorem fromBigEndian_lt (bs : Bytes) : fromBigEndian bs < 256 ^ bs.length := by
  induction bs with
  | nil => simp [fromBigEndian]
  | cons c bs ih =>
    rw [fromBigEndian_cons, List.length_cons, Nat.pow_succ, Nat.mul_comm _ 256]
    have := c.isLt
    have : c.toNat * 256 ^ bs.length ≤ 255 * 256 ^ bs.length := Nat.mul_le_mul_right _ (by omega)
    omega

theorem fromBigEndian_bigEndian (k n : Nat) : fromBigEndian (bigEndian k n) = n % 256 ^ k := by
  induction k with
  | zero => simp [bigEndian, fromBigEndian, Nat.mod_one]
  | succ k ih =>
    rw [bigEndian, fromBigEndian_cons, ih, bigEndian_length, BitVec.toNat_ofNat]
    have h := Nat.mod_mul (x := n) (a := 256 ^ k) (b := 256)
    rw [show 256 ^ (k + 1) = 256 ^ k * 256 from Nat.pow_succ .., h, Nat.mul_comm, Nat.add_comm]

theorem bigEndian_congr (k : Nat) : ∀ (m n : Nat), m % 256 ^ k = n % 256 ^ k →
    bigEndian k m = bigEndian k n := by
  induction k with
  | zero => intros; rfl
  | succ k ih =>
    intro m n h
    have hm := Nat.mod_mul (x := m) (a := 256 ^ k) (b := 256)
    have hn := Nat.mod_mul (x := n) (a := 256 ^ k) (b := 256)
    rw [Nat.pow_succ, hm, hn] at h
    have hpos : 0 < 256 ^ k := Nat.pow_pos (by decide)
    have h1 := Nat.mod_lt m hpos
    have h2 := Nat.mod_lt n hpos
    have hq : m / 256 ^ k % 256 = n / 256 ^ k % 256 := by
      have e1 := congrArg (· / 256 ^ k) h
      simp only [Nat.add_mul_div_left _ _ hpos, Nat.div_eq_of_lt h1, Nat.div_eq_of_lt h2,
        Nat.zero_add] at e1
      exact e1
    have hr : m % 256 ^ k = n % 256 ^ k := by rw [hq] at h; omega
    rw [bigEndian, bigEndian, ih _ _ hr]
    congr 1
    apply BitVec.eq_of_toNat_eq
    simpa using hq

theorem bigEndian_fromBigEndian (bs : Bytes) : bigEndian bs.length (fromBigEndian bs) = bs := by
  induction bs with
  | nil => rfl
  | cons c bs ih =>
    rw [List.length_cons, bigEndian, fromBigEndian_cons]
    have hpos : 0 < 256 ^ bs.length := Nat.pow_pos (by decide)
    have hlt := fromBigEndian_lt bs
    congr 1
    · rw [Nat.mul_comm, Nat.mul_add_div hpos, Nat.div_eq_of_lt hlt]
      simp
    · rw [bigEndian_congr bs.length _ (fromBigEndian bs)]
      · exact ih
      · rw [Nat.mul_comm, Nat.mul_add_mod]

end Spec
