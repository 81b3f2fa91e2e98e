import Verif.Spec.Grammar

namespace Spec

theorem Varint.ne_nil {m : Nat} {cs : Bytes} (h : Varint m cs) : cs ≠ [] := by
  obtain ⟨i, l, rfl, _⟩ := h; simp

theorem Varint.length_le {m : Nat} {cs : Bytes} (h : Varint m cs) : cs.length ≤ m := by
  obtain ⟨i, l, rfl, h, _⟩ := h; simp; omega

theorem Varint.length_pos {m : Nat} {cs : Bytes} (h : Varint m cs) : 0 < cs.length :=
  List.length_pos_iff.mpr h.ne_nil

theorem varint_one {m : Nat} {c : Byte} (h : c.toNat < 128) : Varint (m + 1) [c] :=
  ⟨[], c, rfl, by simp, by simp, h⟩

theorem varint_cons {m : Nat} {c : Byte} {cs : Bytes} (h : 128 ≤ c.toNat) :
    Varint (m + 1) (c :: cs) ↔ Varint m cs := by
  constructor
  · rintro ⟨i, l, he, hl, hc, hlast⟩
    cases i with
    | nil =>
      simp at he; obtain ⟨rfl, rfl⟩ := he; omega
    | cons x xs =>
      simp at he; obtain ⟨rfl, rfl⟩ := he
      exact ⟨xs, l, rfl, by simpa using hl, fun c hc' => hc c (by simp [hc']), hlast⟩
  · rintro ⟨i, l, rfl, hl, hc, hlast⟩
    exact ⟨c :: i, l, rfl, by simpa using hl, by
      intro x hx
      rcases List.mem_cons.mp hx with rfl | hx
      · exact h
      · exact hc x hx, hlast⟩

theorem groupSum_lt (cs : Bytes) : groupSum cs < 128 ^ cs.length := by
  induction cs with
  | nil => simp [groupSum]
  | cons c cs ih =>
    rw [groupSum, List.length_cons, Nat.pow_succ]
    have := Nat.mod_lt c.toNat (show 0 < 128 by decide)
    omega

/-- A varint that is read successfully is exactly a `Varint`, with the group sum as value. -/
theorem readVarint_done_iff : ∀ (m : Nat) (b r : Bytes) (v : Nat),
    readVarint m b = .done v r ↔ ∃ cs, Varint m cs ∧ b = cs ++ r ∧ v = groupSum cs := by
  intro m
  induction m with
  | zero =>
    intro b r v
    simp only [readVarint, reduceCtorEq, false_iff]
    rintro ⟨cs, h, _⟩
    have := h.length_le
    have := h.length_pos
    omega
  | succ m ih =>
    intro b r v
    cases b with
    | nil =>
      simp only [readVarint, reduceCtorEq, false_iff]
      rintro ⟨cs, h, he, _⟩
      have := h.ne_nil
      simp at he; exact this he.1
    | cons c bs =>
      by_cases hc : c.toNat < 128
      · simp only [readVarint, hc, if_true, VRes.done.injEq]
        constructor
        · rintro ⟨rfl, rfl⟩
          exact ⟨[c], varint_one hc, rfl, by simp [groupSum, Nat.mod_eq_of_lt hc]⟩
        · rintro ⟨cs, ⟨i, l, rfl, hl, hi, hlast⟩, he, rfl⟩
          cases i with
          | nil =>
            simp at he; obtain ⟨rfl, rfl⟩ := he
            simp [groupSum, Nat.mod_eq_of_lt hc]
          | cons x xs =>
            simp at he; obtain ⟨rfl, _⟩ := he
            have := hi c (by simp); omega
      · simp only [readVarint, hc, if_false]
        have hc' : 128 ≤ c.toNat := by omega
        constructor
        · intro h
          cases hr : readVarint m bs with
          | truncated => rw [hr] at h; simp at h
          | tooLong => rw [hr] at h; simp at h
          | done n rest =>
            rw [hr] at h
            simp only [VRes.done.injEq] at h
            obtain ⟨rfl, rfl⟩ := h
            obtain ⟨cs, h1, rfl, rfl⟩ := (ih _ _ _).mp hr
            exact ⟨c :: cs, (varint_cons hc').mpr h1, rfl, rfl⟩
        · rintro ⟨cs, h, he, rfl⟩
          cases cs with
          | nil => exact absurd rfl h.ne_nil
          | cons x xs =>
            simp at he; obtain ⟨rfl, rfl⟩ := he
            rw [(ih _ _ _).mpr ⟨xs, (varint_cons hc').mp h, rfl, rfl⟩]
            rfl

theorem readVarint_varint {m : Nat} {cs : Bytes} (h : Varint m cs) (t : Bytes) :
    readVarint m (cs ++ t) = .done (groupSum cs) t :=
  (readVarint_done_iff _ _ _ _).mpr ⟨cs, h, rfl, rfl⟩

theorem varint_leb128 (k n : Nat) (h : n < 128 ^ (k + 1)) : Varint (k + 1) (leb128 n) ∧ groupSum (leb128 n) = n := by
  obtain ⟨cs, h1, h2, h3⟩ := (readVarint_done_iff _ _ _ _).mp (readVarint_leb128 k n [] h)
  simp at h2; subst h2; exact ⟨h1, h3.symm⟩

/-- Two varints at the front of the same bytes are equal. -/
theorem varint_unique {m n : Nat} {cs ds s t : Bytes} (h1 : Varint m cs) (h2 : Varint n ds)
    (h : cs ++ s = ds ++ t) : cs = ds ∧ s = t := by
  have e1 := readVarint_varint h1 s
  have widen : ∀ {k : Nat} {es : Bytes}, Varint k es → ∀ k', k ≤ k' → Varint k' es := by
    rintro k es ⟨i, l, he, hl, hi, hlast⟩ k' hk
    exact ⟨i, l, he, by omega, hi, hlast⟩
  have a := readVarint_varint (widen h1 (max m n) (by omega)) s
  have b := readVarint_varint (widen h2 (max m n) (by omega)) t
  rw [h, b] at a
  simp only [VRes.done.injEq] at a
  obtain ⟨_, rfl⟩ := a
  exact ⟨List.append_cancel_right h, rfl⟩

theorem not_cut_of_varint {m n : Nat} {cs s ds : Bytes} (h1 : Varint m cs) (h2 : Cut n ds)
    (h : cs ++ s = ds) : False := by
  obtain ⟨i, l, rfl, _, _, hl⟩ := h1
  have := h2.2.2 l (by rw [← h]; simp)
  omega

/-- No varint is a special case of being cut or too long, and these are all cases. -/
theorem readVarint_truncated (m : Nat) (cs : Bytes) (h : cs ≠ []) :
    readVarint m cs = .truncated ↔ Cut m cs := by
  rw [readVarint_truncated_iff]; unfold Cut; simp [h]

theorem readVarint_tooLong (m : Nat) (cs : Bytes) : readVarint m cs = .tooLong ↔ Long m cs := by
  rw [readVarint_tooLong_iff]; rfl

/-- The number read back from a minimal encoding is never longer. -/
theorem leb128_minimal {m : Nat} {cs : Bytes} (h : Varint m cs) (n : Nat) (hn : n ≤ groupSum cs) :
    (leb128 n).length ≤ cs.length := by
  have hp := h.length_pos
  have hlt := groupSum_lt cs
  obtain ⟨k, hk⟩ : ∃ k, cs.length = k + 1 := ⟨cs.length - 1, by omega⟩
  rw [hk] at hlt ⊢
  exact leb128_length_le k n (by omega)

theorem Accepts.head {p : Bytes} {i : Item} (h : Accepts p i) : p.head? = some i.kind := by
  cases h <;> rfl

theorem Accepts.pos {p : Bytes} {i : Item} (h : Accepts p i) : 0 < p.length := by
  cases h <;> simp

theorem take_eq_of_append {v w s t : Bytes} (hl : v.length = w.length) (h : v ++ s = w ++ t) : v = w ∧ s = t :=
  List.append_inj h hl

/-- No accepted encoding is a prefix of a different accepted encoding, of whatever type. -/
theorem accepts_unique {p p' : Bytes} {i j : Item} (hi : Accepts p i) (hj : Accepts p' j) (s t : Bytes)
    (h : p ++ s = p' ++ t) : p = p' ∧ i = j ∧ s = t := by
  have hk : i.kind = j.kind := by
    have := congrArg List.head? h
    rw [List.head?_append, List.head?_append, hi.head, hj.head] at this
    simpa using this
  cases hi <;> cases hj <;> first
    | (exfalso; revert hk; simp only [Item.kind]; decide)
    | skip
  case nil.nil => simp at h; exact ⟨rfl, rfl, h⟩
  case map.map k v cs hc k' v' cs' hc' =>
    simp only [List.cons_append, List.cons.injEq, true_and] at h
    obtain ⟨rfl, rfl, h⟩ := h
    obtain ⟨rfl, rfl⟩ := varint_unique hc hc' h
    exact ⟨rfl, rfl, rfl⟩
  case slice.slice k cs hc k' cs' hc' =>
    simp only [List.cons_append, List.cons.injEq, true_and] at h
    obtain ⟨rfl, h⟩ := h
    obtain ⟨rfl, rfl⟩ := varint_unique hc hc' h
    exact ⟨rfl, rfl, rfl⟩
  case bytes.bytes cs v hc hl cs' v' hc' hl' =>
    simp only [List.cons_append, List.cons.injEq, true_and, List.append_assoc] at h
    obtain ⟨rfl, h2⟩ := varint_unique hc hc' h
    obtain ⟨rfl, rfl⟩ := take_eq_of_append (by rw [hl, hl']) h2
    exact ⟨rfl, rfl, rfl⟩
  case string.string cs v hc hl cs' v' hc' hl' =>
    simp only [List.cons_append, List.cons.injEq, true_and, List.append_assoc] at h
    obtain ⟨rfl, h2⟩ := varint_unique hc hc' h
    obtain ⟨rfl, rfl⟩ := take_eq_of_append (by rw [hl, hl']) h2
    exact ⟨rfl, rfl, rfl⟩
  case error.error cs v hc hl cs' v' hc' hl' =>
    simp only [List.cons_append, List.cons.injEq, true_and, List.append_assoc] at h
    obtain ⟨rfl, h2⟩ := varint_unique hc hc' h
    obtain ⟨rfl, rfl⟩ := take_eq_of_append (by rw [hl, hl']) h2
    exact ⟨rfl, rfl, rfl⟩
  case bool.bool v v' => cases v <;> cases v' <;> simp at h ⊢ <;> exact h
  case uint8.uint8 => simp at h; obtain ⟨rfl, rfl⟩ := h; exact ⟨rfl, rfl, rfl⟩
  case float32.float32 p hp p' hp' =>
    simp only [List.cons_append, List.cons.injEq, true_and] at h
    obtain ⟨rfl, rfl⟩ := take_eq_of_append (by rw [hp, hp']) h
    exact ⟨rfl, rfl, rfl⟩
  case float64.float64 p hp p' hp' =>
    simp only [List.cons_append, List.cons.injEq, true_and] at h
    obtain ⟨rfl, rfl⟩ := take_eq_of_append (by rw [hp, hp']) h
    exact ⟨rfl, rfl, rfl⟩
  all_goals
    rename_i cs hc cs' hc'
    simp only [List.cons_append, List.cons.injEq, true_and] at h
    obtain ⟨rfl, rfl⟩ := varint_unique hc hc' h
    exact ⟨rfl, rfl, rfl⟩

end Spec
