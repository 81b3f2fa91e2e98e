import Verif.Gen.UtilsFacts
import Verif.Spec.Names

/-! # The loops of utils.go compute the positional description of Spec/Names.lean -/

namespace Utils
open Spec

theorem snakeLoop_exact (pre s out : List Nat) (hout : out = [] ↔ pre = []) (consc : Bool)
    (hc : consc = pre.getLast?.any (fun c => decide (0x41 ≤ c ∧ c ≤ 0x5A))) :
    snakeLoop out consc s = out ++ (List.range s.length).flatMap (fun i => snakeAt (pre ++ s) (pre.length + i)) := by
  induction s generalizing pre out consc with
  | nil => simp [snakeLoop]
  | cons c rest ih =>
    have hsplit : pre ++ c :: rest = (pre ++ [c]) ++ rest := by simp
    have hrange : (List.range (c :: rest).length).flatMap (fun i => snakeAt (pre ++ c :: rest) (pre.length + i)) =
        snakeAt (pre ++ c :: rest) pre.length ++
        (List.range rest.length).flatMap (fun i => snakeAt ((pre ++ [c]) ++ rest) ((pre ++ [c]).length + i)) := by
      rw [List.length_cons, List.range_succ_eq_map, List.flatMap_cons, List.flatMap_map, hsplit, Nat.add_zero]
      congr 2
      funext i
      simp only [List.length_append, List.length_singleton]
      congr 1
      omega
    rw [hrange]
    have hhere : (pre ++ c :: rest)[pre.length]? = some c := by simp
    have hprev : pre ≠ [] → (pre ++ c :: rest)[pre.length - 1]? = pre.getLast? := by
      intro hne
      have : 0 < pre.length := List.length_pos_iff.mpr hne
      rw [List.getElem?_append_left (by omega), List.getLast?_eq_getElem?]
    have hlen : (out.length > 0) ↔ pre ≠ [] := by
      rw [gt_iff_lt, List.length_pos_iff, Ne, hout]
    rw [snakeLoop]
    split
    · rename_i hu
      rw [ih (pre ++ [c]) _ (by simp) true (by simp [hu])]
      simp only [snakeAt, hhere, hu, and_self, decide_true, if_true]
      by_cases hp : pre = []
      · have : out = [] := hout.mpr hp
        subst hp; subst this; simp; omega
      · have h0 : pre.length ≠ 0 := by simpa using hp
        rw [hprev hp, ← hc]
        have hl := hlen.mpr hp
        cases consc <;> simp [hl, h0] <;> omega
    · rename_i hu
      rw [ih (pre ++ [c]) _ (by simp) false (by simpa using hu)]
      simp only [snakeAt, hhere, hu, decide_false]
      simp


/-- A character after which a small letter starts a word. -/
def opens (p : Byte) : Bool := p == underscore || p == dot || isDigit p

/-- The characters of `s` behind `pre`. -/
def camelFrom (pre s : Bytes) : Bytes := (List.range s.length).flatMap (fun i => camelAt (pre ++ s) (pre.length + i))

theorem camelFrom_cons (pre : Bytes) (c : Byte) (s : Bytes) :
    camelFrom pre (c :: s) = camelAt (pre ++ c :: s) pre.length ++ camelFrom (pre ++ [c]) s := by
  unfold camelFrom
  rw [List.length_cons, List.range_succ_eq_map, List.flatMap_cons, List.flatMap_map, Nat.add_zero]
  congr 2
  funext i
  simp only [List.length_append, List.length_singleton, List.append_assoc, List.singleton_append]
  congr 1
  omega

theorem camelAt_mid (pre : Bytes) (c : Byte) (s : Bytes) :
    camelAt (pre ++ c :: s) pre.length =
      if c = dot ∨ c = underscore ∧ (pre = [] ∨ nextLower s = true) then []
      else if isLower c ∧ (pre = [] ∨ pre.getLast?.any opens = true) then [c - 0x20] else [c] := by
  have h1 : (pre ++ c :: s)[pre.length]? = some c := by simp
  have h2 : (pre ++ c :: s)[pre.length + 1]?.any lowerCase = nextLower s := by
    rw [List.getElem?_append_right (by omega)]
    cases s <;> simp [nextLower, isLower, lowerCase]
  by_cases hp : pre = []
  · subst hp
    simp only [List.length_nil] at h1 h2 ⊢
    simp only [camelAt, h1, true_or, and_true]
    rfl
  · have h0 : pre.length ≠ 0 := by simpa using hp
    have h3 : (pre ++ c :: s)[pre.length - 1]? = pre.getLast? := by
      rw [List.getElem?_append_left (by omega), List.getLast?_eq_getElem?]
    simp only [camelAt, h1, h2, h3, h0, hp, false_or]
    rfl

theorem camelFrom_run (pre l t : Bytes) (hp : pre ≠ []) (hlast : pre.getLast?.any opens = false) (hl : ∀ c ∈ l, isLower c = true) :
    camelFrom pre (l ++ t) = l ++ camelFrom (pre ++ l) t := by
  induction l generalizing pre with
  | nil => simp
  | cons c l ih =>
    have hc : isLower c = true := hl c (List.mem_cons_self ..)
    have hno : c ≠ dot ∧ c ≠ underscore ∧ opens c = false := by
      revert hc; clear hl; revert c; decide
    rw [List.cons_append, camelFrom_cons, camelAt_mid]
    simp only [hno.1, hno.2.1, hp, hlast, false_and, false_or, if_false, Bool.false_eq_true, and_false]
    rw [ih (pre ++ [c]) (by simp) (by simp [hno.2.2]) (fun d hd => hl d (List.mem_cons_of_mem _ hd))]
    simp

theorem camelLoop_exact (n : Nat) : ∀ (pre s : Bytes), s.length ≤ n → (pre = [] → s.head? ≠ some underscore) →
    (nextLower s = true → pre = [] ∨ pre.getLast?.any opens = true) → camelLoop s = camelFrom pre s := by
  induction n with
  | zero =>
    intro pre s hn _ _
    have : s = [] := List.eq_nil_of_length_eq_zero (by omega)
    subst this; rw [camelLoop_nil]; rfl
  | succ n ih =>
    intro pre s hn h0 hw
    cases s with
    | nil => rw [camelLoop_nil]; rfl
    | cons c rest =>
      have hrest : rest.length ≤ n := by simpa using hn
      rw [camelLoop, camelFrom_cons, camelAt_mid]
      by_cases hu : c = underscore ∧ nextLower rest = true
      · rw [if_pos hu, if_pos (.inr ⟨hu.1, .inr hu.2⟩), List.nil_append]
        exact ih _ _ hrest (by simp) (fun _ => .inr (by simp [hu.1, opens]))
      · rw [if_neg hu]
        by_cases hd : c = dot
        · rw [if_pos hd, if_pos (.inl hd), List.nil_append]
          exact ih _ _ hrest (by simp) (fun _ => .inr (by simp [hd, opens]))
        · have hkeep : ¬ (c = dot ∨ c = underscore ∧ (pre = [] ∨ nextLower rest = true)) := by
            rintro (h | ⟨h1, h2 | h2⟩)
            · exact hd h
            · exact h0 h2 (by simp [h1])
            · exact hu ⟨h1, h2⟩
          rw [if_neg hd, if_neg hkeep]
          by_cases hdig : isDigit c = true
          · have hnl : isLower c = false := (by decide : ∀ c : Byte, isDigit c = true → isLower c = false) c hdig
            rw [if_pos hdig]
            simp only [hnl, Bool.false_eq_true, false_and, if_false]
            rw [List.singleton_append]
            congr 1
            exact ih _ _ hrest (by simp) (fun _ => .inr (by simp [opens, hdig]))
          · rw [if_neg hdig]
            have hhead : (if isLower c then c ^^^ 0x20 else c) :: (rest.takeWhile isLower ++ camelLoop (rest.dropWhile isLower)) =
                [if isLower c then c ^^^ 0x20 else c] ++ (rest.takeWhile isLower ++ camelLoop (rest.dropWhile isLower)) := rfl
            rw [hhead]
            congr 1
            · by_cases hl : isLower c = true
              · have hx : c ^^^ 0x20 = c - 0x20 := (by decide : ∀ c : Byte, isLower c = true → c ^^^ 0x20 = c - 0x20) c hl
                rw [if_pos hl, if_pos ⟨hl, hw hl⟩, hx]
              · simp [hl]
            · by_cases hund : c = underscore
              · have hnl : nextLower rest = false := by
                  cases h : nextLower rest with
                  | false => rfl
                  | true => exact absurd ⟨hund, h⟩ hu
                have htake : rest.takeWhile isLower = [] ∧ rest.dropWhile isLower = rest := by
                  cases rest with
                  | nil => simp
                  | cons d r => have : isLower d = false := hnl; simp [List.takeWhile, List.dropWhile, this]
                rw [htake.1, htake.2, List.nil_append]
                exact ih _ _ hrest (by simp) (fun h => by rw [hnl] at h; simp at h)
              · have hno : opens c = false := by
                  simp only [opens, Bool.or_eq_false_iff, beq_eq_false_iff_ne]
                  exact ⟨⟨hund, hd⟩, by simpa using hdig⟩
                have := camelFrom_run (pre ++ [c]) (rest.takeWhile isLower) (rest.dropWhile isLower) (by simp) (by simp [hno])
                  (fun d hd => List.all_eq_true.mp List.all_takeWhile d hd)
                rw [List.takeWhile_append_dropWhile] at this
                rw [this]
                congr 1
                refine ih _ _ (Nat.le_trans (List.dropWhile_suffix isLower).length_le hrest) (by simp) ?_
                intro h
                exfalso
                have : ∀ l : Bytes, nextLower (l.dropWhile isLower) = false := by
                  intro l
                  induction l with
                  | nil => rfl
                  | cons d l ihl =>
                    rw [List.dropWhile]
                    split
                    · exact ihl
                    · rename_i hd; exact hd
                rw [this] at h; simp at h

theorem camelCase_exact (s : Bytes) : camelCase s = (List.range s.length).flatMap (camelAt s) := by
  have hfrom : (List.range s.length).flatMap (camelAt s) = camelFrom [] s := by
    simp [camelFrom]
  rw [hfrom]
  cases s with
  | nil => rfl
  | cons c rest =>
    rw [camelCase]
    split
    · rename_i h
      subst h
      rw [camelFrom_cons, camelAt_mid]
      simp only [true_or, and_true, or_true, if_true, List.nil_append]
      exact camelLoop_exact _ _ _ (Nat.le_refl _) (by simp) (fun _ => .inr (by simp [opens]))
    · rename_i h
      exact camelLoop_exact _ _ _ (Nat.le_refl _) (by simpa using h) (fun _ => .inl rfl)

theorem snakeCase_exact (s : List Nat) : snakeCase s = (List.range s.length).flatMap (snakeAt s) := by
  have := snakeLoop_exact [] s [] (by simp) false (by simp)
  simpa [snakeCase] using this

end Utils
