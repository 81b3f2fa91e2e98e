import Verif.Gen.Enums
import Verif.Props.RustGenerated

/-! # C45: generated enum types -/

namespace Props

open Gen

/-- Specification: the constants of an enum are its values, numbered from 0 in declaration order. -/
def numbered (e : EnumDesc) : EnumType := ⟨e.name, (e.values.map (·.1)).zipIdx⟩

/-- Specification: the enums of a file that can be referred to anywhere in it. -/
def outerEnums (f : FileDesc) : List EnumDesc := f.enums ++ f.messages.flatMap (·.enums)

theorem range_gen {α β : Type} (l : List α) (g : α → Nat → β) (r : List β) (hr : ∀ i : Nat, r[i]? = (l[i]?).map fun v => g v i) :
    (List.range l.length).filterMap (fun i => (l[i]?).map fun v => g v i) = r := by
  have hl : r.length = l.length := by
    rcases Nat.lt_trichotomy r.length l.length with h | h | h
    · have := hr r.length; simp [h] at this
    · exact h
    · have := hr l.length; simp [h] at this
  have key : ∀ n, n ≤ l.length → (List.range n).filterMap (fun i => (l[i]?).map fun v => g v i) = r.take n := by
    intro n
    induction n with
    | zero => simp
    | succ n ih =>
      intro hn
      rw [List.range_succ, List.filterMap_append, ih (by omega), List.take_add_one, hr n]
      simp [List.getElem?_eq_getElem (show n < l.length by omega)]
  rw [key _ (Nat.le_refl _), ← hl, List.take_length]

theorem range_map {α β : Type} (l : List α) (g : α → β) :
    (List.range l.length).filterMap (fun i => (l[i]?).map g) = l.map g :=
  range_gen l (fun v _ => g v) _ (by simp)

theorem range_get {α : Type} (l : List α) : (List.range l.length).filterMap (fun i => l[i]?) = l := by
  have := range_map l id
  simpa using this

theorem range_zip {α β : Type} (l : List (α × β)) :
    (List.range l.length).filterMap (fun i => (l[i]?).map fun v => (v.1, i)) = (l.map (·.1)).zipIdx :=
  range_gen l (fun v i => (v.1, i)) _ (by intro i; simp; rfl)

/-- Every language numbers the constants of every enum by declaration index, so they agree. -/
theorem C45_constants_are_indices (e : EnumDesc) :
    Go.enumTempl e = numbered e ∧ Rs.enumTempl e = numbered e ∧ Ts.enumTempl e = numbered e := by
  simp only [Go.enumTempl, Rs.enumTempl, Ts.enumTempl, numbered, MakeIterable, range_zip, and_self]

/-- The generated enum types of a file, in every language: those of the file and those of its outermost messages. -/
theorem C45_generated_enums (f : FileDesc) :
    Go.enumTypes f = (outerEnums f).map numbered ∧ Rs.enumTypes f = (outerEnums f).map numbered ∧
    Ts.enumTypes f = (outerEnums f).map numbered := by
  have hg : Go.enumTempl = numbered := funext fun e => (C45_constants_are_indices e).1
  have hr : Rs.enumTempl = numbered := funext fun e => (C45_constants_are_indices e).2.1
  have ht : Ts.enumTempl = numbered := funext fun e => (C45_constants_are_indices e).2.2
  simp only [Go.enumTypes, Rs.enumTypes, Ts.enumTypes, MakeIterable, range_map, range_get, hg, hr, ht, outerEnums,
    List.map_append, List.map_flatMap, and_self]

/-- A constant in one language has the same number in the others. -/
theorem C45_agree (f : FileDesc) (t : EnumType) (name : String) (n : Nat) :
    (t ∈ Go.enumTypes f ∧ (name, n) ∈ t.constants ↔ t ∈ Rs.enumTypes f ∧ (name, n) ∈ t.constants) ∧
    (t ∈ Go.enumTypes f ∧ (name, n) ∈ t.constants ↔ t ∈ Ts.enumTypes f ∧ (name, n) ∈ t.constants) := by
  obtain ⟨h1, h2, h3⟩ := C45_generated_enums f
  rw [h1, h2, h3]
  simp

/-- The Rust decoder accepts exactly the numbers below the number of constants. -/
theorem C45_rust_accepts (S : Schema) (r : Nat) (n : BitVec 32) :
    (∃ s, RustGen.try_from S r n = some s) ↔ n.toNat < S.enums[r]?.getD 0 := by
  simp [RustGen.try_from, RustGen.discriminants]

/-- The numbers declared in the proto file are not used: a value declared with another number than its index has
another number in the generated code. -/
theorem C45_declared_numbers_false (e : EnumDesc) (i : Nat) (name : String) (num : Int) (h : e.values[i]? = some (name, num))
    (hn : num ≠ i) : (Go.enumTempl e).constants[i]? = some (name, i) ∧ (i : Int) ≠ num := by
  rw [(C45_constants_are_indices e).1, numbered]
  exact ⟨by simp [h], fun h => hn h.symm⟩

example : let e : EnumDesc := ⟨"E", [("A", 0), ("B", 5)]⟩
    e.values[1]? = some ("B", 5) ∧ (5 : Int) ≠ (1 : Nat) ∧ Go.enumTempl e = ⟨"E", [("A", 0), ("B", 1)]⟩ := by decide

/-- Enums declared in a message inside another message are not generated (unless there is an enum of the same name further out), though
the structs are: code that uses them does not compile. -/
theorem C45_inner_enums_missing_false (f : FileDesc) (e : EnumDesc) (ho : ∀ d ∈ outerEnums f, d.name ≠ e.name) :
    (∀ t ∈ Go.enumTypes f, t.name ≠ e.name) ∧ (∀ t ∈ Rs.enumTypes f, t.name ≠ e.name) ∧ (∀ t ∈ Ts.enumTypes f, t.name ≠ e.name) := by
  obtain ⟨h1, h2, h3⟩ := C45_generated_enums f
  rw [h1, h2, h3]
  have : ∀ t ∈ (outerEnums f).map numbered, t.name ≠ e.name := by
    intro t ht
    obtain ⟨d, hd, rfl⟩ := List.mem_map.mp ht
    exact ho d hd
  exact ⟨this, this, this⟩

/-- `message A { message B { enum E { X = 0; } } }` -/
example : let e : EnumDesc := ⟨"A.B.E", [("X", 0)]⟩
    let f : FileDesc := ⟨[⟨"F", [("Y", 0)]⟩], [.mk "A" [] [.mk "A.B" [e] []]]⟩
    (∀ d ∈ outerEnums f, d.name ≠ e.name) ∧ (Go.enumTypes f).length = 1 := by
  simp [outerEnums, MessageDesc.enums, Go.enumTypes, MakeIterable]

end Props
