import Verif.Gen.RustGen
import Verif.Gen.GoGen
import Verif.Gen.Layout

/-! # C44: the lookup tables of the Go and Rust generators -/

namespace Props

open Gen Spec

/-- Go: for every value `s` of a scalar kind `k` the tables name an encoder method that accepts it (after the conversion of
enums to `uint32`) and writes the item the value stands for, the kind they announce in headers is the first byte written, the
decoder method is the one that reads this item, and it returns the type the field was declared with (enums: `uint32`). -/
theorem C44_go_tables (k : PKind) (s : Scalar) (h : s.OfKind k) :
    ∃ m i, GoGen.encodeLUT k = some m ∧ GoGen.emitScalar m (decide (k = .enum)) s = some [i] ∧
      i = s.item ∧ GoGen.GetKind k = (wire i).head? ∧
      GoGen.decodeLUT k = some m ∧ (∀ scratch, GoV2.Matches (m.req scratch) i) ∧
      (k ≠ .enum → GoGen.typeLUT k = some m.type) ∧ (k = .enum → m.type = .uint32) := by
  cases k <;> cases s <;> simp only [Scalar.OfKind] at h <;>
    exact ⟨_, _, rfl, rfl, rfl, rfl, rfl, fun _ => by constructor, by simp [GoGen.typeLUT, GoGen.Method.type], by simp [GoGen.Method.type]⟩

/-- Rust: the same; an encoder method accepts the form of argument the generator writes for a singular field. -/
theorem C44_rust_tables (k : PKind) (r : Nat) (s : Scalar) (h : s.OfKind k) :
    ∃ m t kk, RustGen.encodeLUT k = some m ∧ RustGen.findElem k r false = some t ∧
      RustGen.emitScalar m (if k = .enum then .cast else if k = .string ∨ k = .bytes then .ref else .own) t s = some [s.item] ∧
      RustGen.getKind k = some kk ∧ (wire s.item).head? = some kk.toU8 ∧
      RustGen.decodeLUT k = some m ∧ (k ≠ .enum → m.type = t) ∧ (k = .enum → m.type = .u32) := by
  cases k <;> cases s <;> simp only [Scalar.OfKind] at h <;>
    exact ⟨_, _, _, rfl, rfl, rfl, rfl, rfl, rfl, by simp [RustGen.Method.type], by simp [RustGen.Method.type]⟩

/-- Both announce the same byte for every kind, messages included, and refuse the same kinds. -/
theorem C44_go_rust_agree (k : PKind) : GoGen.GetKind k = (RustGen.getKind k).map Rust.Kind.toU8 ∧
    (GoGen.GetKind k = none ↔ k = .group) := by
  cases k <;> exact ⟨rfl, by decide⟩

example : GoGen.emitScalar .Uint32 true (.enum 3) = some [.uint32 3] ∧ (wire (.uint32 3)).head? = some 10 := by
  refine ⟨rfl, rfl⟩

end Props
