import Verif.GoV2.Errors
import Verif.Props.V2Roundtrip
import Verif.Props.V1Codec

/-! # C51: decoded errors compare by message -/

namespace Props
open Spec GoErrors

/-- `errors.Is(e, target)` for a decoded error and any error `target`, of whatever type: true exactly when the
messages are equal, and it never panics. -/
theorem C51_is_iff_same_message (m : Bytes) (target : GoError) :
    stdIs (some (.polyglot m)) (some target) = .ok (decide (m = target.text)) := by
  simp only [stdIs, stdIsAux]
  by_cases h : m = target.text
  · split
    · simp [h]
    · simp [isMethod, h]
  · have : same (.polyglot m) target = false := by
      cases target with
      | polyglot t => simpa [same, GoError.text] using h
      | other => rfl
    simp [this, isMethod, h]

/-- An error that went over the wire (v2) still `Is` the error that was encoded, and any wrapping of the
received error still does. -/
theorem C51_v2_roundtrip_is (rt : GoV2.Runtime) (b0 : GoV2.Buffer) (hb : GoV2.Fresh b0) (err : GoError)
    (hm : err.text.length < 2 ^ 32) (t : Bytes) :
    ∃ b bs m, GoV2.encodeError rt b0 (some err.text) = .ok b ∧ b.Bytes = .ok bs ∧
      GoV2.decodeError (bs ++ t) = .ok (t, some m, none) ∧
      stdIs (some (.polyglot m)) (some err) = .ok true ∧
      ∀ id text, stdIs (some (.other id text (some (.polyglot m)))) (some err) = .ok true := by
  obtain ⟨b, bs, h1, h2, h3⟩ := C03_error_roundtrip rt b0 hb err.text hm t
  refine ⟨b, bs, err.text, h1, h2, h3, ?_, ?_⟩
  · rw [C51_is_iff_same_message]; simp
  · intro id text
    have := C51_is_iff_same_message err.text err
    cases hs : same (.other id text (some (.polyglot err.text))) err with
    | true => simp only [stdIs]; rw [stdIsAux]; simp [hs]
    | false => simp only [stdIs] at this ⊢; rw [stdIsAux]; simpa [hs] using this

/-- The same for v1. -/
theorem C51_v1_roundtrip_is (rt : GoV2.Runtime) (b0 : GoV1.Buffer) (h0 : b0.Ok) (err : GoError)
    (hm : err.text.length < 2 ^ 32) (t : Bytes) :
    ∃ b m, GoV1.encodeItem rt b0 (.error err.text) = .ok b ∧ b.Bytes = b0.Bytes ++ wire (.error err.text) ∧
      GoV1.readItem .error (wire (.error err.text) ++ t) = .ok (t, .value (.error m)) ∧
      stdIs (some (.polyglot m)) (some err) = .ok true := by
  obtain ⟨b, h1, h2, h3⟩ := C23_item_roundtrip rt b0 h0 .error (.error err.text) (by constructor) hm t
  exact ⟨b, err.text, h1, h2, h3, by rw [C51_is_iff_same_message]; simp⟩

/-- `errors.Is` with a nil target is false for a decoded error, but calling the method `Is` directly with nil
panics. -/
theorem C51_nil_target (m : Bytes) : stdIs (some (.polyglot m)) none = .ok false ∧ isMethod m none = .panic :=
  ⟨rfl, rfl⟩

/-- The relation is one-sided: the original error `Is` not the decoded one when the original is not a
`polyglot.Error`. -/
theorem C51_not_symmetric (id : Nat) (text : Bytes) :
    stdIs (some (.polyglot text)) (some (.other id text none)) = .ok true ∧
    stdIs (some (.other id text none)) (some (.polyglot text)) = .ok false :=
  ⟨by rw [C51_is_iff_same_message]; simp [GoError.text], rfl⟩

example : stdIs (some (.polyglot [0x65])) (some (.other 7 [0x65] none)) = .ok true ∧
    stdIs (some (.polyglot [0x65])) (some (.other 7 [0x66] none)) = .ok false := by decide

end Props
