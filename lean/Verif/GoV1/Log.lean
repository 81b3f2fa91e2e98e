import Verif.GoV1.EncodeFacts
import Verif.Spec.Log

/-! # Histories of operations on a v1 buffer -/

namespace GoV1

open Spec
open GoV2 (Runtime)

/-- What a user can do to a v1 buffer (it has no `Grow` and no `MoveOffset`). -/
inductive Op where
  | write (v : Bytes)
  | reset
  | encode (i : Item)

/-- The same operation on the abstract byte log. -/
def Op.log : Op → LogOp
  | .write v => .write v
  | .reset => .reset
  | .encode i => .encode i

/-- One operation; the second component is the number returned by `Write`. -/
def runOp (rt : Runtime) (b : Buffer) : Op → Go (Buffer × Option Nat)
  | .write v => do
    let (b, n) ← b.Write rt v
    return (b, some n)
  | .reset => do
    let b ← b.Reset
    return (b, none)
  | .encode i => do
    let b ← encodeItem rt b i
    return (b, none)

/-- A whole history. -/
def runOps (rt : Runtime) : Buffer → List Op → Go (Buffer × List (Option Nat))
  | b, [] => .ok (b, [])
  | b, op :: ops => do
    let (b, r) ← runOp rt b op
    let (b, rs) ← runOps rt b ops
    return (b, r :: rs)

/-- What `Write` has to return. -/
def expected : Op → Option Nat
  | .write v => some v.length
  | _ => none

def Op.Fits : Op → Prop
  | .encode i => i.Fits
  | _ => True

theorem runOps_spec (rt : Runtime) : ∀ (ops : List Op) (b : Buffer), b.Ok → (∀ op ∈ ops, op.Fits) →
    ∃ b', runOps rt b ops = .ok (b', ops.map expected) ∧ b'.Ok ∧ b'.Bytes = logAfter b.Bytes (ops.map Op.log) := by
  intro ops
  induction ops with
  | nil => intro b h _; exact ⟨b, rfl, h, rfl⟩
  | cons op ops ih =>
    intro b h hf
    have one : ∃ b', runOp rt b op = .ok (b', expected op) ∧ b'.Ok ∧ b'.Bytes = op.log.apply b.Bytes := by
      cases op with
      | write v =>
        obtain ⟨b', h1, a⟩ := Write_spec rt b v h
        exact ⟨b', by simp only [runOp, h1, Go.bind_ok]; rfl, a.1, a.2.1⟩
      | reset =>
        obtain ⟨b', h1, a, c, _⟩ := Reset_spec b
        exact ⟨b', by simp only [runOp, h1, Go.bind_ok]; rfl, a, c⟩
      | encode i =>
        obtain ⟨b', h1, a⟩ := encodeItem_spec rt b i h (hf (.encode i) (by simp))
        exact ⟨b', by simp only [runOp, h1, Go.bind_ok]; rfl, a.1, a.2.1⟩
    obtain ⟨b1, h1, o1, e1⟩ := one
    obtain ⟨b2, h2, o2, e2⟩ := ih b1 o1 (fun o ho => hf o (by simp [ho]))
    refine ⟨b2, by simp only [runOps, h1, h2, Go.bind_ok]; rfl, o2, ?_⟩
    rw [e2, e1]; rfl

theorem NewBuffer_ok : NewBuffer.Ok ∧ NewBuffer.Bytes = [] := by
  unfold Buffer.Ok Buffer.cap Buffer.Bytes NewBuffer
  exact ⟨Nat.zero_le _, List.take_zero⟩

end GoV1
