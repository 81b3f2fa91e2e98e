import Verif.GoV2.EncodeBig
import Verif.Spec.Log

/-! # Histories of operations on a v2 buffer -/

namespace GoV2

open Spec

/-- One operation of a history executed by the model; the second component is the number returned by
`Write`. -/
def runOp (rt : Runtime) (b : Buffer) : LogOp → Go (Buffer × Option Nat)
  | .write v => do
    let (b, n) ← b.Write rt v
    return (b, some n)
  | .reset => .ok (b.Reset, none)
  | .grow n => do
    let b ← b.Grow rt n
    return (b, none)
  | .rewind k => .ok (b.MoveOffset (-(k : Int)), none)
  | .encode i => do
    let b ← encodeItem rt b i
    return (b, none)

/-- A whole history. -/
def runOps (rt : Runtime) : Buffer → List LogOp → Go (Buffer × List (Option Nat))
  | b, [] => .ok (b, [])
  | b, op :: ops => do
    let (b, r) ← runOp rt b op
    let (b, rs) ← runOps rt b ops
    return (b, r :: rs)

/-- What `Write` has to return. -/
def expected : LogOp → Option Nat
  | .write v => some v.length
  | _ => none

theorem Write_spec (rt : Runtime) (b : Buffer) (v : Bytes) (h : b.Usable) :
    ∃ b', b.Write rt v = .ok (b', v.length) ∧ Appended b b' v := by
  obtain ⟨b1, hg, g⟩ := Grow_spec rt b v.length h
  have h0 : b1.offset = (b.offset.toNat : Int) := by rw [g.offset]; have := h.2.1; omega
  have hfit : b.offset.toNat + v.length ≤ b1.cap := by
    have := g.room; have := g.usable.2.2; unfold Buffer.cap at *; omega
  simp only [Buffer.Write, hg, Go.bind_ok, copyInto]
  rw [h0]
  have h1 : ¬ ((b.offset.toNat : Int) < 0 ∨ (b1.cap : Int) < (b.offset.toNat : Int)) := by omega
  have h2 : min (b1.cap - b.offset.toNat) v.length = v.length := by omega
  simp only [h1, if_false, Int.toNat_natCast, h2, List.take_length, Go.bind_ok, Go.pure_eq]
  exact ⟨_, rfl, put_appended v g (Nat.le_refl _) rfl rfl (by simp)⟩

theorem Usable.reset {b : Buffer} (h : b.Usable) : b.Reset.Usable := by
  obtain ⟨h1, h2, h3⟩ := h
  refine ⟨h1, by simp [Buffer.Reset], ?_⟩
  simp [Buffer.Reset]

theorem written_length {b : Buffer} (h : b.Usable) : b.written.length = b.offset.toNat := by
  obtain ⟨_, h2, h3⟩ := h
  simp [Buffer.written]; omega

theorem runOp_spec (rt : Runtime) (b : Buffer) (op : LogOp) (h : b.Usable)
    (hadm : ∀ k, op = .rewind k → k ≤ b.written.length)
    (hfit : ∀ i, op = .encode i → i.FitsV2) :
    ∃ b', runOp rt b op = .ok (b', expected op) ∧ b'.Usable ∧ b'.written = op.apply b.written ∧
      b.cap ≤ b'.cap := by
  cases op with
  | write v =>
    obtain ⟨b', he, ha⟩ := Write_spec rt b v h
    exact ⟨b', by simp [runOp, he, expected], ha.usable, ha.written, ha.mono⟩
  | reset =>
    exact ⟨b.Reset, rfl, Usable.reset h, by simp [Buffer.written, Buffer.Reset, LogOp.apply],
      Nat.le_refl _⟩
  | grow n =>
    obtain ⟨b', he, g⟩ := Grow_spec rt b n h
    exact ⟨b', by simp [runOp, he, expected], g.usable, g.written, g.mono⟩
  | rewind k =>
    have hk := hadm k rfl
    have hl := written_length h
    obtain ⟨h1, h2, h3⟩ := h
    refine ⟨_, rfl, ⟨h1, ?_, ?_⟩, ?_, Nat.le_refl _⟩
    · show 0 ≤ b.offset + -(k : Int); omega
    · show b.offset + -(k : Int) ≤ b.arr.length; omega
    · have hn : (b.offset + -(k : Int)).toNat = b.offset.toNat - k := by omega
      simp only [LogOp.apply, Buffer.written, Buffer.MoveOffset, hn, List.take_take]
      congr 1
      simp [Buffer.written] at hl; simp; omega
  | encode i =>
    obtain ⟨b', he, ha⟩ := encodeItem_spec rt b i h (hfit i rfl)
    exact ⟨b', by simp [runOp, he, expected], ha.usable, ha.written, ha.mono⟩

theorem runOps_spec (rt : Runtime) : ∀ (ops : List LogOp) (b : Buffer), b.Usable →
    Admissible b.written ops → (∀ i, LogOp.encode i ∈ ops → i.FitsV2) →
    ∃ b', runOps rt b ops = .ok (b', ops.map expected) ∧ b'.Usable ∧
      b'.written = logAfter b.written ops ∧ b.cap ≤ b'.cap := by
  intro ops
  induction ops with
  | nil => intro b h _ _; exact ⟨b, rfl, h, rfl, Nat.le_refl _⟩
  | cons op ops ih =>
    intro b h hadm hfit
    have hk : (∀ k, op = .rewind k → k ≤ b.written.length) ∧ Admissible (op.apply b.written) ops := by
      cases op <;> simp [Admissible] at hadm ⊢ <;> exact hadm
    obtain ⟨b1, he, hu, hw, hm⟩ := runOp_spec rt b op h hk.1 (fun i hi => hfit i (by simp [hi]))
    obtain ⟨b2, he2, hu2, hw2, hm2⟩ := ih b1 hu (by rw [hw]; exact hk.2)
      (fun i hi => hfit i (by simp [hi]))
    refine ⟨b2, by simp [runOps, he, he2], hu2, ?_, Nat.le_trans hm hm2⟩
    rw [hw2, hw]; rfl

/-- The operation with what the v2 encoders really append: for a value of any size (`wireV2`). -/
def _root_.Spec.LogOp.exact : LogOp → LogOp
  | .encode i => .write (wireV2 i)
  | op => op

theorem exact_apply {op : LogOp} (hfit : ∀ i, op = .encode i → i.FitsV2) (log : Bytes) : op.exact.apply log = op.apply log := by
  cases op <;> simp only [LogOp.exact, LogOp.apply]
  rw [wireV2_eq_wire (hfit _ rfl)]

theorem logAfter_exact : ∀ (ops : List LogOp) (log : Bytes), (∀ i, LogOp.encode i ∈ ops → i.FitsV2) →
    logAfter log (ops.map LogOp.exact) = logAfter log ops := by
  intro ops
  induction ops with
  | nil => intro _ _; rfl
  | cons op ops ih =>
    intro log h
    simp only [logAfter, List.map_cons, List.foldl_cons]
    rw [exact_apply (fun i e => h i (by rw [e]; exact List.mem_cons_self ..))]
    exact ih _ fun i hi => h i (List.mem_cons_of_mem _ hi)

theorem admissible_exact : ∀ (ops : List LogOp) (log : Bytes), (∀ i, LogOp.encode i ∈ ops → i.FitsV2) →
    (Admissible log (ops.map LogOp.exact) ↔ Admissible log ops) := by
  intro ops
  induction ops with
  | nil => intro _ _; rfl
  | cons op ops ih =>
    intro log h
    have h1 := ih (op.apply log) fun i hi => h i (List.mem_cons_of_mem _ hi)
    have h2 := exact_apply (op := op) (fun i e => h i (by rw [e]; exact List.mem_cons_self ..)) log
    cases op <;> simp only [List.map_cons, LogOp.exact, Admissible] at h1 h2 ⊢ <;> first | rw [h2, h1] | rw [h1]

theorem runOp_exact (rt : Runtime) (b : Buffer) (op : LogOp) (h : b.Usable)
    (hadm : ∀ k, op = .rewind k → k ≤ b.written.length) :
    ∃ b', runOp rt b op = .ok (b', expected op) ∧ b'.Usable ∧ b'.written = op.exact.apply b.written ∧
      b.cap ≤ b'.cap := by
  cases op with
  | encode i =>
    obtain ⟨b', he, ha⟩ := encodeItem_exact rt b i h
    exact ⟨b', by simp [runOp, he, expected], ha.usable, ha.written, ha.mono⟩
  | write v => exact runOp_spec rt b _ h hadm (by intro i e; cases e)
  | reset => exact runOp_spec rt b _ h hadm (by intro i e; cases e)
  | grow n => exact runOp_spec rt b _ h hadm (by intro i e; cases e)
  | rewind k => exact runOp_spec rt b _ h hadm (by intro i e; cases e)

theorem runOps_exact (rt : Runtime) : ∀ (ops : List LogOp) (b : Buffer), b.Usable →
    Admissible b.written (ops.map LogOp.exact) →
    ∃ b', runOps rt b ops = .ok (b', ops.map expected) ∧ b'.Usable ∧
      b'.written = logAfter b.written (ops.map LogOp.exact) ∧ b.cap ≤ b'.cap := by
  intro ops
  induction ops with
  | nil => intro b h _; exact ⟨b, rfl, h, rfl, Nat.le_refl _⟩
  | cons op ops ih =>
    intro b h hadm
    have hk : (∀ k, op = .rewind k → k ≤ b.written.length) ∧ Admissible (op.exact.apply b.written) (ops.map LogOp.exact) := by
      cases op <;> simp [Admissible, LogOp.exact] at hadm ⊢ <;> exact hadm
    obtain ⟨b1, he, hu, hw, hm⟩ := runOp_exact rt b op h hk.1
    obtain ⟨b2, he2, hu2, hw2, hm2⟩ := ih b1 hu (by rw [hw]; exact hk.2)
    refine ⟨b2, by simp [runOps, he, he2], hu2, ?_, Nat.le_trans hm hm2⟩
    rw [hw2, hw]; rfl

theorem usable_NewBuffer : NewBuffer.Usable :=
  ⟨by simp [NewBuffer], by simp [NewBuffer], by simp [NewBuffer]⟩

theorem usable_NewBufferSize {n : Int} {b : Buffer} (h : NewBufferSize n = .ok b) : b.Usable := by
  unfold NewBufferSize at h
  split at h
  · simp at h
  · simp at h; subst h; exact ⟨by simp, by simp, by simp; omega⟩

/-- The buffers obtained from the size-based constructors. -/
def Fresh (b : Buffer) : Prop := b = NewBuffer ∨ ∃ n, NewBufferSize n = .ok b

theorem Fresh.usable {b : Buffer} (h : Fresh b) : b.Usable := by
  rcases h with h | ⟨n, h⟩
  · subst h; exact usable_NewBuffer
  · exact usable_NewBufferSize h

theorem Fresh.written {b : Buffer} (h : Fresh b) : b.written = [] := by
  rcases h with h | ⟨n, h⟩
  · subst h; rfl
  · unfold NewBufferSize at h
    split at h
    · simp at h
    · simp at h; subst h; simp [Buffer.written]

end GoV2
