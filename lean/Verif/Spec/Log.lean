import Verif.Spec.Wire

/-!
# A resettable byte log: the abstract view of a buffer

Independent of every model.
-/

namespace Spec

/-- What a user can do to a buffer. -/
inductive LogOp where
  | write (v : Bytes)
  | reset
  /-- reserve space -/
  | grow (n : Nat)
  /-- give back the last `k` bytes -/
  | rewind (k : Nat)
  /-- encode an item -/
  | encode (i : Item)
deriving Repr

/-- Effect on the abstract log. -/
def LogOp.apply (log : Bytes) : LogOp → Bytes
  | .write v => log ++ v
  | .reset => []
  | .grow _ => log
  | .rewind k => log.take (log.length - k)
  | .encode i => log ++ wire i

/-- The log after a history. -/
def logAfter (log : Bytes) (ops : List LogOp) : Bytes := ops.foldl LogOp.apply log

/-- Rewinds never go past the start. -/
def Admissible : Bytes → List LogOp → Prop
  | _, [] => True
  | log, .rewind k :: ops => k ≤ log.length ∧ Admissible ((LogOp.rewind k).apply log) ops
  | log, op :: ops => Admissible (op.apply log) ops

end Spec
