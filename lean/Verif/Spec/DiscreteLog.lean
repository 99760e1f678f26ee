import Verif.Model.DiscreteLog

/-!
# Vocabulary for the discrete-logarithm properties
-/

namespace EG

/-- The largest limit in force at some point of a history. -/
def limitOf (start : Nat) (ops : List DLogOp) : Nat :=
  ops.foldl (fun acc op => match op with | .setMax n => max acc n | _ => acc) start

/-- Histories that only look up and precompute, as the decryption code does. -/
def lookupsOnly (ops : List DLogOp) : Prop :=
  ∀ op ∈ ops, (∃ x, op = .log x) ∨ (∃ n, op = .precompute n) ∨ (∃ n, op = .precomputeAsync n)

/-- The element a task looks up. -/
def TaskState.element : TaskState → Nat
  | .start x | .waiting x | .locked x | .filling x _ _ | .done x _ => x

/-- Does the task hold the lock? -/
def TaskState.holds : TaskState → Bool
  | .locked _ | .filling _ _ _ => true
  | _ => false

/-- What may be reported for element `x`: a value only if it is the exponent; the limit error only if
no exponent up to the limit exists (or the limit itself is not allowed); the not-found error only
without lazy evaluation.  No other exception. -/
def resultOK (P : Params) (maxE : Nat) (lazy : Bool) (x : Nat) : R Nat → Prop
  | .ok m => P.g ^ m % P.p = x ∧ m < P.q
  | .error .dlogExponent =>
      lazy = true ∧ (dlogSystemMax < maxE ∨ ∀ m ≤ maxE, P.g ^ m % P.p ≠ x)
  | .error .dlogNotFound => lazy = false
  | .error _ => False

end EG
