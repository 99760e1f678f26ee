import Mathlib.Algebra.Polynomial.Eval.Defs
import Mathlib.Algebra.Polynomial.Degree.Lemmas
import Mathlib.Data.ZMod.Basic

/-!
# Polynomials over the field of `q` elements, from a list of coefficients
-/

namespace EG

open Polynomial

/-- `a₀ + a₁X + a₂X² + …` over `ZMod q`. -/
noncomputable def toPoly (q : Nat) : List Nat → (ZMod q)[X]
  | [] => 0
  | a :: as => C (a : ZMod q) + X * toPoly q as

/-- `a₀ + a₁x + a₂x² + …` as a natural number. -/
def polyAt : List Nat → Nat → Nat
  | [], _ => 0
  | a :: as, x => a + x * polyAt as x

/-- The sum of the products `l_i * y_i`. -/
def dot : List Nat → List Nat → Nat
  | l :: ls, y :: ys => l * y + dot ls ys
  | _, _ => 0

end EG
