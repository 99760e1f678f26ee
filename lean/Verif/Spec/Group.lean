import Mathlib.Data.Nat.Prime.Basic
import Verif.Model.Group

/-!
# Valid group parameters

The conditions the ElectionGuard specification puts on `(p, q, g)`.
-/

namespace EG

/-- `p`, `q` prime, `q ∣ p - 1`, and `g` generates the subgroup of order `q`. -/
structure Params.Valid (P : Params) : Prop where
  p_prime : P.p.Prime
  q_prime : P.q.Prime
  q_dvd : P.q ∣ P.p - 1
  g_lt : P.g < P.p
  g_ne_one : P.g ≠ 1
  g_pow : P.g ^ P.q % P.p = 1

/-- constants.py:51 `EXTRA_SMALL_TEST_CONSTANTS`; used for the concrete instances next to theorems. -/
def extraSmall : Params := ⟨157, 13, 16⟩

theorem extraSmall_valid : extraSmall.Valid where
  p_prime := by decide
  q_prime := by decide
  q_dvd := by decide
  g_lt := by decide
  g_ne_one := by decide
  g_pow := by decide

end EG
