import Verif.Lemmas.Primality
import Verif.Spec.Toy

/-!
# A larger group, to show that the side conditions of theorems can be met together

`q = 100000007` is above the discrete-log limit and `(q-1)² < p`.
-/

namespace EG

/-- A prime `p` of 54 bits with a subgroup of prime order `q` above `10^8`. -/
def midParams : Params := ⟨10000004500000267, 100000007, 3259128414261596⟩

theorem prime_mid_q : Nat.Prime 100000007 := by norm_num

theorem prime_mid_p : Nat.Prime 10000004500000267 := by
  refine pocklington _ [(100000007, 2), (12791, 2)] ?_ ?_
  · intro r hr
    simp only [List.map_cons, List.map_nil, List.mem_cons, List.not_mem_nil, or_false] at hr
    rcases hr with rfl | rfl
    · exact prime_mid_q
    · norm_num
  · decide +kernel

theorem gPow_of_powMod (P : Params) (hp : 0 < P.p) (h : powMod P.p P.g P.q = 1) :
    P.g ^ P.q % P.p = 1 := by rw [← powMod_eq _ _ _ hp]; exact h

theorem midParams_valid : midParams.Valid where
  p_prime := prime_mid_p
  q_prime := prime_mid_q
  q_dvd := by decide
  g_lt := by decide
  g_ne_one := by decide
  g_pow := gPow_of_powMod _ (by decide) (by decide +kernel)

/-- The toy hash over the larger group. -/
def midEnv : Env := { toyEnv with P := midParams }

end EG
