import Verif.Model.Constants
import Verif.Lemmas.Primality
import Verif.Spec.Group

/-!
# C61: the election constants
-/

namespace EG

/-- What the specification and the comments in `constants.py` promise of a constant set, primality apart:
`q` divides `p - 1` with the stated cofactor and `g` is an element of order `q` (not 1) below `p`. -/
structure Constants.Consistent (c : Constants) : Prop where
  cofactor : c.p - 1 = c.q * c.r
  g_gt_one : 1 < c.g
  g_lt : c.g < c.p
  g_order : c.g ^ c.q % c.p = 1

theorem consistent_of_powMod (c : Constants) (h1 : c.p - 1 = c.q * c.r) (h2 : 1 < c.g) (h3 : c.g < c.p)
    (h4 : powMod c.p c.g c.q = 1) : c.Consistent :=
  ⟨h1, h2, h3, by rw [← powMod_eq _ _ _ (by omega)]; exact h4⟩

/-- Consistency and primality make valid group parameters. -/
theorem Constants.Consistent.valid {c : Constants} (h : c.Consistent) (hp : c.p.Prime) (hq : c.q.Prime) :
    c.params.Valid :=
  ⟨hp, hq, ⟨_, h.cofactor⟩, h.g_lt, h.g_gt_one.ne', h.g_order⟩

/-- C61 Whatever the environment selects, the constants used are consistent; any other setting raises. -/
theorem C61_selected_constants (opt : Option String) :
    (∃ c, getConstants opt = .ok c ∧ c.Consistent ∧ c.q.Prime) ∨ getConstants opt = .error .value := by
  have std : standardConstants.Consistent ∧ standardConstants.q.Prime :=
    ⟨consistent_of_powMod _ (by decide +kernel) (by decide +kernel) (by decide +kernel) (by decide +kernel),
      prime_256bit⟩
  have large : largeTestConstants.Consistent ∧ largeTestConstants.q.Prime :=
    ⟨consistent_of_powMod _ (by decide +kernel) (by decide +kernel) (by decide +kernel) (by decide +kernel),
      prime_65521⟩
  unfold getConstants
  split
  · exact .inl ⟨_, rfl, std⟩
  · exact .inl ⟨_, rfl, std⟩
  · exact .inl ⟨_, rfl, large⟩
  · exact .inr rfl

/-- C61 The standard generator is `2^r mod p`, and `q = 2^256 - 189` is prime. -/
theorem C61_standard_generator :
    standardConstants.g = 2 ^ standardConstants.r % standardConstants.p ∧
    standardConstants.q = 2 ^ 256 - 189 ∧ standardConstants.q.Prime := by
  refine ⟨?_, by decide +kernel, prime_256bit⟩
  rw [← powMod_eq _ _ _ (by decide +kernel)]
  decide +kernel

/-- C61 The standard parameters are valid as soon as the 4096-bit `p` is prime (not proved here). -/
theorem C61_standard_valid (hp : standardConstants.p.Prime) : standardConstants.params.Valid :=
  (consistent_of_powMod _ (by decide +kernel) (by decide +kernel) (by decide +kernel)
    (by decide +kernel)).valid hp prime_256bit

/-- C61 The test parameters selected by `PRIME_OPTION=TestOnly` are valid, primality included. -/
theorem C61_large_test_valid : largeTestConstants.params.Valid :=
  (consistent_of_powMod _ (by decide +kernel) (by decide +kernel) (by decide +kernel)
    (by decide +kernel)).valid prime_64bit prime_65521

/-- C61 The medium test set is valid. -/
theorem C61_medium_test_valid : mediumConstants.params.Valid :=
  (consistent_of_powMod _ (by decide +kernel) (by decide +kernel) (by decide +kernel)
    (by decide +kernel)).valid prime_65267 prime_32633

/-- C61 The extra small test set is valid. -/
theorem C61_extra_small_test_valid : extraSmallConstants.params.Valid := extraSmall_valid

/-- C61 (negative) The small test set, stated to be valid at constants.py:49, is not: its generator is not in
the subgroup of order `q`. -/
theorem C61_small_test_fails : ¬ smallConstants.Consistent ∧ ¬ smallConstants.params.Valid := by
  have h : smallConstants.g ^ smallConstants.q % smallConstants.p ≠ 1 := by
    rw [← powMod_eq _ _ _ (by decide)]
    decide +kernel
  exact ⟨fun hc => h hc.g_order, fun hv => h hv.g_pow⟩

end EG
