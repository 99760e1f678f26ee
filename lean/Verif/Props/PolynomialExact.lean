import Verif.Props.Polynomial

/-!
# C10, C11 exactly

`verify_polynomial_coordinate` reduces the powers of the sequence order modulo `p`, where the exponents of the group count modulo `q`.
Here is exactly which coordinates it accepts, with no condition on the sizes.
-/

namespace EG

variable {P : Params}

/-- `a₀·f(0) + a₁·f(1) + …` from index `i` on. -/
def sumFrom (f : Nat → Nat) : List Nat → Nat → Nat
  | [], _ => 0
  | a :: as, i => a * f i + sumFrom f as (i + 1)

theorem commitmentLoop_exact (x : Nat) (as : List Nat) : ∀ (i acc A : Nat), (acc : ZMod P.p) = (P.g : ZMod P.p) ^ A →
    ((commitmentLoop P x (as.map (fun a => P.g ^ a % P.p)) i acc : Nat) : ZMod P.p)
      = (P.g : ZMod P.p) ^ (A + sumFrom (fun i => x ^ i % P.p) as i) := by
  induction as with
  | nil => intro i acc A h; simpa [commitmentLoop, sumFrom] using h
  | cons a as ih =>
    intro i acc A h
    simp only [List.map_cons, commitmentLoop]
    rw [ih (i + 1) _ (A + a * (x ^ i % P.p)) (by
      rw [multP_cast, powP_cast, h, ZMod.natCast_mod]
      push_cast
      rw [← pow_mul, pow_add]
      rfl)]
    rw [sumFrom, Nat.add_assoc]

/-- C11 Exactly the coordinates that are accepted for a sequence order and commitments to `as`, whatever their sizes. -/
theorem C11_accepted_iff (hv : P.Valid) (as : List Nat) (x y : Nat) (hx : x < P.q) :
    verifyCoordinate P y x (as.map (fun a => P.g ^ a % P.p)) = .ok true ↔
      y % P.q = sumFrom (fun i => x ^ i % P.p) as 0 % P.q := by
  simp only [verifyCoordinate, mkQ_nat hx, bind, Except.bind, pure, Except.pure, Except.ok.injEq, beq_iff_eq]
  rw [← castP_inj (gPowP_lt hv.p_pos _) (commitmentLoop_lt hv.one_lt_p _ _ _ _ hv.one_lt_p), gPowP_cast,
    commitmentLoop_exact x as 0 1 0 (by simp), g_eq_iff hv, Nat.zero_add]
  exact ZMod.natCast_eq_natCast_iff' ..

theorem sumFrom_split (p x : Nat) (as : List Nat) : ∀ i,
    sumFrom (fun i => x ^ i) as i = sumFrom (fun i => x ^ i % p) as i + p * sumFrom (fun i => x ^ i / p) as i := by
  induction as with
  | nil => intro i; rfl
  | cons a as ih =>
    intro i
    simp only [sumFrom]
    rw [ih (i + 1)]
    conv_lhs => rw [← Nat.mod_add_div (x ^ i) p]
    ring

theorem sumFrom_polyAt (x : Nat) (as : List Nat) : ∀ i, sumFrom (fun i => x ^ i) as i = x ^ i * polyAt as x := by
  induction as with
  | nil => intro i; simp [sumFrom, polyAt]
  | cons a as ih =>
    intro i
    simp only [sumFrom, polyAt]
    rw [ih (i + 1)]
    ring

/-- C10 Exactly when an honest share is accepted: when the multiples of `p` in the powers of the sequence order, weighted with the
coefficients, cancel modulo `q`.  If all powers are below `p` there are none; otherwise it is a matter of the coefficients. -/
theorem C10_honest_share_iff (E : Env) (hv : E.P.Valid) (rands : List (Nat × Nat)) (x y : Nat)
    (hy : computeCoordinate E.P x (generatePolynomial E rands) = .ok y) :
    verifyCoordinate E.P y x (getCommitments (generatePolynomial E rands)) = .ok true ↔
      sumFrom (fun i => x ^ i / E.P.p) (rands.map Prod.fst) 0 % E.P.q = 0 := by
  have hx : x < E.P.q := by
    by_contra hx
    rw [(C10_out_of_range_raises E (generatePolynomial E rands) x 0 [] (.inr (by omega))).1] at hy
    cases hy
  rw [C10_coordinate_value E hv rands x hx] at hy
  cases hy
  rw [commitments_generate, C11_accepted_iff hv _ x _ hx, Nat.mod_mod]
  have h1 := sumFrom_split E.P.p x (rands.map Prod.fst) 0
  rw [sumFrom_polyAt, pow_zero, one_mul] at h1
  obtain ⟨k, hk⟩ := hv.q_dvd
  have hp : E.P.p = E.P.q * k + 1 := by have := hv.one_lt_p; omega
  generalize sumFrom (fun i => x ^ i % E.P.p) (rands.map Prod.fst) 0 = A at h1 ⊢
  generalize sumFrom (fun i => x ^ i / E.P.p) (rands.map Prod.fst) 0 = B at h1 ⊢
  have h2 : polyAt (rands.map Prod.fst) x = A + B + E.P.q * (k * B) := by rw [h1, hp]; ring
  rw [h2, Nat.add_mul_mod_self_left]
  constructor
  · intro h
    have : A + B ≡ A + 0 [MOD E.P.q] := h
    exact Nat.ModEq.add_left_cancel' A this
  · intro h
    show A + B ≡ A + 0 [MOD E.P.q]
    exact Nat.ModEq.add_left A (show B ≡ 0 [MOD E.P.q] by simpa [Nat.ModEq] using h)

-- the rejected share of `C10_large_power_fails`: 6^3 = 216 has 157 once, with coefficient 1
example : sumFrom (fun i => 6 ^ i / 157) [1, 1, 1, 1] 0 % 13 = 1 := by decide
-- with the last coefficient 0 the same order is accepted
example : sumFrom (fun i => 6 ^ i / 157) [1, 1, 1, 0] 0 % 13 = 0 := by decide

end EG
