import Verif.Lemmas.Polynomial
import Verif.Spec.Toy

/-!
# C10-C13: secret sharing

A guardian's polynomial is `generatePolynomial E rands`, its secret coefficients are the first
components of `rands`.
-/

namespace EG

open Polynomial

variable {P : Params}

/-- The commitments published by a guardian are `g` to its coefficients. -/
theorem commitments_generate (E : Env) (rands : List (Nat × Nat)) :
    getCommitments (generatePolynomial E rands)
      = (rands.map Prod.fst).map (fun a => E.P.g ^ a % E.P.p) := by
  simp [getCommitments, generatePolynomial, mkCoefficient, gPowP, powP, Function.comp_def]

/-! ### C10 -/

/-- C10 The coordinate computed for sequence order `x` is `a₀ + a₁x + a₂x² + … mod q`. -/
theorem C10_coordinate_value (E : Env) (hv : E.P.Valid) (rands : List (Nat × Nat)) (x : Nat)
    (hx : x < E.P.q) :
    computeCoordinate E.P x (generatePolynomial E rands)
      = .ok (polyAt (rands.map Prod.fst) x % E.P.q) := by
  simp only [computeCoordinate, mkQ_nat hx, bind, Except.bind, pure, Except.pure]
  congr 1
  rw [← castP_inj (coordinateLoop_lt hv.q_pos _ _ _ _ hv.q_pos) (Nat.mod_lt _ hv.q_pos),
    coordinateLoop_cast, ZMod.natCast_mod, polyAt_cast]
  simp [generatePolynomial, mkCoefficient, Function.comp_def]

/-- C10 A polynomial generated from a nonce has the coefficients `nonce + i mod q`, whatever the proof nonces. -/
theorem C10_nonce_polynomial (E : Env) (hv : E.P.Valid) (nonce : Nat) (rands : List Nat) :
    generatePolynomialNonce E nonce rands
      = generatePolynomial E (rands.zipIdx.map (fun ri => ((nonce + ri.2) % E.P.q, ri.1))) := by
  simp only [generatePolynomialNonce, generatePolynomial, List.map_map]
  apply List.map_congr_left
  intro ri _
  simp only [Function.comp_apply]
  congr 1
  rw [← castP_inj (addQ_lt hv.q_pos _ _) (Nat.mod_lt _ hv.q_pos), addQ_cast, ZMod.natCast_mod]
  push_cast; rfl

/-- C10 An honest coordinate is accepted against the published commitments, provided the powers
`x^i` that occur stay below `p`.  Missing from the full claim: larger powers, for which the verifier
reduces the exponent modulo `p` instead of `q` and rejects (`C10_large_power_fails`). -/
theorem C10_honest_share_accepted_partial (E : Env) (hv : E.P.Valid) (rands : List (Nat × Nat)) (x y : Nat)
    (hpow : ∀ i < rands.length, x ^ i < E.P.p)
    (hy : computeCoordinate E.P x (generatePolynomial E rands) = .ok y) :
    verifyCoordinate E.P y x (getCommitments (generatePolynomial E rands)) = .ok true := by
  by_cases hx : x < E.P.q
  · rw [C10_coordinate_value E hv rands x hx] at hy
    cases hy
    simp only [verifyCoordinate, mkQ_nat hx, bind, Except.bind, pure, Except.pure, commitments_generate]
    congr 1
    rw [nat_eq_iff_castP (gPowP_lt hv.p_pos _)
      (commitmentLoop_lt hv.one_lt_p _ _ _ _ hv.one_lt_p)]
    obtain ⟨e, h1, h2⟩ := commitmentLoop_cast (P := E.P) x (rands.map Prod.fst) 0 1 0
      (by simpa using hpow) (by simp)
    rw [h1, gPowP_cast, g_eq_iff hv, h2, ZMod.natCast_mod, polyAt_cast]
    simp
  · exfalso
    simp only [computeCoordinate, bind, Except.bind] at hy
    cases h : mkQ E.P x with
    | error => rw [h] at hy; cases hy
    | ok z => have := mkQ_ok h; omega

/-- C10 A sequence order outside `[0, q)` raises, on both sides. -/
theorem C10_out_of_range_raises (E : Env) (poly : Polynomial') (x : Int) (y : Nat) (ks : List Nat)
    (hx : x < 0 ∨ (E.P.q : Int) ≤ x) :
    computeCoordinate E.P x poly = .error .overflow ∧ verifyCoordinate E.P y x ks = .error .overflow := by
  have : mkQ E.P x = .error .overflow := by
    simp only [mkQ]
    rw [if_neg (by omega)]
  simp [computeCoordinate, verifyCoordinate, this, bind, Except.bind]

/-- C10 (negative) With four coefficients and sequence order 6 in the 157/13/16 group an honest share is
rejected. -/
theorem C10_large_power_fails :
    ∃ (rands : List (Nat × Nat)) (x y : Nat), x < extraSmall.q ∧
      computeCoordinate extraSmall x (generatePolynomial toyEnv rands) = .ok y ∧
      verifyCoordinate extraSmall y x (getCommitments (generatePolynomial toyEnv rands))
        = .ok false :=
  ⟨[(1, 1), (1, 1), (1, 1), (1, 1)], 6, 12, by decide, by decide +kernel, by decide +kernel⟩

/-! ### C11 -/

/-- C11 Whatever the commitments, at most one coordinate in `[0, q)` is accepted for a sequence order. -/
theorem C11_accepted_unique (hv : P.Valid) (x : Int) (ks : List Nat) (y y' : Nat)
    (hy : y < P.q) (hy' : y' < P.q)
    (h : verifyCoordinate P y x ks = .ok true) (h' : verifyCoordinate P y' x ks = .ok true) : y = y' := by
  simp only [verifyCoordinate, bind, Except.bind, pure, Except.pure] at h h'
  cases hm : mkQ P x with
  | error => rw [hm] at h; cases h
  | ok z =>
    rw [hm] at h h'
    simp only [Except.ok.injEq, beq_iff_eq] at h h'
    have := h.trans h'.symm
    rw [← castP_inj (gPowP_lt hv.p_pos _) (gPowP_lt hv.p_pos _), gPowP_cast, gPowP_cast,
      g_eq_iff hv] at this
    exact (castP_inj hy hy').1 this

/-- C11 If a coordinate is accepted against commitments to the coefficients `as`, it is the value of the
polynomial.  Missing from the full claim: powers of `x` at or above `p` (see C10). -/
theorem C11_accepted_is_point_partial (hv : P.Valid) (as : List Nat) (x y : Nat) (hy : y < P.q)
    (hpow : ∀ i < as.length, x ^ i < P.p)
    (h : verifyCoordinate P y x (as.map (fun a => P.g ^ a % P.p)) = .ok true) :
    y = polyAt as x % P.q := by
  simp only [verifyCoordinate, bind, Except.bind, pure, Except.pure] at h
  cases hm : mkQ P x with
  | error => rw [hm] at h; cases h
  | ok z =>
    have hz : z = x := by have := (mkQ_ok hm).2; omega
    subst hz
    rw [hm] at h
    simp only [Except.ok.injEq, beq_iff_eq] at h
    obtain ⟨e, h1, h2⟩ := commitmentLoop_cast (P := P) z as 0 1 0 (by simpa using hpow) (by simp)
    rw [← castP_inj (gPowP_lt hv.p_pos _) (commitmentLoop_lt hv.one_lt_p _ _ _ _ hv.one_lt_p),
      h1, gPowP_cast, g_eq_iff hv, h2] at h
    rw [← castP_inj hy (Nat.mod_lt _ hv.q_pos), ZMod.natCast_mod, polyAt_cast, h]
    simp

/-- C11 Any commitments in the subgroup are commitments to some polynomial, so the previous theorem
covers every published commitment list whose Schnorr proofs are valid (C09). -/
theorem C11_commitments_have_coefficients (hv : P.Valid) (ks : List Nat)
    (hk : ∀ k ∈ ks, isValidResidue P k = true) :
    ∃ as : List Nat, (∀ a ∈ as, a < P.q) ∧ as.map (fun a => P.g ^ a % P.p) = ks := by
  induction ks with
  | nil => exact ⟨[], by simp, rfl⟩
  | cons k ks ih =>
    obtain ⟨as, h1, h2⟩ := ih (fun k' hk' => hk k' (List.mem_cons_of_mem _ hk'))
    have hk0 := hk k (List.mem_cons_self ..)
    obtain ⟨hlt, hpow⟩ := (isValidResidue_iff hv k).1 hk0
    obtain ⟨e, he, hge⟩ := exists_log hv hpow
    refine ⟨e :: as, by simpa [he] using h1, ?_⟩
    simp only [List.map_cons, h2, List.cons.injEq, and_true]
    have : P.g ^ e % P.p = gPowP P e := rfl
    rw [this, ← castP_inj (gPowP_lt hv.p_pos _) hlt, gPowP_cast, hge]

/-- C11 The recovery public key of a guardian for a missing guardian is `g` to the coordinate the missing
guardian gave it, for every sequence order. -/
theorem C11_recovery_key (hv : P.Valid) (as : List Nat) (x : Nat) :
    recoveryPublicKey P x (as.map (fun a => P.g ^ a % P.p)) = P.g ^ (polyAt as x % P.q) % P.p := by
  have hg : P.g ^ (polyAt as x % P.q) % P.p = gPowP P (polyAt as x % P.q) := rfl
  rw [hg, recoveryPublicKey, ← castP_inj (recoveryLoop_lt hv.one_lt_p _ _ _ _ hv.one_lt_p) (gPowP_lt hv.p_pos _)]
  obtain ⟨e, h1, h2⟩ := recoveryLoop_cast (P := P) x as 0 1 0 (by simp)
  rw [h1, gPowP_cast, g_eq_iff hv, h2, ZMod.natCast_mod, polyAt_cast]
  simp

/-- C11 The condition on powers holds for the production-size parameters: with `p ≥ 2^4095`, sequence
orders below 256 and quorums up to 500, every power that occurs is below `p`. -/
theorem C11_powers_small (p x k : Nat) (hp : 2 ^ 4095 ≤ p) (hx : x < 2 ^ 8) (hk : k ≤ 500) :
    ∀ i < k, x ^ i < p := by
  intro i hi
  calc x ^ i ≤ (2 ^ 8) ^ i := Nat.pow_le_pow_left hx.le i
    _ = 2 ^ (8 * i) := by rw [pow_mul]
    _ < 2 ^ 4095 := Nat.pow_lt_pow_right (by norm_num) (by omega)
    _ ≤ p := hp

-- a non-trivial instance: three coefficients, order 6, in the 157/13/16 group
example : ∀ i < [(3, 1), (5, 2), (7, 4)].length, 6 ^ i < extraSmall.p := by decide
example : computeCoordinate extraSmall 6 (generatePolynomial toyEnv [(3, 1), (5, 2), (7, 4)])
    = .ok 12 := by decide +kernel
example : verifyCoordinate extraSmall 12 6 ([3, 5, 7].map (fun a => extraSmall.g ^ a % extraSmall.p))
    = .ok true := by decide +kernel
example : verifyCoordinate extraSmall 11 6 ([3, 5, 7].map (fun a => extraSmall.g ^ a % extraSmall.p))
    = .ok false := by decide +kernel

/-! ### C12 -/

/-- The Lagrange coefficients that the guardians with sequence orders `xs` compute, each from the orders
of the others (`others x`, in any order), as `compute_lagrange_coefficients_for_guardians` does. -/
def lagranges (P : Params) (xs : List Nat) (others : Nat → List Int) : R (List Nat) :=
  xs.mapM (fun x : Nat => computeLagrange P (x : Int) (others x))

theorem lagranges_spec (hv : P.Valid) (as xs : List Nat) (others : Nat → List Int)
    (hdist : (xs.map (fun x : Nat => (x : ZMod P.q))).Nodup)
    (hothers : ∀ x ∈ xs, (others x).Perm ((xs.erase x).map (fun y : Nat => (y : Int))))
    (hlen : as.length ≤ xs.length) :
    ∃ L : Nat → Nat, lagranges P xs others = .ok (xs.map L) ∧ (∀ x ∈ xs, L x < P.q) ∧
      (xs.map (fun x : Nat => (L x : ZMod P.q) * (polyAt as x : ZMod P.q))).sum
        = ((polyAt as 0 : Nat) : ZMod P.q) := by
  have : Fact P.q.Prime := ⟨hv.q_prime⟩
  set zs := xs.map (fun x : Nat => (x : ZMod P.q)) with hzs
  -- the coefficient of one guardian
  have hperm : ∀ x ∈ xs, ((others x).map (fun d : Int => (d : ZMod P.q))).Perm (zs.erase (x : ZMod P.q)) := by
    intro x hx
    have h1 := (hothers x hx).map (fun d : Int => (d : ZMod P.q))
    simp only [List.map_map, Function.comp_def, Int.cast_natCast] at h1
    refine h1.trans ?_
    have h2 : (((x : ZMod P.q)) :: (xs.erase x).map (fun y : Nat => (y : ZMod P.q))).Perm zs :=
      ((List.perm_cons_erase hx).symm.map (fun y : Nat => (y : ZMod P.q)))
    have h3 : zs.Perm ((x : ZMod P.q) :: zs.erase (x : ZMod P.q)) :=
      List.perm_cons_erase (List.mem_map.2 ⟨x, hx, rfl⟩)
    exact List.Perm.cons_inv (h2.trans h3)
  have hone : ∀ x ∈ xs, ∃ l, computeLagrange P (x : Int) (others x) = .ok l ∧ l < P.q ∧
      (l : ZMod P.q) = ∏ z ∈ zs.toFinset.erase (x : ZMod P.q), z * (z - x)⁻¹ := by
    intro x hx
    obtain ⟨l, h1, h2, h3⟩ := computeLagrange_spec hv (x : Int) (others x) (by
      intro d hd h
      have : (d : ZMod P.q) ∈ zs.erase (x : ZMod P.q) :=
        (hperm x hx).mem_iff.1 (List.mem_map.2 ⟨d, hd, rfl⟩)
      rw [hdist.mem_erase_iff] at this
      exact this.1 (by simpa using h))
    refine ⟨l, h1, h2, ?_⟩
    rw [h3, ← list_prod_erase zs hdist (x : ZMod P.q) (fun z => z * (z - x)⁻¹)]
    have h4 := ((hperm x hx).map (fun z : ZMod P.q => z * (z - x)⁻¹)).prod_eq
    rw [← h4, List.map_map]
    simp [Function.comp_def]
  let L : Nat → Nat := fun x => match computeLagrange P (x : Int) (others x) with
    | .ok l => l
    | .error _ => 0
  have hL : ∀ x ∈ xs, computeLagrange P (x : Int) (others x) = .ok (L x) ∧ L x < P.q ∧
      (L x : ZMod P.q) = ∏ z ∈ zs.toFinset.erase (x : ZMod P.q), z * (z - x)⁻¹ := by
    intro x hx
    obtain ⟨l, h1, h2, h3⟩ := hone x hx
    have : L x = l := by simp only [L, h1]
    rw [this]; exact ⟨h1, h2, h3⟩
  refine ⟨L, mapM_ok _ _ _ (fun x hx => (hL x hx).1), fun x hx => (hL x hx).2.1, ?_⟩
  have key := lagrange_at_zero zs.toFinset (toPoly P.q as)
    (toPoly_degree_lt _ _ (by rw [List.toFinset_card_of_nodup hdist, hzs, List.length_map]; exact hlen))
  rw [polyAt_cast, Nat.cast_zero, key, List.sum_toFinset _ hdist, hzs, List.map_map]
  congr 1
  apply List.map_congr_left
  intro x hx
  rw [(hL x hx).2.2, polyAt_cast, Function.comp_apply]

/-- C12 Reconstruction.  `xs` are the sequence orders of the guardians that take part (distinct modulo
`q`) and `as` a polynomial with at most that many coefficients.  Then all Lagrange coefficients exist, and
combining them with the coordinates gives the constant term. -/
theorem C12_reconstruction (hv : P.Valid) (a : Nat) (as xs : List Nat) (others : Nat → List Int)
    (hdist : (xs.map (fun x : Nat => (x : ZMod P.q))).Nodup)
    (hothers : ∀ x ∈ xs, (others x).Perm ((xs.erase x).map (fun y : Nat => (y : Int))))
    (hlen : (a :: as).length ≤ xs.length) :
    ∃ ls, lagranges P xs others = .ok ls ∧
      dot ls (xs.map (fun x => polyAt (a :: as) x % P.q)) % P.q = a % P.q := by
  obtain ⟨L, h1, _, h3⟩ := lagranges_spec hv (a :: as) xs others hdist hothers hlen
  refine ⟨_, h1, ?_⟩
  rw [← castP_inj (Nat.mod_lt _ hv.q_pos) (Nat.mod_lt _ hv.q_pos), ZMod.natCast_mod, ZMod.natCast_mod,
    dot_cast]
  simpa [polyAt, List.map_map, Function.comp_def] using h3

/-- C12 In the exponent: raising the compensated partial decryptions `pad^{y_x}` to the Lagrange
coefficients and multiplying them gives the partial decryption `pad^{a₀}` of the missing guardian. -/
theorem C12_reconstruction_in_exponent (hv : P.Valid) (a : Nat) (as xs : List Nat) (others : Nat → List Int)
    (pad : Nat) (hpad : isValidResidue P pad = true)
    (hdist : (xs.map (fun x : Nat => (x : ZMod P.q))).Nodup)
    (hothers : ∀ x ∈ xs, (others x).Perm ((xs.erase x).map (fun y : Nat => (y : Int))))
    (hlen : (a :: as).length ≤ xs.length) :
    ∃ ls, lagranges P xs others = .ok ls ∧
      multPs P (List.zipWith (powP P) (xs.map (fun x => powP P pad (polyAt (a :: as) x % P.q))) ls)
        = powP P pad a := by
  obtain ⟨L, h1, _, h3⟩ := lagranges_spec hv (a :: as) xs others hdist hothers hlen
  refine ⟨_, h1, ?_⟩
  have hp' := ((isValidResidue_iff hv pad).1 hpad).2
  rw [← castP_inj (multPs_lt hv.one_lt_p _) (powP_lt hv.p_pos _ _), multPs_cast, powP_cast,
    List.zipWith_map, List.zipWith_self, List.map_map]
  have : ∀ zs : List Nat, (List.map ((fun x : Nat => (x : ZMod P.p)) ∘ fun x =>
        powP P (powP P pad (polyAt (a :: as) x % P.q)) (L x)) zs).prod
      = (pad : ZMod P.p) ^ (zs.map (fun x => L x * polyAt (a :: as) x)).sum := by
    intro zs
    induction zs with
    | nil => simp
    | cons x zs ih =>
      simp only [List.map_cons, List.prod_cons, List.sum_cons, ih, Function.comp_apply, powP_cast, pow_add]
      congr 1
      rw [pow_mod_of hp', ← pow_mul, mul_comm]
  rw [this]
  apply pow_congr_mod hp'
  have h5 : polyAt (a :: as) 0 = a := by simp [polyAt]
  rw [h5] at h3
  rw [Nat.cast_list_sum, List.map_map, ← h3]
  simp [Function.comp_def]

/-- C12 Coinciding sequence orders make the computation raise instead of returning a wrong value. -/
theorem C12_coinciding_orders_raise (hv : P.Valid) (x : Int) (ds : List Int)
    (he : ∃ d ∈ ds, (d : ZMod P.q) = (x : ZMod P.q)) :
    computeLagrange P x ds = .error .zeroDiv := computeLagrange_error hv x ds he

/-- The number of coefficients matters: with fewer participants than coefficients reconstruction gives a
wrong value. -/
theorem C12_too_few_differs :
    ∃ ls, lagranges extraSmall [1, 2] (fun x => if x = 1 then [2] else [1]) = .ok ls ∧
      dot ls ([1, 2].map (fun x => polyAt [3, 5, 7] x % extraSmall.q)) % extraSmall.q ≠ 3 :=
  ⟨[2, 12], by decide +kernel, by decide +kernel⟩

example : lagranges extraSmall [1, 2, 4] (fun x => if x = 1 then [2, 4] else if x = 2 then [1, 4] else [2, 1])
    = .ok [7, 11, 9] := by decide +kernel
example : ([1, 2, 4].map (fun x : Nat => (x : ZMod extraSmall.q))).Nodup := by decide +kernel

/-! ### C13 -/

/-- C13 For any `k - 1` sequence orders, distinct and non-zero modulo `q`, any coordinates `y x` and any
candidate secret `s`, there is exactly one polynomial with `k` coefficients in `[0, q)` that has constant
term `s` and passes through all the given coordinates. -/
theorem C13_any_secret_consistent (hv : P.Valid) (xs : List Nat) (y : Nat → Nat) (s : Nat)
    (hdist : (xs.map (fun x : Nat => (x : ZMod P.q))).Nodup)
    (hnz : ∀ x ∈ xs, (x : ZMod P.q) ≠ 0) (hy : ∀ x ∈ xs, y x < P.q) (hs : s < P.q) :
    ∃! as : List Nat, as.length = xs.length + 1 ∧ (∀ a ∈ as, a < P.q) ∧ as.head? = some s ∧
      ∀ x ∈ xs, polyAt as x % P.q = y x := by
  have : Fact P.q.Prime := ⟨hv.q_prime⟩
  set n := xs.length
  let S : Finset (Option Nat) := Finset.insertNone xs.toFinset
  let v : Option Nat → ZMod P.q := fun o => match o with | none => 0 | some x => (x : ZMod P.q)
  let r : Option Nat → ZMod P.q := fun o => match o with | none => (s : ZMod P.q) | some x => (y x : ZMod P.q)
  have hxs : xs.Nodup := List.Nodup.of_map _ hdist
  have hinj : Set.InjOn v S := by
    rintro (_ | x) hx (_ | x') hx' h
    · rfl
    · exact absurd h.symm (hnz x' (by simpa [S] using hx'))
    · exact absurd h (hnz x (by simpa [S] using hx))
    · congr 1
      exact List.inj_on_of_nodup_map hdist (by simpa [S] using hx) (by simpa [S] using hx') h
  have hcard : S.card = n + 1 := by
    rw [Finset.card_insertNone, List.toFinset_card_of_nodup hxs]
  -- a coefficient list fits exactly when its polynomial takes the prescribed values
  have hfit : ∀ as : List Nat, as.length = n + 1 → (∀ a ∈ as, a < P.q) →
      ((as.head? = some s ∧ ∀ x ∈ xs, polyAt as x % P.q = y x) ↔
        ∀ o ∈ S, (toPoly P.q as).eval (v o) = r o) := by
    intro as hl hlt
    obtain ⟨a, as', rfl⟩ : ∃ a as', as = a :: as' := by
      cases as with
      | nil => simp at hl
      | cons a as' => exact ⟨a, as', rfl⟩
    have ha : a < P.q := hlt a (List.mem_cons_self ..)
    constructor
    · rintro ⟨h1, h2⟩ (_ | x) hx
      · simp only [List.head?_cons, Option.some.injEq] at h1
        simp only [v, r, toPoly_eval_zero, h1]
      · have := h2 x (by simpa [S] using hx)
        simp only [v, r]
        rw [← polyAt_cast, ← this, ZMod.natCast_mod]
    · intro h
      constructor
      · have := h none (by simp [S])
        simp only [v, r, toPoly_eval_zero] at this
        rw [castP_inj ha hs] at this
        simp [this]
      · intro x hx
        have := h (some x) (by simpa [S] using hx)
        simp only [v, r] at this
        rw [← castP_inj (Nat.mod_lt _ hv.q_pos) (hy x hx), ZMod.natCast_mod, polyAt_cast, this]
  set f := Lagrange.interpolate S v r with hf
  have hdeg : f.degree < (n + 1 : Nat) := by
    rw [← hcard]; exact Lagrange.degree_interpolate_lt r hinj
  refine ⟨(List.range (n + 1)).map (fun i => (f.coeff i).val), ?_, ?_⟩
  · have hlen : ((List.range (n + 1)).map (fun i => (f.coeff i).val)).length = n + 1 := by simp
    have hlt : ∀ a ∈ (List.range (n + 1)).map (fun i => (f.coeff i).val), a < P.q := by
      intro a ha
      obtain ⟨i, _, rfl⟩ := List.mem_map.1 ha
      exact ZMod.val_lt _
    refine ⟨hlen, hlt, ?_⟩
    have hpoly : toPoly P.q ((List.range (n + 1)).map (fun i => (f.coeff i).val)) = f := by
      ext i
      rw [toPoly_coeff, List.getD_eq_getElem?_getD, List.getElem?_map]
      by_cases hi : i < n + 1
      · rw [List.getElem?_range hi]; simp
      · rw [List.getElem?_eq_none (by simp; omega)]
        simp only [Option.map_none, Option.getD_none, Nat.cast_zero]
        rw [Polynomial.degree_lt_iff_coeff_zero] at hdeg
        exact (hdeg i (by omega)).symm
    rw [hfit _ hlen hlt, hpoly]
    intro o ho
    exact Lagrange.eval_interpolate_at_node r hinj ho
  · rintro as ⟨hl, hlt, hrest⟩
    have h1 := (hfit as hl hlt).1 hrest
    have h2 : toPoly P.q as = f :=
      Lagrange.eq_interpolate_of_eval_eq r hinj
        (by rw [hcard]; exact toPoly_degree_lt _ _ hl.le) h1
    apply List.ext_getElem (by simp [hl])
    intro i hi1 hi2
    rw [List.getElem_map, List.getElem_range, ← h2, toPoly_coeff, List.getD_eq_getElem?_getD,
      List.getElem?_eq_getElem hi1, Option.getD_some,
      ZMod.val_natCast, Nat.mod_eq_of_lt (hlt _ (List.getElem_mem hi1))]

-- two shares of a three-coefficient polynomial are consistent with secret 3 and with secret 4
example : polyAt [3, 5, 7] 1 % 13 = 2 ∧ polyAt [3, 5, 7] 2 % 13 = 2 ∧
    polyAt [4, 10, 1] 1 % 13 = 2 ∧ polyAt [4, 10, 1] 2 % 13 = 2 := by decide

end EG
