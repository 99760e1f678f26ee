import Mathlib.LinearAlgebra.Lagrange
import Verif.Spec.Polynomial
import Verif.Model.Polynomial
import Verif.Lemmas.ChaumPedersen

/-!
# Helper lemmas: secret-sharing polynomials
-/

namespace EG

open Polynomial

variable {P : Params}

theorem toPoly_coeff (q : Nat) (as : List Nat) (i : Nat) :
    (toPoly q as).coeff i = ((as.getD i 0 : Nat) : ZMod q) := by
  induction as generalizing i with
  | nil => simp [toPoly]
  | cons a as ih =>
    cases i with
    | zero => simp [toPoly]
    | succ i => simp [toPoly, ih]

theorem toPoly_degree_lt (q : Nat) (as : List Nat) {k : Nat} (h : as.length ≤ k) :
    (toPoly q as).degree < k := by
  rw [Polynomial.degree_lt_iff_coeff_zero]
  intro m hm
  rw [toPoly_coeff, List.getD_eq_getElem?_getD, List.getElem?_eq_none (by omega)]; simp

theorem toPoly_eval_zero (q : Nat) (a : Nat) (as : List Nat) :
    (toPoly q (a :: as)).eval 0 = (a : ZMod q) := by
  simp [toPoly]

theorem polyAt_cast (q : Nat) (as : List Nat) (x : Nat) :
    ((polyAt as x : Nat) : ZMod q) = (toPoly q as).eval (x : ZMod q) := by
  induction as with
  | nil => simp [polyAt, toPoly]
  | cons a as ih => simp [polyAt, toPoly, ih]

theorem dot_cast (n : Nat) (xs : List Nat) (L Y : Nat → Nat) :
    ((dot (xs.map L) (xs.map (fun x => Y x % n)) : Nat) : ZMod n)
      = (xs.map (fun x : Nat => (L x : ZMod n) * (Y x : ZMod n))).sum := by
  induction xs with
  | nil => simp [dot]
  | cons x xs ih => simp [dot, ih]

theorem mapM_ok {α β : Type} (f : α → R β) (L : α → β) (xs : List α)
    (h : ∀ x ∈ xs, f x = .ok (L x)) : xs.mapM f = .ok (xs.map L) := by
  induction xs with
  | nil => rfl
  | cons x xs ih =>
    rw [List.mapM_cons, h x (List.mem_cons_self ..), ih (fun z hz => h z (List.mem_cons_of_mem _ hz))]
    rfl

/-- the coordinate loop computes the value of the polynomial -/
theorem coordinateLoop_cast (x : Nat) (as : List Nat) (i acc : Nat) :
    ((coordinateLoop P x as i acc : Nat) : ZMod P.q)
      = acc + (x : ZMod P.q) ^ i * (toPoly P.q as).eval (x : ZMod P.q) := by
  induction as generalizing i acc with
  | nil => simp [coordinateLoop, toPoly]
  | cons a as ih =>
    simp only [coordinateLoop]
    rw [ih, addQ_cast, multQ_cast, powQ_cast]
    simp only [toPoly, eval_add, eval_C, eval_mul, eval_X]
    ring

theorem coordinateLoop_lt (hq : 0 < P.q) (x : Nat) (as : List Nat) (i acc : Nat) (h : acc < P.q) :
    coordinateLoop P x as i acc < P.q := by
  induction as generalizing i acc with
  | nil => exact h
  | cons a as ih => exact ih _ _ (addQ_lt hq _ _)

theorem commitmentLoop_lt (hp : 1 < P.p) (x : Nat) (ks : List Nat) (i acc : Nat) (h : acc < P.p) :
    commitmentLoop P x ks i acc < P.p := by
  induction ks generalizing i acc with
  | nil => exact h
  | cons a as ih => exact ih _ _ (multP_lt hp _ _)

theorem recoveryLoop_lt (hp : 1 < P.p) (x : Nat) (ks : List Nat) (i acc : Nat) (h : acc < P.p) :
    recoveryLoop P x ks i acc < P.p := by
  induction ks generalizing i acc with
  | nil => exact h
  | cons a as ih => exact ih _ _ (multP_lt hp _ _)

/-- the commitment loop on commitments to `as`, when the powers of `x` stay below `p` -/
theorem commitmentLoop_cast (x : Nat) (as : List Nat) (i acc A : Nat)
    (hx : ∀ j < i + as.length, x ^ j < P.p)
    (hacc : (acc : ZMod P.p) = (P.g : ZMod P.p) ^ A) :
    ∃ e : Nat, ((commitmentLoop P x (as.map (fun a => P.g ^ a % P.p)) i acc : Nat) : ZMod P.p)
        = (P.g : ZMod P.p) ^ e ∧
      (e : ZMod P.q) = A + (x : ZMod P.q) ^ i * (toPoly P.q as).eval (x : ZMod P.q) := by
  induction as generalizing i acc A with
  | nil => exact ⟨A, hacc, by simp [toPoly]⟩
  | cons a as ih =>
    simp only [List.map_cons, commitmentLoop]
    have hpow : powP P x i = x ^ i := Nat.mod_eq_of_lt (hx i (by simp))
    obtain ⟨e, h1, h2⟩ := ih (i + 1) (multP P acc (powP P (P.g ^ a % P.p) (powP P x i)))
      (A + a * x ^ i) (by intro j hj; apply hx; simp only [List.length_cons]; omega) (by
        rw [multP_cast, powP_cast, hacc, hpow, ZMod.natCast_mod]
        push_cast
        rw [← pow_mul, pow_add])
    refine ⟨e, h1, ?_⟩
    rw [h2]
    push_cast
    simp only [toPoly, eval_add, eval_C, eval_mul, eval_X]
    ring

/-- the recovery loop on commitments to `as`, for every `x` -/
theorem recoveryLoop_cast (x : Nat) (as : List Nat) (i acc A : Nat)
    (hacc : (acc : ZMod P.p) = (P.g : ZMod P.p) ^ A) :
    ∃ e : Nat, ((recoveryLoop P x (as.map (fun a => P.g ^ a % P.p)) i acc : Nat) : ZMod P.p)
        = (P.g : ZMod P.p) ^ e ∧
      (e : ZMod P.q) = A + (x : ZMod P.q) ^ i * (toPoly P.q as).eval (x : ZMod P.q) := by
  induction as generalizing i acc A with
  | nil => exact ⟨A, hacc, by simp [toPoly]⟩
  | cons a as ih =>
    simp only [List.map_cons, recoveryLoop]
    obtain ⟨e, h1, h2⟩ := ih (i + 1) (multP P acc (powP P (P.g ^ a % P.p) (powQ P x i)))
      (A + a * powQ P x i) (by
        rw [multP_cast, powP_cast, hacc, ZMod.natCast_mod]
        push_cast
        rw [← pow_mul, pow_add])
    refine ⟨e, h1, ?_⟩
    rw [h2]
    push_cast
    rw [powQ_cast]
    simp only [toPoly, eval_add, eval_C, eval_mul, eval_X]
    ring

/-- Lagrange interpolation at zero, over a field. -/
theorem lagrange_at_zero {F : Type*} [Field F] [DecidableEq F] (s : Finset F) (f : F[X])
    (hf : f.degree < s.card) :
    f.eval 0 = ∑ x ∈ s, (∏ y ∈ s.erase x, y * (y - x)⁻¹) * f.eval x := by
  have h1 := Lagrange.eq_interpolate (s := s) (v := id) (Set.injOn_id _) hf
  conv_lhs => rw [h1]
  rw [Lagrange.interpolate_apply, eval_finsetSum]
  apply Finset.sum_congr rfl
  intro x hx
  simp only [id, eval_mul, eval_C, Lagrange.basis, eval_prod, Lagrange.basisDivisor, eval_sub, eval_X]
  rw [mul_comm]
  congr 1
  apply Finset.prod_congr rfl
  intro y hy
  have : x ≠ y := fun h => by rw [h] at hy; simp at hy
  rw [zero_sub, ← neg_sub y x, inv_neg]
  ring

/-- A list product over `xs.erase x` as a finset product. -/
theorem list_prod_erase {F : Type*} [CommRing F] [DecidableEq F] (xs : List F) (hn : xs.Nodup) (x : F)
    (f : F → F) : ((xs.erase x).map f).prod = ∏ y ∈ xs.toFinset.erase x, f y := by
  rw [← List.prod_toFinset f (hn.erase x)]
  congr 1
  ext y
  simp only [List.mem_toFinset, Finset.mem_erase, hn.mem_erase_iff]

theorem computeLagrange_spec (hv : P.Valid) (x : Int) (ds : List Int)
    (hne : ∀ d ∈ ds, (d : ZMod P.q) ≠ (x : ZMod P.q)) :
    ∃ l, computeLagrange P x ds = .ok l ∧ l < P.q ∧
      (l : ZMod P.q) = (ds.map (fun d : Int => (d : ZMod P.q) * ((d : ZMod P.q) - x)⁻¹)).prod := by
  have : Fact P.q.Prime := ⟨hv.q_prime⟩
  have hden : ((multQsInt P (ds.map (fun d => d - x)) : Nat) : ZMod P.q) ≠ 0 := by
    rw [multQsInt_cast hv.q_pos]
    rw [Ne, List.prod_eq_zero_iff]
    simp only [List.map_map, List.mem_map, Function.comp_apply, not_exists, not_and]
    intro d hd h
    push_cast at h
    exact hne d hd (sub_eq_zero.1 h)
  obtain ⟨i, hi⟩ := invert_isOk hv.q_prime hden
  refine ⟨multQ P (multQsInt P ds) i, ?_, multQ_lt hv.one_lt_q _ _, ?_⟩
  · simp [computeLagrange, divQ, hi, bind, Except.bind, pure, Except.pure]
  · rw [multQ_cast, (invert_cast hv.q_prime hi).2, multQsInt_cast hv.q_pos, multQsInt_cast hv.q_pos]
    clear hi hden hne
    induction ds with
    | nil => simp
    | cons d ds ih =>
      simp only [List.map_cons, List.prod_cons, mul_inv, List.map_map] at ih ⊢
      rw [← ih]
      push_cast
      ring

theorem computeLagrange_error (hv : P.Valid) (x : Int) (ds : List Int)
    (he : ∃ d ∈ ds, (d : ZMod P.q) = (x : ZMod P.q)) :
    computeLagrange P x ds = .error .zeroDiv := by
  have : Fact P.q.Prime := ⟨hv.q_prime⟩
  have hden : ((multQsInt P (ds.map (fun d => d - x)) : Nat) : ZMod P.q) = 0 := by
    rw [multQsInt_cast hv.q_pos, List.prod_eq_zero_iff]
    obtain ⟨d, hd, h⟩ := he
    simp only [List.map_map, List.mem_map, Function.comp_apply]
    exact ⟨d, hd, by push_cast; rw [h, sub_self]⟩
  simp [computeLagrange, divQ, invert_error hv.q_prime hden, bind, Except.bind]

end EG
