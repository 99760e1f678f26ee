import Verif.Lemmas.Invert

/-!
# C24, C25: group arithmetic and the subgroup of valid residues

The specification is Mathlib's `ZMod`: the field of integers modulo a prime.
-/

namespace EG

variable {P : Params}

/-- C24 `add_q` of any number of arguments is the sum in the field, and in range. -/
theorem C24_add_q (hv : P.Valid) (l : List Nat) :
    addQs P l < P.q ∧ ((addQs P l : Nat) : ZMod P.q) = (l.map (fun x : Nat => (x : ZMod P.q))).sum :=
  ⟨addQs_lt hv.q_pos l, addQs_cast l⟩

example : addQs extraSmall [12, 7, 9] = 2 := by decide

/-- C24 `a_minus_b_q`. -/
theorem C24_a_minus_b_q (hv : P.Valid) (a b : Nat) :
    aMinusBQ P a b < P.q ∧ ((aMinusBQ P a b : Nat) : ZMod P.q) = (a : ZMod P.q) - b :=
  ⟨aMinusBQ_lt hv.q_pos a b, aMinusBQ_cast hv.q_pos a b⟩

example : aMinusBQ extraSmall 3 9 = 7 := by decide

/-- C24 `a_plus_bc_q`. -/
theorem C24_a_plus_bc_q (hv : P.Valid) (a b c : Nat) :
    aPlusBCQ P a b c < P.q ∧ ((aPlusBCQ P a b c : Nat) : ZMod P.q) = (a : ZMod P.q) + b * c :=
  ⟨aPlusBCQ_lt hv.q_pos a b c, aPlusBCQ_cast a b c⟩

/-- C24 `mult_q` of any number of arguments. -/
theorem C24_mult_q (hv : P.Valid) (l : List Nat) :
    multQs P l < P.q ∧ ((multQs P l : Nat) : ZMod P.q) = (l.map (fun x : Nat => (x : ZMod P.q))).prod :=
  ⟨multQs_lt hv.one_lt_q l, multQs_cast l⟩

/-- C24 `mult_p` of any number of arguments. -/
theorem C24_mult_p (hv : P.Valid) (l : List Nat) :
    multPs P l < P.p ∧ ((multPs P l : Nat) : ZMod P.p) = (l.map (fun x : Nat => (x : ZMod P.p))).prod :=
  ⟨multPs_lt hv.one_lt_p l, multPs_cast l⟩

/-- C24 `pow_q`. -/
theorem C24_pow_q (hv : P.Valid) (b e : Nat) :
    powQ P b e < P.q ∧ ((powQ P b e : Nat) : ZMod P.q) = (b : ZMod P.q) ^ e :=
  ⟨powQ_lt hv.q_pos b e, powQ_cast b e⟩

/-- C24 `pow_p`. -/
theorem C24_pow_p (hv : P.Valid) (b e : Nat) :
    powP P b e < P.p ∧ ((powP P b e : Nat) : ZMod P.p) = (b : ZMod P.p) ^ e :=
  ⟨powP_lt hv.p_pos b e, powP_cast b e⟩

/-- C24 `g_pow_p`: the power of the generator, which only depends on the exponent modulo `q`. -/
theorem C24_g_pow_p (hv : P.Valid) (e : Nat) :
    gPowP P e < P.p ∧ ((gPowP P e : Nat) : ZMod P.p) = (P.g : ZMod P.p) ^ e
      ∧ gPowP P (e % P.q) = gPowP P e := by
  refine ⟨gPowP_lt hv.p_pos e, gPowP_cast e, ?_⟩
  rw [← castP_inj (gPowP_lt hv.p_pos _) (gPowP_lt hv.p_pos _), gPowP_cast, gPowP_cast]
  exact pow_mod_of (g_cast_pow hv) e

/-- C24 `div_q`: division in the field when the divisor is not zero modulo `q`, and
`ZeroDivisionError` otherwise. -/
theorem C24_div_q (hv : P.Valid) (a b : Nat) :
    ((b : ZMod P.q) = 0 → divQ P a b = .error .zeroDiv) ∧
    ((b : ZMod P.q) ≠ 0 →
      ∃ x, divQ P a b = .ok x ∧ x < P.q ∧ (x : ZMod P.q) = (a : ZMod P.q) * (b : ZMod P.q)⁻¹) := by
  constructor
  · intro hb
    simp [divQ, invert_error hv.q_prime hb, bind, Except.bind]
  · intro hb
    obtain ⟨i, hi⟩ := invert_isOk hv.q_prime hb
    refine ⟨multQ P a i, by simp [divQ, hi, bind, Except.bind, pure, Except.pure],
      multQ_lt hv.one_lt_q _ _, ?_⟩
    rw [multQ_cast, (invert_cast hv.q_prime hi).2]

example : divQ extraSmall 3 5 = .ok 11 := by decide
example : divQ extraSmall 3 13 = .error .zeroDiv := by decide

/-- C24 `div_p`. -/
theorem C24_div_p (hv : P.Valid) (a b : Nat) :
    ((b : ZMod P.p) = 0 → divP P a b = .error .zeroDiv) ∧
    ((b : ZMod P.p) ≠ 0 →
      ∃ x, divP P a b = .ok x ∧ x < P.p ∧ (x : ZMod P.p) = (a : ZMod P.p) * (b : ZMod P.p)⁻¹) := by
  constructor
  · intro hb
    simp [divP, invert_error hv.p_prime hb, bind, Except.bind]
  · intro hb
    obtain ⟨i, hi⟩ := invert_isOk hv.p_prime hb
    refine ⟨multP P a i, by simp [divP, hi, bind, Except.bind, pure, Except.pure],
      multP_lt hv.one_lt_p _ _, ?_⟩
    rw [multP_cast, (invert_cast hv.p_prime hi).2]

/-- C24 `mult_inv_p`: the field inverse of a non-zero element, an exception on zero. -/
theorem C24_mult_inv_p (hv : P.Valid) (a : Nat) :
    (a = 0 → multInvP P a = .error .assertion) ∧
    ((a : ZMod P.p) ≠ 0 →
      ∃ x, multInvP P a = .ok x ∧ x < P.p ∧ (x : ZMod P.p) = (a : ZMod P.p)⁻¹) := by
  constructor
  · intro h; simp [multInvP, h]
  · intro ha
    obtain ⟨i, hi⟩ := invert_isOk hv.p_prime ha
    refine ⟨i, ?_, (invert_ok hi).1, (invert_cast hv.p_prime hi).2⟩
    unfold multInvP
    rw [if_neg, hi]
    rintro rfl; simp at ha

example : multInvP extraSmall 16 = .ok 108 := by decide

/-- C24 `negate_q`, for a non-zero in-range argument.  Missing from the full claim: the argument zero,
on which the code raises (`C24_negate_q_zero_fails`). -/
theorem C24_negate_q_partial (a : Nat) (h0 : 0 < a) (ha : a < P.q) :
    ∃ x, negateQ P a = .ok x ∧ x < P.q ∧ (x : ZMod P.q) = -(a : ZMod P.q) := by
  refine ⟨P.q - a, negateQ_ok h0 ha.le, by omega, ?_⟩
  rw [Nat.cast_sub ha.le]; simp

example : negateQ extraSmall 5 = .ok 8 := by decide

/-- C24, negative: `negate_q(0)` raises `OverflowError` although `0` is in range and `-0 = 0`. -/
theorem C24_negate_q_zero_fails : negateQ P 0 = .error .overflow := negateQ_zero

/-- C24 `is_in_bounds` is the check of the constructors, and `is_in_bounds_no_zero` holds exactly for the elements that the constructors
accept and that have an inverse. -/
theorem C24_in_bounds (hv : P.Valid) (a : Nat) :
    (inBoundsQ P a = true ↔ mkQ P a = .ok a) ∧ (inBoundsP P a = true ↔ mkP P a = .ok a) ∧
    (inBoundsNoZeroQ P a = true ↔ mkQ P a = .ok a ∧ ∃ b : Nat, (a * b) % P.q = 1) ∧
    (inBoundsNoZeroP P a = true ↔ mkP P a = .ok a ∧ ∃ b : Nat, (a * b) % P.p = 1) := by
  have key : ∀ m : Nat, m.Prime → ((1 ≤ a ∧ a < m) ↔ a < m ∧ ∃ b : Nat, (a * b) % m = 1) := by
    intro m hm
    refine ⟨fun h => ⟨h.2, ?_⟩, fun h => ⟨?_, h.1⟩⟩
    · have hc : Nat.Coprime a m := (Nat.coprime_of_lt_prime (by omega) h.2 hm).symm
      obtain ⟨b, hb⟩ := Nat.exists_mul_mod_eq_one_of_coprime hc hm.one_lt
      exact ⟨b, hb.2⟩
    · obtain ⟨b, hb⟩ := h.2
      rcases Nat.eq_zero_or_pos a with h0 | h0
      · subst h0; simp at hb
      · exact h0
  have okQ : mkQ P a = .ok a ↔ a < P.q := by
    unfold mkQ
    by_cases h : a < P.q
    · rw [if_pos ⟨by omega, by omega⟩]; simp [h]
    · rw [if_neg (by omega)]; simp [h]
  have okP : mkP P a = .ok a ↔ a < P.p := by
    unfold mkP
    by_cases h : a < P.p
    · rw [if_pos ⟨by omega, by omega⟩]; simp [h]
    · rw [if_neg (by omega)]; simp [h]
  unfold inBoundsQ inBoundsP inBoundsNoZeroQ inBoundsNoZeroP
  simp only [decide_eq_true_eq]
  rw [okQ, okP]
  exact ⟨Iff.rfl, Iff.rfl, key _ hv.q_prime, key _ hv.p_prime⟩

example : inBoundsNoZeroQ extraSmall 12 = true ∧ inBoundsNoZeroQ extraSmall 0 = false ∧ inBoundsNoZeroQ extraSmall 13 = false := by
  decide

/-- C25 An element passes `is_valid_residue` exactly when it is an in-range power of `g`. -/
theorem C25_valid_residue_iff (hv : P.Valid) (a : Nat) :
    isValidResidue P a = true ↔ ∃ e < P.q, a = P.g ^ e % P.p := by
  rw [isValidResidue_iff hv]
  constructor
  · rintro ⟨ha, hx⟩
    obtain ⟨e, he, hge⟩ := exists_log hv hx
    refine ⟨e, he, ?_⟩
    rw [← castP_inj ha (Nat.mod_lt _ hv.p_pos), ZMod.natCast_mod, ← hge]
    push_cast; rfl
  · rintro ⟨e, _, rfl⟩
    refine ⟨Nat.mod_lt _ hv.p_pos, ?_⟩
    rw [ZMod.natCast_mod]; push_cast
    rw [← pow_mul, mul_comm, pow_mul, g_cast_pow hv, one_pow]

example : isValidResidue extraSmall 16 = true := by decide
example : isValidResidue extraSmall 2 = false := by decide
example : isValidResidue extraSmall (16 + 157) = false := by decide

/-- C25 The exponent of a valid residue is unique below `q`. -/
theorem C25_exponent_unique (hv : P.Valid) {e e' : Nat} (he : e < P.q) (he' : e' < P.q)
    (h : gPowP P e = gPowP P e') : e = e' := by
  rw [← castP_inj (gPowP_lt hv.p_pos _) (gPowP_lt hv.p_pos _), gPowP_cast, gPowP_cast,
    g_pow_inj hv, castP_inj he he'] at h
  exact h

/-- C25 `mult_p` of valid residues is a valid residue. -/
theorem C25_mult_closed (hv : P.Valid) (l : List Nat)
    (h : ∀ a ∈ l, isValidResidue P a = true) : isValidResidue P (multPs P l) = true := by
  rw [isValidResidue_iff hv]
  refine ⟨multPs_lt hv.one_lt_p l, ?_⟩
  rw [multPs_cast]
  induction l with
  | nil => simp
  | cons a l ih =>
    rw [List.map_cons, List.prod_cons, mul_pow]
    rw [((isValidResidue_iff hv a).1 (h a (by simp))).2, ih (fun b hb => h b (by simp [hb])), one_mul]

/-- C25 `pow_p` of a valid residue is a valid residue, for every exponent. -/
theorem C25_pow_closed (hv : P.Valid) (a e : Nat) (h : isValidResidue P a = true) :
    isValidResidue P (powP P a e) = true := by
  rw [isValidResidue_iff hv] at h ⊢
  refine ⟨powP_lt hv.p_pos _ _, ?_⟩
  rw [powP_cast, ← pow_mul, mul_comm, pow_mul, h.2, one_pow]

/-- C25 `mult_inv_p` of a valid residue succeeds and is a valid residue. -/
theorem C25_inv_closed (hv : P.Valid) (a : Nat) (h : isValidResidue P a = true) :
    ∃ x, multInvP P a = .ok x ∧ isValidResidue P x = true ∧ multP P a x = 1 := by
  have : Fact P.p.Prime := ⟨hv.p_prime⟩
  rw [isValidResidue_iff hv] at h
  have ha : (a : ZMod P.p) ≠ 0 := by
    intro h0
    rw [h0, zero_pow hv.q_pos.ne'] at h
    exact zero_ne_one h.2
  obtain ⟨x, hx, hlt, hc⟩ := (C24_mult_inv_p hv a).2 ha
  refine ⟨x, hx, ?_, ?_⟩
  · rw [isValidResidue_iff hv]
    refine ⟨hlt, ?_⟩
    rw [hc, inv_pow, h.2, inv_one]
  · rw [← castP_inj (multP_lt hv.one_lt_p _ _) hv.one_lt_p, multP_cast, hc, mul_inv_cancel₀ ha]
    simp

/-- C25 every power of `g` is a valid residue. -/
theorem C25_g_pow_valid (hv : P.Valid) (e : Nat) : isValidResidue P (gPowP P e) = true := by
  rw [isValidResidue_iff hv]
  refine ⟨gPowP_lt hv.p_pos _, ?_⟩
  rw [gPowP_cast, ← pow_mul, mul_comm, pow_mul, g_cast_pow hv, one_pow]

end EG
