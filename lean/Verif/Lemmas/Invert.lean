import Verif.Lemmas.Group

/-!
# Helper lemmas: modular inverse, negation, integer products
-/

namespace EG

variable {P : Params}

theorem invert_ok {b m x : Nat} (h : invert b m = .ok x) : x < m ∧ b * x % m = 1 % m := by
  unfold invert at h
  split at h
  · next y hy =>
    cases h
    have h1 := List.mem_of_find?_eq_some hy
    have h2 := List.find?_some hy
    simp at h1 h2
    exact ⟨h1, h2⟩
  · cases h

theorem invert_isOk {b m : Nat} (hm : m.Prime) (hb : (b : ZMod m) ≠ 0) :
    ∃ x, invert b m = .ok x := by
  have : Fact m.Prime := ⟨hm⟩
  unfold invert
  split
  · next y hy => exact ⟨y, rfl⟩
  · next hn =>
    exfalso
    rw [List.find?_eq_none] at hn
    have := hn ((b : ZMod m)⁻¹).val (by simpa using ZMod.val_lt _)
    apply this
    simp only [beq_iff_eq]
    have h1 : ((b * ((b : ZMod m)⁻¹).val : Nat) : ZMod m) = ((1 : Nat) : ZMod m) := by
      push_cast
      rw [ZMod.natCast_val, ZMod.cast_id', id, mul_inv_cancel₀ hb]
    exact (ZMod.natCast_eq_natCast_iff' _ _ _).1 h1

theorem invert_cast {b m x : Nat} (hm : m.Prime) (h : invert b m = .ok x) :
    (b : ZMod m) ≠ 0 ∧ (x : ZMod m) = (b : ZMod m)⁻¹ := by
  have : Fact m.Prime := ⟨hm⟩
  obtain ⟨_, h2⟩ := invert_ok h
  have h3 : ((b * x : Nat) : ZMod m) = ((1 : Nat) : ZMod m) :=
    (ZMod.natCast_eq_natCast_iff' _ _ _).2 h2
  push_cast at h3
  have hb : (b : ZMod m) ≠ 0 := by
    intro h0; rw [h0, zero_mul] at h3; exact zero_ne_one h3
  refine ⟨hb, ?_⟩
  exact eq_inv_of_mul_eq_one_right h3

theorem invert_error {b m : Nat} (hm : m.Prime) (hb : (b : ZMod m) = 0) :
    invert b m = .error .zeroDiv := by
  cases h : invert b m with
  | ok x => exact absurd hb (invert_cast hm h).1
  | error e =>
    unfold invert at h
    split at h
    · cases h
    · cases h; rfl

theorem castQ_eq_zero {q a : Nat} (ha : a < q) : ((a : ZMod q) = 0) ↔ a = 0 := by
  rw [show (0 : ZMod q) = ((0 : Nat) : ZMod q) by simp]
  exact castP_inj ha (by omega)

theorem negateQ_ok {a : Nat} (h0 : 0 < a) (hlt : a ≤ P.q) :
    negateQ P a = .ok (P.q - a) := by
  unfold negateQ mkQ
  rw [if_pos (by omega)]
  congr 1; omega

theorem negateQ_zero : negateQ P 0 = .error .overflow := by
  unfold negateQ mkQ
  rw [if_neg (by omega)]

theorem foldl_mulInt_cast (n : Nat) (l : List Int) (s : Int) :
    ((l.foldl (fun acc x => acc * x % (n : Int)) s : Int) : ZMod n)
      = s * (l.map (fun x : Int => (x : ZMod n))).prod := by
  induction l generalizing s with
  | nil => simp
  | cons a l ih => simp [ih, mul_assoc]

theorem foldl_mulInt_nonneg {n : Nat} (hn : 0 < n) (l : List Int) (s : Int) (hs : 0 ≤ s) :
    0 ≤ l.foldl (fun acc x => acc * x % (n : Int)) s := by
  induction l generalizing s with
  | nil => simpa
  | cons a l ih => exact ih _ (Int.emod_nonneg _ (by omega))

theorem multQsInt_cast (hq : 0 < P.q) (l : List Int) :
    ((multQsInt P l : Nat) : ZMod P.q) = (l.map (fun x : Int => (x : ZMod P.q))).prod := by
  unfold multQsInt
  have h := foldl_mulInt_cast P.q l 1
  have hn := foldl_mulInt_nonneg hq l 1 (by decide)
  rw [← Int.cast_natCast, Int.toNat_of_nonneg hn, h]
  simp

theorem mkQ_ok {v : Int} {x : Nat} (h : mkQ P v = .ok x) : x < P.q ∧ (x : Int) = v := by
  unfold mkQ at h
  split at h
  · cases h; constructor <;> omega
  · cases h

theorem mkQ_nat {v : Nat} (h : v < P.q) : mkQ P (v : Int) = .ok v := by
  unfold mkQ; rw [if_pos (by omega)]; simp

theorem mkP_ok {v : Int} {x : Nat} (h : mkP P v = .ok x) : x < P.p ∧ (x : Int) = v := by
  unfold mkP at h
  split at h
  · cases h; constructor <;> omega
  · cases h

end EG
