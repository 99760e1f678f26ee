import Verif.Spec.Ddh
import Verif.Lemmas.Group
import Verif.Lemmas.ChaumPedersen
import Mathlib.Data.List.GetD
import Mathlib.Algebra.Order.BigOperators.Ring.Finset
import Verif.Props.ElGamal
import Mathlib.Tactic.Ring

/-!
# C100: ciphertexts reveal the votes only to those who can solve decisional Diffie-Hellman
-/

namespace EG

open Finset

variable {P : Params}

theorem encSum_zero_fun (R : Finset Nat) (K : Nat) (ms : List Nat) : encSum P R K ms (fun _ => 0) = 0 := by
  induction ms with
  | nil => rfl
  | cons m ms ih =>
    rw [encSum]
    refine Finset.sum_eq_zero fun r _ => ?_
    cases elgamalEncrypt P m r K with
    | none => rfl
    | some c => exact ih

theorem encSum_add (R : Finset Nat) (K : Nat) (ms : List Nat) (F G : List Ciphertext → Int) :
    encSum P R K ms (fun a => F a + G a) = encSum P R K ms F + encSum P R K ms G := by
  induction ms generalizing F G with
  | nil => rfl
  | cons m ms ih =>
    rw [encSum, encSum, encSum, ← Finset.sum_add_distrib]
    refine Finset.sum_congr rfl fun r _ => ?_
    cases elgamalEncrypt P m r K with
    | none => rfl
    | some c => exact ih _ _

theorem encSum_sum {ι : Type} (R : Finset Nat) (K : Nat) (ms : List Nat) (S : Finset ι)
    (F : ι → List Ciphertext → Int) :
    encSum P R K ms (fun a => ∑ i ∈ S, F i a) = ∑ i ∈ S, encSum P R K ms (F i) := by
  classical
  induction S using Finset.induction_on with
  | empty => simpa using encSum_zero_fun R K ms
  | insert i S hi ih =>
    simp only [Finset.sum_insert hi]
    rw [encSum_add, ih]

theorem encSum_append (R : Finset Nat) (K : Nat) (as bs : List Nat) (F : List Ciphertext → Int) :
    encSum P R K (as ++ bs) F = encSum P R K as (fun a => encSum P R K bs (fun b => F (a ++ b))) := by
  induction as generalizing F with
  | nil => rfl
  | cons m as ih =>
    rw [List.cons_append, encSum, encSum]
    refine Finset.sum_congr rfl fun r _ => ?_
    cases elgamalEncrypt P m r K with
    | none => rfl
    | some c => exact ih _

theorem encrypt_dh (hv : P.Valid) (m r x : Nat) (hr : r ≠ 0) :
    elgamalEncrypt P m r (P.g ^ x % P.p)
      = some ⟨P.g ^ r % P.p, P.g ^ (x * r) % P.p * P.g ^ m % P.p⟩ := by
  have hp : 1 < P.p := hv.p_prime.one_lt
  unfold elgamalEncrypt
  rw [if_neg hr]
  simp only [Option.some.injEq, Ciphertext.mk.injEq]
  refine ⟨rfl, ?_⟩
  rw [← castP_inj (multP_lt hp _ _) (Nat.mod_lt _ (by omega)), multP_cast, powP_cast, gPowP_cast]
  simp only [ZMod.natCast_mod, Nat.cast_mul, Nat.cast_pow]
  rw [← pow_mul]; ring

/-- One message between others: the sum over its nonces comes out. -/
theorem encSum_middle (hv : P.Valid) (R : Finset Nat) (hR : ∀ r ∈ R, r ≠ 0) (x : Nat) (as : List Nat) (m : Nat)
    (bs : List Nat) (D : Nat → List Ciphertext → Int) :
    encSum P R (P.g ^ x % P.p) (as ++ m :: bs) (D (P.g ^ x % P.p))
      = ∑ r ∈ R, adversaryOf P R D as m bs (P.g ^ x % P.p) (P.g ^ r % P.p) (P.g ^ (x * r) % P.p) := by
  rw [encSum_append]
  simp only [adversaryOf]
  rw [← encSum_sum]
  congr 1
  funext a
  rw [encSum]
  refine Finset.sum_congr rfl fun r hr => ?_
  rw [encrypt_dh hv m r x (hR r hr)]

theorem seen_real (hv : P.Valid) (X R : Finset Nat) (hR : ∀ r ∈ R, r ≠ 0) (as : List Nat) (m : Nat) (bs : List Nat)
    (D : Nat → List Ciphertext → Int) :
    seen P X R D (as ++ m :: bs) = ddhReal P X R (adversaryOf P R D as m bs) := by
  unfold seen ddhReal
  exact Finset.sum_congr rfl fun x _ => encSum_middle hv R hR x as m bs D

theorem g_pow_modq (hv : P.Valid) (e : Nat) : P.g ^ (e % P.q) % P.p = P.g ^ e % P.p := by
  have hp : 1 < P.p := hv.p_prime.one_lt
  rw [← castP_inj (Nat.mod_lt _ (by omega)) (Nat.mod_lt _ (by omega))]
  simp only [ZMod.natCast_mod, Nat.cast_pow]
  exact (g_eq_iff hv _ _).2 (by simp)

/-- Summed over all exponents, a shift of the exponent makes no difference. -/
theorem sum_shift (hv : P.Valid) (m : Nat) (f : Nat → Int) :
    ∑ z ∈ range P.q, f (P.g ^ z % P.p * P.g ^ m % P.p) = ∑ z ∈ range P.q, f (P.g ^ z % P.p) := by
  have hq : 0 < P.q := hv.q_prime.pos
  refine Finset.sum_bij' (fun z _ => (z + m) % P.q) (fun z _ => (z + (P.q - m % P.q)) % P.q)
    (fun z _ => mem_range.2 (Nat.mod_lt _ hq)) (fun z _ => mem_range.2 (Nat.mod_lt _ hq)) ?_ ?_ ?_
  · intro z hz
    have hz := mem_range.1 hz
    have hm : m % P.q < P.q := Nat.mod_lt _ hq
    rw [Nat.mod_add_mod, show z + m + (P.q - m % P.q) = z + P.q * (m / P.q + 1) by
      have := Nat.mod_add_div m P.q
      rw [Nat.mul_add]; omega]
    rw [Nat.add_mul_mod_self_left]
    exact Nat.mod_eq_of_lt hz
  · intro z hz
    have hz := mem_range.1 hz
    have hm : m % P.q < P.q := Nat.mod_lt _ hq
    rw [Nat.mod_add_mod, show z + (P.q - m % P.q) + m = z + P.q * (m / P.q + 1) by
      have := Nat.mod_add_div m P.q
      rw [Nat.mul_add]; omega]
    rw [Nat.add_mul_mod_self_left]
    exact Nat.mod_eq_of_lt hz
  · intro z _
    rw [g_pow_modq hv, Nat.pow_add]
    congr 1
    rw [Nat.mod_mul_mod]

/-- On triples with an unrelated third element the adversaries for two messages answer alike. -/
theorem random_same (hv : P.Valid) (X R : Finset Nat) (as : List Nat) (m m' : Nat) (bs : List Nat)
    (D : Nat → List Ciphertext → Int) :
    ddhRandom P X R (adversaryOf P R D as m bs) = ddhRandom P X R (adversaryOf P R D as m' bs) := by
  unfold ddhRandom
  refine Finset.sum_congr rfl fun x _ => Finset.sum_congr rfl fun r _ => ?_
  have h := fun m => sum_shift hv m (fun w => encSum P R (P.g ^ x % P.p) as fun a =>
    encSum P R (P.g ^ x % P.p) bs fun b => D (P.g ^ x % P.p) (a ++ ⟨P.g ^ r % P.p, w⟩ :: b))
  exact (h m).trans (h m').symm

/-- One message between others. -/
theorem C100_one (hv : P.Valid) (X R : Finset Nat) (hR : ∀ r ∈ R, r ≠ 0) (before : List Nat) (m m' : Nat)
    (after : List Nat) (D : Nat → List Ciphertext → Int) :
    P.q * (seen P X R D (before ++ m :: after) - seen P X R D (before ++ m' :: after))
      = ddhAdvantage P X R (adversaryOf P R D before m after)
        - ddhAdvantage P X R (adversaryOf P R D before m' after) := by
  rw [seen_real hv X R hR, seen_real hv X R hR]
  unfold ddhAdvantage
  rw [random_same hv X R before m m' after D]
  ring

theorem hybrid_aux (hv : P.Valid) (X R : Finset Nat) (hR : ∀ r ∈ R, r ≠ 0) (D : Nat → List Ciphertext → Int)
    (ms ms' : List Nat) (hl : ms.length = ms'.length) (n : Nat) (hn : n ≤ ms.length) :
    P.q * (seen P X R D ms - seen P X R D (ms'.take n ++ ms.drop n))
      = ∑ i ∈ range n, (ddhAdvantage P X R (adversaryOf P R D (ms'.take i) (ms.getD i 0) (ms.drop (i + 1)))
          - ddhAdvantage P X R (adversaryOf P R D (ms'.take i) (ms'.getD i 0) (ms.drop (i + 1)))) := by
  induction n with
  | zero => simp
  | succ n ih =>
    rw [Finset.sum_range_succ, ← ih (by omega)]
    have h1 : ms.drop n = ms.getD n 0 :: ms.drop (n + 1) := by
      rw [List.getD_eq_getElem _ _ (by omega), List.drop_eq_getElem_cons (by omega)]
    have h2 : ms'.take (n + 1) = ms'.take n ++ [ms'.getD n 0] := by
      rw [List.getD_eq_getElem _ _ (by omega), List.take_append_getElem]
    rw [← C100_one hv X R hR (ms'.take n) (ms.getD n 0) (ms'.getD n 0) (ms.drop (n + 1)) D, h1, h2,
      List.append_assoc, List.singleton_append]
    ring

/-- C100: how differently any observer answers on the ciphertexts of two lists of votes is exactly what explicit
adversaries, one pair for each vote, gain over guessing in decisional Diffie-Hellman. -/
theorem C100_private (hv : P.Valid) (X R : Finset Nat) (hR : ∀ r ∈ R, r ≠ 0) (D : Nat → List Ciphertext → Int)
    (ms ms' : List Nat) (hl : ms.length = ms'.length) :
    P.q * (seen P X R D ms - seen P X R D ms')
      = ∑ i ∈ range ms.length,
          (ddhAdvantage P X R (adversaryOf P R D (ms'.take i) (ms.getD i 0) (ms.drop (i + 1)))
            - ddhAdvantage P X R (adversaryOf P R D (ms'.take i) (ms'.getD i 0) (ms.drop (i + 1)))) := by
  have := hybrid_aux hv X R hR D ms ms' hl ms.length le_rfl
  rwa [hl, List.take_length, ← hl, List.drop_length, List.append_nil] at this

/-- C100: if each of these adversaries gains at most `ε`, the observer's answers differ by at most `2 ε` for each vote. -/
theorem C100_bound (hv : P.Valid) (X R : Finset Nat) (hR : ∀ r ∈ R, r ≠ 0) (D : Nat → List Ciphertext → Int)
    (ms ms' : List Nat) (hl : ms.length = ms'.length) (ε : Int)
    (hε : ∀ i < ms.length, ∀ m ∈ [ms.getD i 0, ms'.getD i 0],
      |ddhAdvantage P X R (adversaryOf P R D (ms'.take i) m (ms.drop (i + 1)))| ≤ ε) :
    P.q * |seen P X R D ms - seen P X R D ms'| ≤ 2 * ms.length * ε := by
  have hq : |((P.q : Nat) : Int)| = P.q := abs_of_nonneg (by positivity)
  rw [show (P.q : Int) * |seen P X R D ms - seen P X R D ms'|
    = |(P.q : Int) * (seen P X R D ms - seen P X R D ms')| by rw [abs_mul, hq], C100_private hv X R hR D ms ms' hl]
  refine (Finset.abs_sum_le_sum_abs _ _).trans ?_
  refine (Finset.sum_le_sum (g := fun _ => 2 * ε) fun i hi => ?_).trans ?_
  · have h1 := hε i (mem_range.1 hi) _ (List.mem_cons_self ..)
    have h2 := hε i (mem_range.1 hi) (ms'.getD i 0) (by simp)
    exact (abs_sub _ _).trans (by linarith)
  · rw [Finset.sum_const, Finset.card_range, nsmul_eq_mul]
    exact le_of_eq (by ring)

/-- An observer who finds discrete logarithms by trying all nonces: is the vote zero? -/
def zeroVote (P : Params) (K : Nat) : List Ciphertext → Int
  | [c] => if ((List.range P.q).any fun r => P.g ^ r % P.p == c.pad && K ^ r % P.p == c.data) then 1 else 0
  | _ => 0

/-- Such an observer tells all 132 encryptions of 0 from all 132 encryptions of 1 in a group of 13 elements, and the two
adversaries made of the observer gain exactly 13 times as much. -/
example : seen extraSmall (Ico 2 13) (Ico 1 13) (zeroVote extraSmall) [0] = 132 ∧
    seen extraSmall (Ico 2 13) (Ico 1 13) (zeroVote extraSmall) [1] = 0 ∧
    ddhAdvantage extraSmall (Ico 2 13) (Ico 1 13) (adversaryOf extraSmall (Ico 1 13) (zeroVote extraSmall) [] 0 [])
      - ddhAdvantage extraSmall (Ico 2 13) (Ico 1 13)
          (adversaryOf extraSmall (Ico 1 13) (zeroVote extraSmall) [] 1 []) = 13 * 132 := by
  have h0 : seen extraSmall (Ico 2 13) (Ico 1 13) (zeroVote extraSmall) [0] = 132 := by decide +kernel
  have h1 : seen extraSmall (Ico 2 13) (Ico 1 13) (zeroVote extraSmall) [1] = 0 := by decide +kernel
  refine ⟨h0, h1, ?_⟩
  have := C100_one extraSmall_valid (Ico 2 13) (Ico 1 13) (by simp; omega) [] 0 1 [] (zeroVote extraSmall)
  rw [← this]
  show (13 : Int) * (seen extraSmall (Ico 2 13) (Ico 1 13) (zeroVote extraSmall) [0]
    - seen extraSmall (Ico 2 13) (Ico 1 13) (zeroVote extraSmall) [1]) = 13 * 132
  rw [h0, h1]; rfl

end EG
