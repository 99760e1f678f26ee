import Mathlib.Data.ZMod.Basic
import Mathlib.FieldTheory.Finite.Basic
import Mathlib.RingTheory.RootsOfUnity.PrimitiveRoots
import Verif.Spec.Group

/-!
# Helper lemmas: naturals mod `p` as `ZMod p`
-/

namespace EG

variable {P : Params}

theorem Params.Valid.p_pos (hv : P.Valid) : 0 < P.p := hv.p_prime.pos
theorem Params.Valid.q_pos (hv : P.Valid) : 0 < P.q := hv.q_prime.pos
theorem Params.Valid.one_lt_p (hv : P.Valid) : 1 < P.p := hv.p_prime.one_lt
theorem Params.Valid.one_lt_q (hv : P.Valid) : 1 < P.q := hv.q_prime.one_lt

theorem Params.Valid.q_lt_p (hv : P.Valid) : P.q < P.p := by
  have h1 := hv.one_lt_p
  have := Nat.le_of_dvd (by omega) hv.q_dvd
  omega

theorem castP_inj {n a b : Nat} (ha : a < n) (hb : b < n) :
    ((a : ZMod n) = (b : ZMod n)) ↔ a = b := by
  rw [ZMod.natCast_eq_natCast_iff']
  rw [Nat.mod_eq_of_lt ha, Nat.mod_eq_of_lt hb]

/-! ### casts of the operations -/

theorem powP_cast (b e : Nat) : ((powP P b e : Nat) : ZMod P.p) = (b : ZMod P.p) ^ e := by
  simp [powP, ZMod.natCast_mod]

theorem powQ_cast (b e : Nat) : ((powQ P b e : Nat) : ZMod P.q) = (b : ZMod P.q) ^ e := by
  simp [powQ, ZMod.natCast_mod]

theorem gPowP_cast (e : Nat) : ((gPowP P e : Nat) : ZMod P.p) = (P.g : ZMod P.p) ^ e :=
  powP_cast _ _

theorem foldl_mul_cast (n : Nat) (l : List Nat) (s : Nat) :
    ((l.foldl (fun acc x => acc * x % n) s : Nat) : ZMod n)
      = s * (l.map (fun x : Nat => (x : ZMod n))).prod := by
  induction l generalizing s with
  | nil => simp
  | cons a l ih => simp [ih, ZMod.natCast_mod, mul_assoc]

theorem foldl_add_cast (n : Nat) (l : List Nat) (s : Nat) :
    ((l.foldl (fun acc x => (acc + x) % n) s : Nat) : ZMod n)
      = s + (l.map (fun x : Nat => (x : ZMod n))).sum := by
  induction l generalizing s with
  | nil => simp
  | cons a l ih => simp [ih, ZMod.natCast_mod, add_assoc]

theorem multPs_cast (l : List Nat) :
    ((multPs P l : Nat) : ZMod P.p) = (l.map (fun x : Nat => (x : ZMod P.p))).prod := by
  simp [multPs, foldl_mul_cast]

theorem multQs_cast (l : List Nat) :
    ((multQs P l : Nat) : ZMod P.q) = (l.map (fun x : Nat => (x : ZMod P.q))).prod := by
  simp [multQs, foldl_mul_cast]

theorem addQs_cast (l : List Nat) :
    ((addQs P l : Nat) : ZMod P.q) = (l.map (fun x : Nat => (x : ZMod P.q))).sum := by
  simp [addQs, foldl_add_cast]

theorem multP_cast (a b : Nat) : ((multP P a b : Nat) : ZMod P.p) = a * b := by
  simp [multP, multPs_cast]

theorem multQ_cast (a b : Nat) : ((multQ P a b : Nat) : ZMod P.q) = a * b := by
  simp [multQ, multQs_cast]

theorem addQ_cast (a b : Nat) : ((addQ P a b : Nat) : ZMod P.q) = a + b := by
  simp [addQ, addQs_cast]

theorem aPlusBCQ_cast (a b c : Nat) :
    ((aPlusBCQ P a b c : Nat) : ZMod P.q) = a + b * c := by
  simp [aPlusBCQ, ZMod.natCast_mod]

theorem emod_toNat_cast {n : Nat} (hn : 0 < n) (x : Int) :
    (((x % (n : Int)).toNat : Nat) : ZMod n) = (x : ZMod n) := by
  have hnn : 0 ≤ x % (n : Int) := Int.emod_nonneg _ (by omega)
  have : ((((x % (n : Int)).toNat : Nat) : Int) : ZMod n) = ((x % (n : Int) : Int) : ZMod n) := by
    rw [Int.toNat_of_nonneg hnn]
  rw [← Int.cast_natCast, this, ZMod.intCast_mod]

theorem aMinusBQ_cast (hq : 0 < P.q) (a b : Nat) :
    ((aMinusBQ P a b : Nat) : ZMod P.q) = a - b := by
  unfold aMinusBQ
  rw [emod_toNat_cast hq]; push_cast; rfl

/-! ### bounds -/

theorem powP_lt (hp : 0 < P.p) (b e : Nat) : powP P b e < P.p := Nat.mod_lt _ hp
theorem powQ_lt (hq : 0 < P.q) (b e : Nat) : powQ P b e < P.q := Nat.mod_lt _ hq
theorem gPowP_lt (hp : 0 < P.p) (e : Nat) : gPowP P e < P.p := powP_lt hp _ _

theorem foldl_mul_lt {n : Nat} (hn : 1 < n) (l : List Nat) (s : Nat) (hs : s < n) :
    l.foldl (fun acc x => acc * x % n) s < n := by
  induction l generalizing s with
  | nil => simpa
  | cons a l ih => exact ih _ (Nat.mod_lt _ (by omega))

theorem foldl_add_lt {n : Nat} (hn : 0 < n) (l : List Nat) (s : Nat) (hs : s < n) :
    l.foldl (fun acc x => (acc + x) % n) s < n := by
  induction l generalizing s with
  | nil => simpa
  | cons a l ih => exact ih _ (Nat.mod_lt _ (by omega))

theorem multPs_lt (hp : 1 < P.p) (l : List Nat) : multPs P l < P.p := foldl_mul_lt hp l 1 hp
theorem multQs_lt (hq : 1 < P.q) (l : List Nat) : multQs P l < P.q := foldl_mul_lt hq l 1 hq
theorem addQs_lt (hq : 0 < P.q) (l : List Nat) : addQs P l < P.q := foldl_add_lt hq l 0 hq
theorem multP_lt (hp : 1 < P.p) (a b : Nat) : multP P a b < P.p := multPs_lt hp _
theorem multQ_lt (hq : 1 < P.q) (a b : Nat) : multQ P a b < P.q := multQs_lt hq _
theorem addQ_lt (hq : 0 < P.q) (a b : Nat) : addQ P a b < P.q := addQs_lt hq _
theorem aPlusBCQ_lt (hq : 0 < P.q) (a b c : Nat) : aPlusBCQ P a b c < P.q := Nat.mod_lt _ hq
theorem aMinusBQ_lt (hq : 0 < P.q) (a b : Nat) : aMinusBQ P a b < P.q := by
  unfold aMinusBQ
  have h1 := Int.emod_nonneg ((a : Int) - b) (b := (P.q : Int)) (by omega)
  have h2 := Int.emod_lt_of_pos ((a : Int) - b) (b := (P.q : Int)) (by omega)
  omega

/-! ### the subgroup -/

section sub
variable (hv : P.Valid)
include hv

theorem g_cast_pow : (P.g : ZMod P.p) ^ P.q = 1 := by
  have h := hv.g_pow
  have h2 : ((P.g ^ P.q % P.p : Nat) : ZMod P.p) = ((1 : Nat) : ZMod P.p) := by rw [h]
  rw [ZMod.natCast_mod] at h2
  simpa using h2

theorem g_cast_ne_one : (P.g : ZMod P.p) ≠ 1 := by
  intro h
  have h' : ((P.g : Nat) : ZMod P.p) = ((1 : Nat) : ZMod P.p) := by simpa using h
  rw [castP_inj hv.g_lt hv.one_lt_p] at h'
  exact hv.g_ne_one h'

theorem g_primitive : IsPrimitiveRoot (P.g : ZMod P.p) P.q := by
  rw [IsPrimitiveRoot.iff_orderOf]
  have : Fact P.q.Prime := ⟨hv.q_prime⟩
  exact orderOf_eq_prime (g_cast_pow hv) (g_cast_ne_one hv)

theorem isValidResidue_iff (a : Nat) :
    isValidResidue P a = true ↔ a < P.p ∧ (a : ZMod P.p) ^ P.q = 1 := by
  unfold isValidResidue inBoundsP
  simp only [Bool.and_eq_true, decide_eq_true_eq, beq_iff_eq]
  have : powP P a P.q = 1 ↔ (a : ZMod P.p) ^ P.q = 1 := by
    rw [← powP_cast, show (1 : ZMod P.p) = ((1 : Nat) : ZMod P.p) by simp,
      castP_inj (powP_lt hv.p_pos _ _) hv.one_lt_p]
  rw [this]

/-- Every element of order dividing `q` is a power of `g`. -/
theorem exists_log {x : ZMod P.p} (hx : x ^ P.q = 1) : ∃ e < P.q, (P.g : ZMod P.p) ^ e = x := by
  have : Fact P.p.Prime := ⟨hv.p_prime⟩
  have : NeZero P.q := ⟨hv.q_pos.ne'⟩
  exact (g_primitive hv).eq_pow_of_pow_eq_one hx

theorem g_pow_inj {a b : Nat} :
    (P.g : ZMod P.p) ^ a = (P.g : ZMod P.p) ^ b ↔ (a : ZMod P.q) = (b : ZMod P.q) := by
  have hfin : IsOfFinOrder (P.g : ZMod P.p) :=
    isOfFinOrder_iff_pow_eq_one.2 ⟨P.q, hv.q_pos, g_cast_pow hv⟩
  rw [hfin.pow_eq_pow_iff_modEq, ← (g_primitive hv).eq_orderOf, ZMod.natCast_eq_natCast_iff]

end sub

/-- Powers of an element of order dividing `q` only depend on the exponent mod `q`. -/
theorem pow_congr_mod {n q : Nat} {x : ZMod n} (hx : x ^ q = 1) {a b : Nat}
    (h : (a : ZMod q) = (b : ZMod q)) : x ^ a = x ^ b := by
  rw [ZMod.natCast_eq_natCast_iff'] at h
  rw [← Nat.div_add_mod a q, ← Nat.div_add_mod b q, h]
  simp [pow_add, pow_mul, hx]

theorem pow_mod_of {n q : Nat} {x : ZMod n} (hx : x ^ q = 1) (a : Nat) :
    x ^ (a % q) = x ^ a :=
  pow_congr_mod hx (by simp [ZMod.natCast_mod])

end EG
