import Mathlib.Data.ZMod.Units
import Mathlib.FieldTheory.Finite.Basic
import Mathlib.Tactic.NormNum.Prime
import Mathlib.GroupTheory.OrderOfElement

/-!
# Primality certificates

Fast modular exponentiation and Pocklington's criterion, used to prove that the constants in
`constants.py` are prime.
-/

namespace EG

/-- square-and-multiply: `acc * b^e mod n`; the first argument bounds the recursion -/
def powModAux (n : Nat) : Nat → Nat → Nat → Nat → Nat
  | 0, _, _, acc => acc
  | f + 1, b, e, acc =>
    if e = 0 then acc
    else powModAux n f (b * b % n) (e / 2) (if e % 2 = 1 then acc * b % n else acc)

/-- `b^e mod n` -/
def powMod (n b e : Nat) : Nat := powModAux n (e.log2 + 1) (b % n) e (1 % n)

theorem powModAux_cast (n f b e acc : Nat) (he : e < 2 ^ f) :
    ((powModAux n f b e acc : Nat) : ZMod n) = acc * (b : ZMod n) ^ e := by
  induction f generalizing b e acc with
  | zero => simp at he; subst he; simp [powModAux]
  | succ f ih =>
    rw [powModAux]
    split
    · rename_i h; subst h; simp
    · rw [ih _ _ _ (by rw [pow_succ] at he; omega)]
      have h2 : (b : ZMod n) ^ e = (b : ZMod n) ^ (e % 2) * ((b : ZMod n) * b) ^ (e / 2) := by
        conv_lhs => rw [← Nat.mod_add_div e 2]
        rw [pow_add, pow_mul, sq]
      rw [h2, ZMod.natCast_mod, Nat.cast_mul]
      split
      · rename_i h; rw [h, ZMod.natCast_mod]; push_cast; ring
      · rename_i h; rw [show e % 2 = 0 by omega]; ring

theorem powModAux_lt (n f b e acc : Nat) (hn : 0 < n) (ha : acc < n) : powModAux n f b e acc < n := by
  induction f generalizing b e acc with
  | zero => exact ha
  | succ f ih =>
    rw [powModAux]
    split
    · exact ha
    · apply ih
      split
      · exact Nat.mod_lt _ hn
      · exact ha

theorem powMod_cast (n b e : Nat) : ((powMod n b e : Nat) : ZMod n) = (b : ZMod n) ^ e := by
  rw [powMod, powModAux_cast]
  · rw [ZMod.natCast_mod, ZMod.natCast_mod]; simp
  · rcases Nat.eq_zero_or_pos e with rfl | h
    · simp
    · exact Nat.lt_log2_self

theorem powMod_eq (n b e : Nat) (hn : 0 < n) : powMod n b e = b ^ e % n := by
  have h := powMod_cast n b e
  have h2 : ((powMod n b e : Nat) : ZMod n) = ((b ^ e : Nat) : ZMod n) := by rw [h]; push_cast; rfl
  rw [ZMod.natCast_eq_natCast_iff'] at h2
  rw [← h2, Nat.mod_eq_of_lt]
  exact powModAux_lt n _ _ _ _ hn (Nat.mod_lt _ hn)

/-- the numerical conditions of the certificate: `(r, a)` lists prime factors of `n - 1` with a witness -/
def certOk (n : Nat) (cert : List (Nat × Nat)) : Bool :=
  let F := (cert.map Prod.fst).prod
  decide (1 < n) && decide ((n - 1) % F = 0) && decide (n < F * F) && decide ((cert.map Prod.fst).Nodup) &&
  cert.all (fun ra => decide (powMod n ra.2 (n - 1) = 1) &&
    decide (Nat.gcd (powMod n ra.2 ((n - 1) / ra.1) + (n - 1)) n = 1))

/-- Pocklington's criterion with distinct prime factors of `n - 1`. -/
theorem pocklington (n : Nat) (cert : List (Nat × Nat)) (hpr : ∀ r ∈ cert.map Prod.fst, Nat.Prime r)
    (hc : certOk n cert = true) : n.Prime := by
  simp only [certOk, Bool.and_eq_true, decide_eq_true_eq, List.all_eq_true] at hc
  obtain ⟨⟨⟨⟨hn, hF⟩, hsq⟩, hnd⟩, hw⟩ := hc
  set F := (cert.map Prod.fst).prod
  by_contra hnp
  set p := n.minFac with hp
  have hpp : p.Prime := Nat.minFac_prime (by omega)
  have hpn : p ∣ n := Nat.minFac_dvd n
  have hfact : Fact p.Prime := ⟨hpp⟩
  -- every listed prime divides p - 1
  have key : ∀ r ∈ cert.map Prod.fst, r ∣ p - 1 := by
    intro r hr
    obtain ⟨ra, hra, rfl⟩ := List.mem_map.1 hr
    obtain ⟨r, a⟩ := ra
    obtain ⟨h1, h2⟩ := hw _ hra
    simp only at h1 h2 hr ⊢
    have hrp := hpr r hr
    have hrn : r ∣ n - 1 := (List.dvd_prod hr).trans (Nat.dvd_of_mod_eq_zero hF)
    -- transfer to ZMod p
    have cast : ∀ x e : Nat, powMod n a e = x → (a : ZMod p) ^ e = (x : ZMod p) := by
      intro x e h
      have : ((a ^ e : Nat) : ZMod n) = (x : ZMod n) := by rw [← h, powMod_cast]; push_cast; rfl
      rw [ZMod.natCast_eq_natCast_iff] at this
      have := this.of_dvd hpn
      rw [← ZMod.natCast_eq_natCast_iff] at this
      rw [← this]; push_cast; rfl
    have e1 : (a : ZMod p) ^ (n - 1) = 1 := by rw [cast 1 _ h1]; simp
    have e2 : (a : ZMod p) ^ ((n - 1) / r) ≠ 1 := by
      intro h
      rw [cast _ _ rfl] at h
      have hd : p ∣ powMod n a ((n - 1) / r) + (n - 1) := by
        rw [← ZMod.natCast_eq_zero_iff]
        have hn0 : ((n : Nat) : ZMod p) = 0 := (ZMod.natCast_eq_zero_iff _ _).2 hpn
        push_cast
        rw [h, Nat.cast_sub hn.le, hn0]; simp
      have := Nat.dvd_gcd hd hpn
      rw [h2] at this
      exact hpp.one_lt.ne' (Nat.dvd_one.1 this)
    have ha0 : (a : ZMod p) ≠ 0 := by
      intro h
      rw [h, zero_pow (by omega)] at e1
      exact zero_ne_one e1
    by_contra hnd
    apply e2
    have hcop : Nat.Coprime (p - 1) r := ((Nat.Prime.coprime_iff_not_dvd hrp).2 hnd).symm
    have h3 : (a : ZMod p) ^ (p - 1) = 1 := ZMod.pow_card_sub_one_eq_one ha0
    have ho1 : orderOf (a : ZMod p) ∣ n - 1 := orderOf_dvd_of_pow_eq_one e1
    have ho2 : orderOf (a : ZMod p) ∣ p - 1 := orderOf_dvd_of_pow_eq_one h3
    apply orderOf_dvd_iff_pow_eq_one.1
    have hc2 : Nat.Coprime (orderOf (a : ZMod p)) r := Nat.Coprime.coprime_dvd_left ho2 hcop
    apply hc2.dvd_of_dvd_mul_left
    rwa [Nat.mul_div_cancel' hrn]
  have hFp : F ∣ p - 1 := by
    have : ∀ l : List Nat, l.Nodup → (∀ r ∈ l, Nat.Prime r) → (∀ r ∈ l, r ∣ p - 1) → l.prod ∣ p - 1 := by
      intro l
      induction l with
      | nil => simp
      | cons r l ih =>
        intro hnd hpr hdv
        rw [List.prod_cons]
        apply Nat.Coprime.mul_dvd_of_dvd_of_dvd
        · rw [Nat.coprime_list_prod_right_iff]
          intro s hs
          rw [Nat.coprime_primes (hpr r (by simp)) (hpr s (by simp [hs]))]
          rintro rfl
          exact (List.nodup_cons.1 hnd).1 hs
        · exact hdv r (by simp)
        · exact ih (List.nodup_cons.1 hnd).2 (fun s hs => hpr s (by simp [hs])) (fun s hs => hdv s (by simp [hs]))
    exact this _ hnd hpr key
  have hFlt : F ≤ p - 1 := Nat.le_of_dvd (by have := hpp.two_le; omega) hFp
  have hmin : p * p ≤ n := by
    have := Nat.minFac_sq_le_self (by omega) hnp
    rwa [sq] at this
  have : F * F ≤ p * p := Nat.mul_le_mul (by omega) (by omega)
  omega

theorem prime_973591 : Nat.Prime 973591 := by norm_num

theorem prime_87881 : Nat.Prime 87881 := by norm_num

theorem prime_36151 : Nat.Prime 36151 := by norm_num

theorem prime_74bit : Nat.Prime 14220365526706201077871 := by
  refine pocklington _ [(973591, 2), (87881, 2), (36151, 2)] ?_ ?_
  · intro r hr
    simp only [List.map_cons, List.map_nil, List.mem_cons, List.not_mem_nil, or_false] at hr
    rcases hr with rfl | rfl | rfl
    · exact prime_973591
    · exact prime_87881
    · exact prime_36151
  · decide +kernel

theorem prime_702529 : Nat.Prime 702529 := by norm_num

theorem prime_10262543633 : Nat.Prime 10262543633 := by
  refine pocklington _ [(702529, 2)] ?_ ?_
  · intro r hr
    simp only [List.map_cons, List.map_nil, List.mem_cons, List.not_mem_nil, or_false] at hr
    rcases hr with rfl
    · exact prime_702529
  · decide +kernel

theorem prime_246301047193 : Nat.Prime 246301047193 := by
  refine pocklington _ [(10262543633, 2)] ?_ ?_
  · intro r hr
    simp only [List.map_cons, List.map_nil, List.mem_cons, List.not_mem_nil, or_false] at hr
    rcases hr with rfl
    · exact prime_10262543633
  · decide +kernel

theorem prime_68964293214041 : Nat.Prime 68964293214041 := by
  refine pocklington _ [(246301047193, 2)] ?_ ?_
  · intro r hr
    simp only [List.map_cons, List.map_nil, List.mem_cons, List.not_mem_nil, or_false] at hr
    rcases hr with rfl
    · exact prime_246301047193
  · decide +kernel

theorem prime_65bit : Nat.Prime 23236691026952546459 := by
  refine pocklington _ [(68964293214041, 2)] ?_ ?_
  · intro r hr
    simp only [List.map_cons, List.map_nil, List.mem_cons, List.not_mem_nil, or_false] at hr
    rcases hr with rfl
    · exact prime_68964293214041
  · decide +kernel

theorem prime_189bit : Nat.Prime 440208639276132997491800604758226661590679912188273141493 := by
  refine pocklington _ [(14220365526706201077871, 2), (23236691026952546459, 2)] ?_ ?_
  · intro r hr
    simp only [List.map_cons, List.map_nil, List.mem_cons, List.not_mem_nil, or_false] at hr
    rcases hr with rfl | rfl
    · exact prime_74bit
    · exact prime_65bit
  · decide +kernel

theorem prime_256bit : Nat.Prime 115792089237316195423570985008687907853269984665640564039457584007913129639747 := by
  refine pocklington _ [(440208639276132997491800604758226661590679912188273141493, 2)] ?_ ?_
  · intro r hr
    simp only [List.map_cons, List.map_nil, List.mem_cons, List.not_mem_nil, or_false] at hr
    rcases hr with rfl
    · exact prime_189bit
  · decide +kernel

theorem prime_21391 : Nat.Prime 21391 := by norm_num

theorem prime_29 : Nat.Prime 29 := by norm_num

theorem prime_51450916661 : Nat.Prime 51450916661 := by
  refine pocklington _ [(21391, 2), (29, 2)] ?_ ?_
  · intro r hr
    simp only [List.map_cons, List.map_nil, List.mem_cons, List.not_mem_nil, or_false] at hr
    rcases hr with rfl | rfl
    · exact prime_21391
    · exact prime_29
  · decide +kernel

theorem prime_70384853992249 : Nat.Prime 70384853992249 := by
  refine pocklington _ [(51450916661, 2)] ?_ ?_
  · intro r hr
    simp only [List.map_cons, List.map_nil, List.mem_cons, List.not_mem_nil, or_false] at hr
    rcases hr with rfl
    · exact prime_51450916661
  · decide +kernel

theorem prime_64bit : Nat.Prime 18446744073704586917 := by
  refine pocklington _ [(70384853992249, 2)] ?_ ?_
  · intro r hr
    simp only [List.map_cons, List.map_nil, List.mem_cons, List.not_mem_nil, or_false] at hr
    rcases hr with rfl
    · exact prime_70384853992249
  · decide +kernel

theorem prime_65521 : Nat.Prime 65521 := by norm_num

theorem prime_32633 : Nat.Prime 32633 := by norm_num

theorem prime_65267 : Nat.Prime 65267 := by norm_num

end EG
