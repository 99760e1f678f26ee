import Verif.Spec.Coalition
import Verif.Props.BallotPrivacy
import Verif.Props.Polynomial
import Mathlib.Tactic.LinearCombination

/-!
# C103: fewer guardians than the quorum learn nothing but the results unless they solve decisional Diffie-Hellman
-/

namespace EG

open Finset

variable {P : Params}

/-! ### Lists of numbers -/

theorem mem_allLists {q n : Nat} {l : List Nat} : l ∈ allLists q n ↔ l.length = n ∧ ∀ a ∈ l, a < q := by
  induction n generalizing l with
  | zero => simp [allLists]; rintro rfl; simp
  | succ n ih =>
    simp only [allLists, mem_image, mem_product, mem_range, Prod.exists]
    constructor
    · rintro ⟨a, as, ⟨h1, h2⟩, rfl⟩
      obtain ⟨h3, h4⟩ := ih.1 h2
      exact ⟨by simp [h3], by simpa using ⟨h1, h4⟩⟩
    · rintro ⟨h1, h2⟩
      cases l with
      | nil => simp at h1
      | cons a as =>
        simp only [List.mem_cons, forall_eq_or_imp] at h2
        exact ⟨a, as, ⟨h2.1, ih.2 ⟨by simpa using h1, h2.2⟩⟩, rfl⟩

/-- A one-to-one map of lists of numbers below `q` to such lists only changes the order of a sum over them. -/
theorem sum_allLists_inj {q n : Nat} (T : List Nat → List Nat) (hT : ∀ l ∈ allLists q n, T l ∈ allLists q n)
    (hi : ∀ l ∈ allLists q n, ∀ l' ∈ allLists q n, T l = T l' → l = l') (F : List Nat → Int) :
    ∑ l ∈ allLists q n, F (T l) = ∑ l ∈ allLists q n, F l := by
  have him : (allLists q n).image T = allLists q n := by
    refine Finset.eq_of_subset_of_card_le (fun x hx => ?_) ?_
    · obtain ⟨l, hl, rfl⟩ := mem_image.1 hx
      exact hT l hl
    · rw [Finset.card_image_of_injOn (fun l hl l' hl' h => hi l hl l' hl' h)]
  conv_rhs => rw [← him]
  rw [Finset.sum_image (fun l hl l' hl' h => hi l hl l' hl' h)]

/-! ### Interpolation in the exponent -/

theorem gmod_eq_iff (hv : P.Valid) (a b : Nat) :
    P.g ^ a % P.p = P.g ^ b % P.p ↔ (a : ZMod P.q) = (b : ZMod P.q) := by
  rw [← g_eq_iff hv, ← castP_inj (Nat.mod_lt _ hv.p_pos) (Nat.mod_lt _ hv.p_pos)]
  simp only [ZMod.natCast_mod, Nat.cast_pow]

theorem neg_mod_cast (hv : P.Valid) (x : Nat) : ((P.q - x % P.q : Nat) : ZMod P.q) = -(x : ZMod P.q) := by
  rw [Nat.cast_sub (Nat.mod_lt _ hv.q_pos).le, ZMod.natCast_mod]
  simp

/-- The quotient of the division by `X - x₀`. -/
def quotients (x₀ : Nat) : List Nat → List Nat
  | [] => []
  | a :: as => polyAt (a :: as) x₀ :: quotients x₀ as

theorem quotients_length (x₀ : Nat) (as : List Nat) : (quotients x₀ as).length = as.length := by
  induction as with
  | nil => rfl
  | cons a as ih => simp [quotients, ih]

theorem polyAt_quotients (x₀ x : Nat) (as : List Nat) :
    (x : ZMod P.q) * (polyAt as x : Nat) - (x₀ : ZMod P.q) * (polyAt as x₀ : Nat)
      = ((x : ZMod P.q) - x₀) * (polyAt (quotients x₀ as) x : Nat) := by
  induction as with
  | nil => simp [polyAt, quotients]
  | cons a as ih =>
    simp only [quotients, polyAt, Nat.cast_add, Nat.cast_mul]
    linear_combination (x : ZMod P.q) * ih

theorem timesLinear_quotients (hv : P.Valid) (x₀ a : Nat) (as : List Nat) :
    timesLinear P x₀ (P.g ^ polyAt (a :: as) x₀ % P.p) ((quotients x₀ as).map fun e => P.g ^ e % P.p)
      = (a :: as).map fun e => P.g ^ e % P.p := by
  induction as generalizing a with
  | nil => simp [quotients, timesLinear, polyAt]
  | cons b as ih =>
    simp only [quotients, List.map_cons, timesLinear]
    rw [ih b]
    simp only [List.map_cons, List.cons.injEq, and_true]
    have : P.g ^ polyAt (a :: b :: as) x₀ % P.p * (P.g ^ polyAt (b :: as) x₀ % P.p) ^ (P.q - x₀ % P.q) % P.p
        = P.g ^ (polyAt (a :: b :: as) x₀ + polyAt (b :: as) x₀ * (P.q - x₀ % P.q)) % P.p := by
      rw [pow_add, pow_mul]
      refine (ZMod.natCast_eq_natCast_iff' _ _ P.p).1 ?_
      push_cast [ZMod.natCast_mod]
      rfl
    rw [this, gmod_eq_iff hv]
    push_cast
    rw [neg_mod_cast hv]
    simp only [polyAt]
    push_cast
    ring

theorem commitmentsFrom_polyAt (hv : P.Valid) (as xs : List Nat) (hl : as.length = xs.length)
    (hd : (xs.map (fun x : Nat => (x : ZMod P.q))).Nodup) :
    commitmentsFrom P (xs.map fun x => (x, P.g ^ polyAt as x % P.p)) = as.map fun e => P.g ^ e % P.p := by
  have : Fact P.q.Prime := ⟨hv.q_prime⟩
  induction xs generalizing as with
  | nil =>
    cases as with
    | nil => rw [List.map_nil, commitmentsFrom]; rfl
    | cons => simp at hl
  | cons x₀ xs ih =>
    cases as with
    | nil => simp at hl
    | cons a as =>
      simp only [List.map_cons, List.nodup_cons, List.length_cons, add_left_inj] at hd hl
      rw [List.map_cons, commitmentsFrom, ← timesLinear_quotients hv x₀ a as,
        ← ih (quotients x₀ as) (by rw [quotients_length, hl]) hd.2, List.map_map]
      congr 2
      refine List.map_congr_left fun x hx => ?_
      simp only [Function.comp_apply, Prod.mk.injEq, true_and]
      have hne : (x : ZMod P.q) - x₀ ≠ 0 := fun h =>
        hd.1 (by rw [← sub_eq_zero.1 h]; exact List.mem_map_of_mem hx)
      have e1 : (P.g ^ polyAt (a :: as) x % P.p * (P.g ^ polyAt (a :: as) x₀ % P.p) ^ (P.q - 1))
            ^ ((x + (P.q - x₀ % P.q)) ^ (P.q - 2) % P.q) % P.p
          = P.g ^ ((polyAt (a :: as) x + polyAt (a :: as) x₀ * (P.q - 1)) * ((x + (P.q - x₀ % P.q)) ^ (P.q - 2) % P.q)) % P.p := by
        rw [pow_mul, pow_add, pow_mul]
        refine (ZMod.natCast_eq_natCast_iff' _ _ P.p).1 ?_
        push_cast [ZMod.natCast_mod]
        rfl
      rw [e1, gmod_eq_iff hv]
      have hinv : (((x + (P.q - x₀ % P.q)) ^ (P.q - 2) % P.q : Nat) : ZMod P.q) = ((x : ZMod P.q) - x₀)⁻¹ := by
        rw [ZMod.natCast_mod, Nat.cast_pow, Nat.cast_add, neg_mod_cast hv, ← sub_eq_add_neg]
        have h1 := ZMod.pow_card_sub_one_eq_one hne
        have h2 : P.q - 1 = (P.q - 2) + 1 := by have := hv.q_prime.two_le; omega
        rw [h2, pow_succ] at h1
        exact eq_inv_of_mul_eq_one_left h1
      have hq1 : ((P.q - 1 : Nat) : ZMod P.q) = -1 := by
        rw [Nat.cast_sub hv.q_prime.one_lt.le]; simp
      rw [Nat.cast_mul, hinv, Nat.cast_add, Nat.cast_mul, hq1]
      have hp := polyAt_quotients (P := P) x₀ x as
      simp only [polyAt, Nat.cast_add, Nat.cast_mul]
      rw [mul_inv_eq_iff_eq_mul₀ hne]
      linear_combination hp

/-- The commitments of a guardian are what everybody with the public key and the backups computes. -/
theorem simCommitments_eq (hv : P.Valid) (x : Nat) (as xs : List Nat) (hl : as.length = xs.length)
    (hd : ((0 :: xs).map (fun x : Nat => (x : ZMod P.q))).Nodup) :
    simCommitments P (P.g ^ x % P.p) xs (coordsOf P.q (x :: as) xs) = (x :: as).map fun e => P.g ^ e % P.p := by
  rw [← commitmentsFrom_polyAt hv (x :: as) (0 :: xs) (by simp [hl]) hd]
  unfold simCommitments coordsOf
  have hz : ∀ (f : Nat → Nat) (l : List Nat), l.zip (l.map f) = l.map fun x => (x, f x) := by
    intro f l
    induction l with
    | nil => rfl
    | cons a l ih => simp [ih]
  rw [List.map_map, hz, List.map_cons]
  have h0 : polyAt (x :: as) 0 = x := by simp [polyAt]
  rw [h0]
  congr 2
  refine List.map_congr_left fun y _ => ?_
  simp only [Function.comp_apply, Prod.mk.injEq, true_and]
  exact g_pow_modq hv _

theorem coordsOf_mem (hv : P.Valid) (as xs : List Nat) : coordsOf P.q as xs ∈ allLists P.q xs.length := by
  rw [mem_allLists]
  refine ⟨by simp [coordsOf], fun a ha => ?_⟩
  obtain ⟨x, _, rfl⟩ := List.mem_map.1 ha
  exact Nat.mod_lt _ hv.q_pos

/-- Over all polynomials with the same secret, every list of backups occurs once. -/
theorem sum_coords (hv : P.Valid) (x : Nat) (xs : List Nat) (hd : ((0 :: xs).map (fun x : Nat => (x : ZMod P.q))).Nodup)
    (F : List Nat → List Nat → Int) :
    ∑ as ∈ allLists P.q xs.length, F ((x :: as).map fun e => P.g ^ e % P.p) (coordsOf P.q (x :: as) xs)
      = ∑ ys ∈ allLists P.q xs.length, F (simCommitments P (P.g ^ x % P.p) xs ys) ys := by
  rw [← sum_allLists_inj (fun as => coordsOf P.q (x :: as) xs) (fun as _ => coordsOf_mem hv _ _) ?_
    (fun ys => F (simCommitments P (P.g ^ x % P.p) xs ys) ys)]
  · refine Finset.sum_congr rfl fun as has => ?_
    rw [simCommitments_eq hv x as xs (mem_allLists.1 has).1 hd]
  · intro as has as' has' h
    have h1 := simCommitments_eq hv x as xs (mem_allLists.1 has).1 hd
    have h2 := simCommitments_eq hv x as' xs (mem_allLists.1 has').1 hd
    rw [h, h2] at h1
    simp only [List.map_cons, List.cons.injEq, true_and] at h1
    have hl : as.length = as'.length := by rw [(mem_allLists.1 has).1, (mem_allLists.1 has').1]
    refine List.ext_getElem hl fun i hi hi' => ?_
    have h3 : (as'.map fun e => P.g ^ e % P.p)[i]'(by simpa using hi') = (as.map fun e => P.g ^ e % P.p)[i]'(by simpa using hi) := by
      simp only [h1]
    simp only [List.getElem_map] at h3
    rw [gmod_eq_iff hv] at h3
    exact ((castP_inj ((mem_allLists.1 has').2 _ (List.getElem_mem hi')) ((mem_allLists.1 has).2 _ (List.getElem_mem hi))).1
      h3).symm

/-! ### Proofs of the coefficients -/

theorem keysShown_eq (hv : P.Valid) (as chs : List Nat) (hch : ∀ ch ∈ chs, ch < P.q) (F : List SchnorrProof → Int) :
    keysShown P (as.zip chs) F = keysSim P ((as.map fun e => P.g ^ e % P.p).zip chs) F := by
  induction as generalizing chs F with
  | nil => rfl
  | cons a as ih =>
    cases chs with
    | nil => rfl
    | cons ch chs =>
      simp only [List.mem_cons, forall_eq_or_imp] at hch
      simp only [List.zip_cons_cons, List.map_cons, keysShown, keysSim]
      have := sum_of_counts (range P.q) (range P.q) (fun n => proveKey P ⟨a, P.g ^ a % P.p⟩ n ch)
        (fun u => simulateKey P (P.g ^ a % P.p) u ch)
        (fun test => C82_key_reveals_nothing hv ⟨a, P.g ^ a % P.p⟩ rfl ch hch.1 test)
        (fun pf => keysShown P (as.zip chs) (fun pfs => F (pf :: pfs)))
      rw [this]
      exact Finset.sum_congr rfl fun u _ => ih chs hch.2 _

theorem keysSim_encSum (R : Finset Nat) (K : Nat) (ks : List (Nat × Nat)) (ms : List Nat)
    (F : List SchnorrProof → List Ciphertext → Int) :
    keysSim P ks (fun pfs => encSum P R K ms (F pfs)) = encSum P R K ms (fun cs => keysSim P ks (fun pfs => F pfs cs)) := by
  induction ks generalizing F with
  | nil => rfl
  | cons k ks ih =>
    obtain ⟨k, ch⟩ := k
    simp only [keysSim]
    rw [encSum_sum]
    exact Finset.sum_congr rfl fun u _ => ih _

theorem keysSim_congr (ks : List (Nat × Nat)) (F G : List SchnorrProof → Int) (h : ∀ pfs, F pfs = G pfs) :
    keysSim P ks F = keysSim P ks G := by
  rw [show F = G from funext h]

/-! ### Ciphertexts under the joint key -/

theorem encrypt_shift (hv : P.Valid) (m r x s : Nat) :
    elgamalEncrypt P m r (P.g ^ (x + s) % P.p) = (elgamalEncrypt P m r (P.g ^ x % P.p)).map (shiftKey P s) := by
  by_cases hr : r = 0
  · subst hr; simp [elgamalEncrypt]
  · rw [encrypt_dh hv m r _ hr, encrypt_dh hv m r x hr]
    simp only [Option.map_some, shiftKey, Option.some.injEq, Ciphertext.mk.injEq, true_and]
    refine (ZMod.natCast_eq_natCast_iff' _ _ P.p).1 ?_
    push_cast [ZMod.natCast_mod]
    ring

theorem encSum_shift (hv : P.Valid) (R : Finset Nat) (x s : Nat) (ms : List Nat) (F : List Ciphertext → Int) :
    encSum P R (P.g ^ (x + s) % P.p) ms F = encSum P R (P.g ^ x % P.p) ms (fun cs => F (cs.map (shiftKey P s))) := by
  induction ms generalizing F with
  | nil => rfl
  | cons m ms ih =>
    simp only [encSum]
    refine Finset.sum_congr rfl fun r _ => ?_
    rw [encrypt_shift hv]
    cases elgamalEncrypt P m r (P.g ^ x % P.p) with
    | none => rfl
    | some c => exact ih _

/-- The ciphertexts encrypt the messages. -/
def Encs (P : Params) (K : Nat) : List Nat → List Ciphertext → Prop :=
  List.Forall₂ fun m c => ∃ r, elgamalEncrypt P m r K = some c

theorem encSum_congr_encs (R : Finset Nat) (K : Nat) (ms : List Nat) (F G : List Ciphertext → Int)
    (h : ∀ cs, Encs P K ms cs → F cs = G cs) : encSum P R K ms F = encSum P R K ms G := by
  induction ms generalizing F G with
  | nil => exact h [] List.Forall₂.nil
  | cons m ms ih =>
    rw [encSum, encSum]
    refine Finset.sum_congr rfl fun r _ => ?_
    cases hc : elgamalEncrypt P m r K with
    | none => rfl
    | some c => exact ih _ _ fun cs hcs => h _ (List.Forall₂.cons ⟨r, hc⟩ hcs)

theorem encs_product (hv : P.Valid) (x : Nat) (ms : List Nat) (cs : List Ciphertext)
    (h : Encs P (P.g ^ x % P.p) ms cs) (T : List Nat) :
    ∃ t, ((ctProduct P (picked T cs)).pad : ZMod P.p) = (P.g : ZMod P.p) ^ t ∧
      ((ctProduct P (picked T cs)).data : ZMod P.p) = (P.g : ZMod P.p) ^ (picked T ms).sum * (P.g : ZMod P.p) ^ (t * x) := by
  induction T with
  | nil => exact ⟨0, by simp [picked, ctProduct]⟩
  | cons i T ih =>
    obtain ⟨t, h1, h2⟩ := ih
    simp only [ctProduct, ZMod.natCast_mod] at h1 h2 ⊢
    by_cases hi : i < ms.length
    · have hl : ms.length = cs.length := h.length_eq
      have hi' : i < cs.length := by omega
      obtain ⟨r, hr⟩ := (List.forall₂_iff_get.1 h).2 i hi hi'
      simp only [List.get_eq_getElem] at hr
      have hr0 : r ≠ 0 := (C01_ciphertext hv _ _ _ _ hr).1
      rw [encrypt_dh hv _ r x hr0] at hr
      have hc := (Option.some.inj hr).symm
      refine ⟨r + t, ?_, ?_⟩
      · simp only [picked, List.filterMap_cons, List.getElem?_eq_getElem hi', List.map_cons, List.prod_cons, Nat.cast_mul]
        rw [show ((List.map Ciphertext.pad (List.filterMap (fun i => cs[i]?) T)).prod : ZMod P.p) = _ from h1, hc]
        push_cast [ZMod.natCast_mod]
        ring
      · simp only [picked, List.filterMap_cons, List.getElem?_eq_getElem hi', List.getElem?_eq_getElem hi, List.map_cons,
          List.prod_cons, Nat.cast_mul, List.sum_cons]
        rw [show ((List.map Ciphertext.data (List.filterMap (fun i => cs[i]?) T)).prod : ZMod P.p) = _ from h2, hc]
        push_cast [ZMod.natCast_mod]
        simp only [picked]
        ring
    · refine ⟨t, ?_, ?_⟩
      · rw [show picked (i :: T) cs = picked T cs by
          simp [picked, List.getElem?_eq_none (show cs.length ≤ i by have := h.length_eq; omega)]]
        exact h1
      · rw [show picked (i :: T) cs = picked T cs by
          simp [picked, List.getElem?_eq_none (show cs.length ≤ i by have := h.length_eq; omega)],
          show picked (i :: T) ms = picked T ms by
          simp [picked, List.getElem?_eq_none (show ms.length ≤ i by omega)]]
        exact h2

/-! ### Shares -/

/-- The share of the honest guardian follows from the number and the secrets of the others. -/
theorem knownShare_eq (hv : P.Valid) (x s number t : Nat) (c : Ciphertext)
    (h1 : (c.pad : ZMod P.p) = (P.g : ZMod P.p) ^ t)
    (h2 : (c.data : ZMod P.p) = (P.g : ZMod P.p) ^ number * (P.g : ZMod P.p) ^ (t * (x + s))) :
    knownShare P c number [c.pad ^ s % P.p] = c.pad ^ x % P.p := by
  have hp : Fact P.p.Prime := ⟨hv.p_prime⟩
  have hg : (P.g : ZMod P.p) ≠ 0 := fun h => by
    have := g_cast_pow hv
    rw [h, zero_pow hv.q_pos.ne'] at this
    exact zero_ne_one this
  unfold knownShare
  rw [← castP_inj (Nat.mod_lt _ hv.p_pos) (Nat.mod_lt _ hv.p_pos)]
  push_cast [ZMod.natCast_mod]
  simp only [List.map_cons, List.map_nil, List.prod_cons, List.prod_nil, mul_one]
  push_cast [ZMod.natCast_mod]
  rw [h1, h2]
  have hA : (P.g : ZMod P.p) ^ number * ((P.g : ZMod P.p) ^ t) ^ s ≠ 0 :=
    mul_ne_zero (pow_ne_zero _ hg) (pow_ne_zero _ (pow_ne_zero _ hg))
  have hf : ((P.g : ZMod P.p) ^ number * ((P.g : ZMod P.p) ^ t) ^ s) ^ (P.p - 2)
      = ((P.g : ZMod P.p) ^ number * ((P.g : ZMod P.p) ^ t) ^ s)⁻¹ := by
    have h1 := ZMod.pow_card_sub_one_eq_one hA
    have h2 : P.p - 1 = (P.p - 2) + 1 := by have := hv.p_prime.two_le; omega
    rw [h2, pow_succ] at h1
    exact eq_inv_of_mul_eq_one_left h1
  rw [hf, mul_inv_eq_iff_eq_mul₀ hA]
  ring

theorem sharesShown_eq (hv : P.Valid) (x s : Nat) (ms : List Nat) (cs : List Ciphertext)
    (h : Encs P (P.g ^ (x + s) % P.p) ms cs) (ts : List (List Nat × Nat)) (hch : ∀ t ∈ ts, t.2 < P.q)
    (F : List (Nat × CPProof) → Int) :
    sharesShown P x (ts.map fun t => (ctProduct P (picked t.1 cs), t.2)) F
      = sharesSim P (P.g ^ x % P.p) s
          ((ts.zip (ts.map fun t => (picked t.1 ms).sum)).map fun t => (ctProduct P (picked t.1.1 cs), t.2, t.1.2)) F := by
  induction ts generalizing F with
  | nil => rfl
  | cons t ts ih =>
    simp only [List.mem_cons, forall_eq_or_imp] at hch
    simp only [List.map_cons, List.zip_cons_cons, sharesShown, sharesSim]
    obtain ⟨e, h1, h2⟩ := encs_product hv (x + s) ms cs h t.1
    rw [knownShare_eq hv x s _ e _ h1 h2]
    have hα : isValidResidue P (ctProduct P (picked t.1 cs)).pad = true :=
      (isValidResidue_iff hv _).2 ⟨Nat.mod_lt _ hv.p_pos, by rw [h1, ← pow_mul, mul_comm, pow_mul, g_cast_pow hv, one_pow]⟩
    have := sum_of_counts (range P.q) (range P.q)
      (fun n => proveShare P (ctProduct P (picked t.1 cs)) x n t.2)
      (fun v => simulateShare P (ctProduct P (picked t.1 cs)) (P.g ^ x % P.p)
        ((ctProduct P (picked t.1 cs)).partialDecrypt P x) v t.2)
      (fun test => C82_share_reveals_nothing hv x _ hα t.2 hch.1 test)
      (fun pf => sharesShown P x (ts.map fun t => (ctProduct P (picked t.1 cs), t.2))
        (fun l => F (((ctProduct P (picked t.1 cs)).pad ^ x % P.p, pf) :: l)))
    rw [this]
    exact Finset.sum_congr rfl fun v _ => ih hch.2 _

/-! ### Simulated ballots contain the ciphertexts -/

theorem simItems_congr (K : Nat) (cs : List Ciphertext) (chs : List Nat) (hl : cs.length = chs.length)
    (F G : List (Ciphertext × DisjProof) → Int) (h : ∀ items, items.map Prod.fst = cs → F items = G items) :
    simItems P K (cs.zip chs) F = simItems P K (cs.zip chs) G := by
  induction cs generalizing chs F G with
  | nil => exact h [] rfl
  | cons c cs ih =>
    cases chs with
    | nil => simp at hl
    | cons ch chs =>
      simp only [List.zip_cons_cons, simItems]
      exact Finset.sum_congr rfl fun x _ => ih chs (by simpa using hl) _ _ fun items hi => h _ (by simp [hi])

theorem simBallot_congr (K : Nat) (ps : List (Nat × ContestPlan)) (hps : ∀ p ∈ ps, p.1 = p.2.challenges.length)
    (cs : List Ciphertext) (hl : cs.length = (ps.map Prod.fst).sum) (F G : List PublishedContest → Int)
    (h : ∀ pubs, ciphertextsOf pubs = cs → F pubs = G pubs) : simBallot P K ps cs F = simBallot P K ps cs G := by
  induction ps generalizing cs F G with
  | nil =>
    have : cs = [] := List.eq_nil_of_length_eq_zero (by simpa using hl)
    subst this
    exact h [] rfl
  | cons p ps ih =>
    obtain ⟨n, plan⟩ := p
    simp only [List.mem_cons, forall_eq_or_imp] at hps
    simp only [List.map_cons, List.sum_cons] at hl
    simp only [simBallot, simContest]
    refine simItems_congr K (cs.take n) plan.challenges ?_ _ _ fun items hi => ?_
    · rw [List.length_take, ← hps.1]; omega
    · refine Finset.sum_congr rfl fun v _ => ih hps.2 (cs.drop n) (by rw [List.length_drop]; omega) _ _ fun pubs hp => h _ ?_
      unfold ciphertextsOf at hp ⊢
      rw [List.flatMap_cons, hp, hi, List.take_append_drop]

/-! ### The theorems -/

/-- The circumstances of a coalition: the orders of its backups are different and not 0, and the challenges are in range. -/
def CoalitionPlan.Ok (P : Params) (plan : CoalitionPlan) : Prop :=
  ((0 :: plan.orders).map (fun x : Nat => (x : ZMod P.q))).Nodup ∧ (∀ ch ∈ plan.keyChallenges, ch < P.q) ∧
    ∀ t ∈ plan.tallies, t.2 < P.q

/-- C103: what a coalition sees is what an observer sees who has only the public key of the guardian outside it, the
ciphertexts under that key and the published numbers. -/
theorem C103_simulated (hv : P.Valid) (X R : Finset Nat) (plan : CoalitionPlan) (hplan : plan.Ok P)
    (D : List SchnorrProof → List Nat → List PublishedContest → List (Nat × CPProof) → Int)
    (ballots : List (List Nat × ContestPlan)) (hb : Provable P ballots) :
    coalitionSees P X R plan D ballots
      = seen P X R (coalitionObserver P plan (planOf ballots) (numbersOf plan (votesOf ballots)) D) (votesOf ballots) := by
  obtain ⟨hd, hk, ht⟩ := hplan
  unfold coalitionSees seen coalitionObserver
  refine Finset.sum_congr rfl fun x _ => ?_
  have h1 : ∀ as : List Nat, keysShown P ((x :: as).zip plan.keyChallenges) (fun keys =>
        ballotShown P R (P.g ^ (x + plan.secrets keys (coordsOf P.q (x :: as) plan.orders)) % P.p) ballots fun pubs =>
          sharesShown P x (plan.tallies.map fun t => (ctProduct P (picked t.1 (ciphertextsOf pubs)), t.2)) fun shares =>
            D keys (coordsOf P.q (x :: as) plan.orders) pubs shares)
      = keysSim P (((x :: as).map fun e => P.g ^ e % P.p).zip plan.keyChallenges) (fun keys =>
        ballotShown P R (P.g ^ (x + plan.secrets keys (coordsOf P.q (x :: as) plan.orders)) % P.p) ballots fun pubs =>
          sharesShown P x (plan.tallies.map fun t => (ctProduct P (picked t.1 (ciphertextsOf pubs)), t.2)) fun shares =>
            D keys (coordsOf P.q (x :: as) plan.orders) pubs shares) :=
    fun as => keysShown_eq hv (x :: as) plan.keyChallenges hk _
  simp only [h1]
  rw [sum_coords hv x plan.orders hd (fun ks ys => keysSim P (ks.zip plan.keyChallenges) (fun keys =>
        ballotShown P R (P.g ^ (x + plan.secrets keys ys) % P.p) ballots fun pubs =>
          sharesShown P x (plan.tallies.map fun t => (ctProduct P (picked t.1 (ciphertextsOf pubs)), t.2)) fun shares =>
            D keys ys pubs shares)), encSum_sum]
  refine Finset.sum_congr rfl fun ys _ => ?_
  rw [← keysSim_encSum]
  refine keysSim_congr _ _ _ fun keys => ?_
  generalize plan.secrets keys ys = s
  rw [ballotShown_eq hv R _ (show isValidResidue P (P.g ^ (x + s) % P.p) = true from gPowP_residue hv _) ballots hb]
  refine Eq.trans ?_ (encSum_shift hv R x s (votesOf ballots) (fun cs =>
    simBallot P (P.g ^ x % P.p * P.g ^ s % P.p) (planOf ballots) cs fun pubs =>
      sharesSim P (P.g ^ x % P.p) s (List.map (fun t => (ctProduct P (picked t.1.1 cs), t.2, t.1.2))
        (plan.tallies.zip (numbersOf plan (votesOf ballots)))) fun shares => D keys ys pubs shares))
  refine encSum_congr_encs R _ _ _ _ fun cs hcs => ?_
  have hK : P.g ^ x % P.p * P.g ^ s % P.p = P.g ^ (x + s) % P.p := by rw [Nat.mod_mul_mod, ← pow_add]
  rw [hK]
  refine simBallot_congr _ (planOf ballots) ?_ cs ?_ _ _ fun pubs hp => ?_
  · intro p hp
    obtain ⟨c, hc, rfl⟩ := List.mem_map.1 hp
    exact (hb c hc).2.1
  · rw [← hcs.length_eq, votesOf_length]
  · rw [hp]
    exact sharesShown_eq hv x s _ cs hcs plan.tallies ht _

/-- C103: how differently a coalition answers on two elections with the same results is exactly what explicit adversaries gain
over guessing in decisional Diffie-Hellman. -/
theorem C103_coalition_private (hv : P.Valid) (X R : Finset Nat) (hR : ∀ r ∈ R, r ≠ 0) (plan : CoalitionPlan) (hplan : plan.Ok P)
    (D : List SchnorrProof → List Nat → List PublishedContest → List (Nat × CPProof) → Int)
    (b b' : List (List Nat × ContestPlan)) (hb : Provable P b) (hb' : Provable P b') (hsame : planOf b = planOf b')
    (hres : numbersOf plan (votesOf b) = numbersOf plan (votesOf b')) :
    let O := coalitionObserver P plan (planOf b) (numbersOf plan (votesOf b)) D
    P.q * (coalitionSees P X R plan D b - coalitionSees P X R plan D b')
      = ∑ i ∈ range (votesOf b).length,
          (ddhAdvantage P X R (adversaryOf P R O ((votesOf b').take i) ((votesOf b).getD i 0) ((votesOf b).drop (i + 1)))
            - ddhAdvantage P X R (adversaryOf P R O ((votesOf b').take i) ((votesOf b').getD i 0) ((votesOf b).drop (i + 1)))) := by
  intro O
  rw [C103_simulated hv X R plan hplan D b hb, C103_simulated hv X R plan hplan D b' hb', ← hsame, ← hres]
  exact C100_private hv X R hR O _ _ (by rw [votesOf_length, votesOf_length, hsame])

/-- C103: if each of these adversaries gains at most `ε`, the answers of the coalition differ by at most `2 ε` for each vote. -/
theorem C103_bound (hv : P.Valid) (X R : Finset Nat) (hR : ∀ r ∈ R, r ≠ 0) (plan : CoalitionPlan) (hplan : plan.Ok P)
    (D : List SchnorrProof → List Nat → List PublishedContest → List (Nat × CPProof) → Int)
    (b b' : List (List Nat × ContestPlan)) (hb : Provable P b) (hb' : Provable P b') (hsame : planOf b = planOf b')
    (hres : numbersOf plan (votesOf b) = numbersOf plan (votesOf b')) (ε : Int)
    (hε : ∀ i < (votesOf b).length, ∀ m ∈ [(votesOf b).getD i 0, (votesOf b').getD i 0],
      |ddhAdvantage P X R (adversaryOf P R (coalitionObserver P plan (planOf b) (numbersOf plan (votesOf b)) D)
        ((votesOf b').take i) m ((votesOf b).drop (i + 1)))| ≤ ε) :
    P.q * |coalitionSees P X R plan D b - coalitionSees P X R plan D b'| ≤ 2 * (votesOf b).length * ε := by
  rw [C103_simulated hv X R plan hplan D b hb, C103_simulated hv X R plan hplan D b' hb', ← hsame, ← hres]
  exact C100_bound hv X R hR _ _ _ (by rw [votesOf_length, votesOf_length, hsame]) ε hε

/-! ### The model -/

/-- C103: a guardian of the model publishes the commitments and proofs of `keysShown` (the challenges are hashes), and sends
the coordinates `coordsOf` as backups. -/
theorem C103_guardian (E : Env) (hv : E.P.Valid) (id : String) (order : Int) (rands : List (Nat × Nat)) (kp : ElectionKeyPair)
    (h : generateElectionKeyPair E id order rands = .ok kp) (xs : List Nat) (hxs : ∀ x ∈ xs, x < E.P.q) :
    kp.share.proofs = rands.map (fun e => proveKey E.P ⟨e.1, E.P.g ^ e.1 % E.P.p⟩ e.2
        (hashElems E [.elem (E.P.g ^ e.1 % E.P.p), .elem (E.P.g ^ e.2 % E.P.p)])) ∧
      kp.share.commitments = kp.share.proofs.map (fun pf => pf.k) ∧
      kp.share.commitments.head? = some kp.share.key ∧
      xs.map (fun x : Nat => computeCoordinate E.P x kp.polynomial) = (coordsOf E.P.q (rands.map Prod.fst) xs).map .ok := by
  cases rands with
  | nil => cases h
  | cons r rs =>
    cases h
    refine ⟨?_, ?_, rfl, ?_⟩
    · simp only [ElectionKeyPair.share, getProofs, generatePolynomial, mkCoefficient, List.map_map]
      rfl
    · simp only [ElectionKeyPair.share, getProofs, getCommitments, generatePolynomial, mkCoefficient, List.map_map]
      rfl
    · rw [coordsOf, List.map_map]
      exact List.map_congr_left fun x hx => C10_coordinate_value E hv _ x (hxs x hx)

/-- C103: the joint key of the guardian and of others with known secrets is the key of the ballots in `coalitionSees`. -/
theorem C103_joint_key (hv : P.Valid) (x : Nat) (others : List Nat) :
    combinePublicKeys P ((x :: others).map fun s => gPowP P s) = P.g ^ (x + others.sum) % P.p := by
  have : Fact P.p.Prime := ⟨hv.p_prime⟩
  unfold combinePublicKeys
  rw [← castP_inj (multPs_lt hv.one_lt_p _) (Nat.mod_lt _ hv.p_pos), multPs_cast]
  simp only [List.map_cons, List.prod_cons, List.map_map]
  have : ∀ l : List Nat, (l.map ((fun n : Nat => (n : ZMod P.p)) ∘ fun s => gPowP P s)).prod = (P.g : ZMod P.p) ^ l.sum := by
    intro l
    induction l with
    | nil => simp
    | cons a l ih => simp [ih, gPowP_cast, pow_add]
  rw [this, gPowP_cast]
  push_cast [ZMod.natCast_mod]
  rw [pow_add]

/-- C103: the shares of `sharesShown` are those of the model. -/
theorem C103_share (x : Nat) (c : Ciphertext) : c.partialDecrypt P x = c.pad ^ x % P.p := rfl

/-- The polynomial 5 + 3 X + 11 X²: from the public key and the backups for the orders 2 and 4 everybody computes the
commitments. -/
example : coordsOf 13 [5, 3, 11] [2, 4] = [3, 11] ∧
    simCommitments extraSmall (16 ^ 5 % 157) [2, 4] [3, 11] = [5, 3, 11].map (fun a => 16 ^ a % 157) ∧
    simCommitments extraSmall (16 ^ 6 % 157) [2, 4] [3, 11] ≠ [5, 3, 11].map (fun a => 16 ^ a % 157) := by
  decide +kernel

/-- A coalition with backups for the orders 2 and 4 that takes its secrets from what it has seen, and two voters of one
contest with one seat. -/
def toyCoalition : CoalitionPlan := ⟨[2, 4], [1, 12, 0], fun keys ys => (keys.map (fun pf => pf.u)).sum + ys.sum,
  [([0, 2], 5), ([1, 3], 6)]⟩

def toyTwoVoters (a b : Nat) : List (List Nat × ContestPlan) :=
  [([a, 1 - a], ⟨1, [3, 8], 4⟩), ([b, 1 - b], ⟨1, [9, 1], 7⟩)]

/-- The theorem applies to who of the two voted for the candidate. -/
example : toyCoalition.Ok extraSmall ∧ Provable extraSmall (toyTwoVoters 1 0) ∧ Provable extraSmall (toyTwoVoters 0 1) ∧
    planOf (toyTwoVoters 1 0) = planOf (toyTwoVoters 0 1) ∧
    numbersOf toyCoalition (votesOf (toyTwoVoters 1 0)) = [1, 1] ∧
    numbersOf toyCoalition (votesOf (toyTwoVoters 0 1)) = [1, 1] ∧
    votesOf (toyTwoVoters 1 0) ≠ votesOf (toyTwoVoters 0 1) := by
  unfold Provable CoalitionPlan.Ok
  exact ⟨by decide +kernel, by decide, by decide, rfl, rfl, rfl, by decide⟩

/-- In a group of three elements, a coalition that looks at its backup, the share of the tally and its proof, the responses of the
other proofs: the observer who simulates everything answers the same, provided that they know the right result. -/
def toyThree : CoalitionPlan := ⟨[1], [2, 1], fun keys ys => (keys.map (fun pf => pf.u)).sum + ys.sum, [([0], 1)]⟩

def toyCoalitionLook (keys : List SchnorrProof) (ys : List Nat) (pubs : List PublishedContest) (shares : List (Nat × CPProof)) :
    Int :=
  if ys = [2] ∧ shares.map (fun e => (e.1, e.2.v)) = [(4, 0)] ∧ pubs.map (fun c => c.limitProof.v) = [1] ∧
    keys.map (fun pf => pf.u) = [1, 2] then 1 else 0

example : coalitionSees ⟨7, 3, 2⟩ {2} {1} toyThree toyCoalitionLook [([1], ⟨1, [2], 1⟩)] = 18 ∧
    seen ⟨7, 3, 2⟩ {2} {1} (coalitionObserver ⟨7, 3, 2⟩ toyThree [(1, ⟨1, [2], 1⟩)] [1] toyCoalitionLook) [1] = 18 ∧
    seen ⟨7, 3, 2⟩ {2} {1} (coalitionObserver ⟨7, 3, 2⟩ toyThree [(1, ⟨1, [2], 1⟩)] [0] toyCoalitionLook) [1] = 0 := by
  decide +kernel

end EG
