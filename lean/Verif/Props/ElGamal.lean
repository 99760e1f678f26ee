import Verif.Lemmas.ElGamal

/-!
# C01, C02: ElGamal round trip and homomorphism
-/

namespace EG

variable {P : Params}

/-- C01 For every key pair made by `elgamal_keypair_from_secret`, every non-zero nonce and every message
below `q` and below the discrete-log limit, encryption returns a ciphertext and all three ways of
decrypting it return exactly the message. -/
theorem C01_roundtrip (hv : P.Valid) (maxE a r m : Nat) (kp : KeyPair)
    (hkp : keypairFromSecret P a = some kp) (hr : r ≠ 0) (hm : m < P.q) (hmax : m ≤ maxE) :
    ∃ c, elgamalEncrypt P m r kp.pub = some c ∧
      c.decrypt P maxE kp.secret = .ok m ∧
      c.decryptKnownNonce P maxE kp.pub r = .ok m ∧
      c.decryptKnownProduct P maxE (c.partialDecrypt P kp.secret) = .ok m := by
  have : Fact P.p.Prime := ⟨hv.p_prime⟩
  unfold keypairFromSecret at hkp
  split at hkp
  · cases hkp
  · cases hkp
    obtain ⟨c, hc, he⟩ := encrypt_spec hv (m := m) (K := gPowP P a) hr
    obtain ⟨_, _, h3, h4⟩ := (encryptsWith_iff_cast hv).1 he
    have hprod : c.decryptKnownProduct P maxE (powP P c.pad a) = .ok m := by
      apply decryptKnownProduct_spec hv hm hmax
      · rw [powP_cast, h3]; exact pow_ne_zero _ (pow_ne_zero _ (g_cast_ne_zero hv))
      · rw [h4, powP_cast, h3, gPowP_cast, ← pow_mul, ← pow_mul, mul_comm a r]
    refine ⟨c, hc, hprod, ?_, hprod⟩
    apply decryptKnownProduct_spec hv hm hmax
    · rw [powP_cast, gPowP_cast]; exact pow_ne_zero _ (pow_ne_zero _ (g_cast_ne_zero hv))
    · rw [h4, powP_cast]

/-- C01 The key pair exists for every secret in `[2, q)` and is refused for `0` and `1`. -/
theorem C01_keypair (a : Nat) :
    (a < 2 → keypairFromSecret P a = none) ∧
    (2 ≤ a → keypairFromSecret P a = some ⟨a, P.g ^ a % P.p⟩) := by
  unfold keypairFromSecret
  constructor
  · intro h; rw [if_pos h]
  · intro h; rw [if_neg (by omega)]; rfl

/-- C01 Nonce zero is refused, whatever message and key. -/
theorem C01_zero_nonce (m K : Nat) : elgamalEncrypt P m 0 K = none := by
  simp [elgamalEncrypt]

/-- C01 The ciphertext is the textbook one. -/
theorem C01_ciphertext (hv : P.Valid) (m r K : Nat) (c : Ciphertext)
    (h : elgamalEncrypt P m r K = some c) : r ≠ 0 ∧ EncryptsWith P K r m c := by
  have hr : r ≠ 0 := by rintro rfl; simp [elgamalEncrypt] at h
  obtain ⟨c', hc', he⟩ := encrypt_spec hv (m := m) (K := K) hr
  rw [hc'] at h; cases h; exact ⟨hr, he⟩

/-- C01 A message above the discrete-log limit is not decrypted to anything else: decryption raises. -/
theorem C01_above_limit_raises (hv : P.Valid) (maxE a r m : Nat) (hr : r ≠ 0) (hm : m < P.q)
    (hmax : maxE < m) :
    ∃ c, elgamalEncrypt P m r (P.g ^ a % P.p) = some c ∧
      c.decrypt P maxE a = .error .dlogExponent := by
  have : Fact P.p.Prime := ⟨hv.p_prime⟩
  obtain ⟨c, hc, he⟩ := encrypt_spec hv (m := m) (K := gPowP P a) hr
  obtain ⟨_, _, h3, h4⟩ := (encryptsWith_iff_cast hv).1 he
  refine ⟨c, hc, ?_⟩
  have hp0 : ((powP P c.pad a : Nat) : ZMod P.p) ≠ 0 := by
    rw [powP_cast, h3]; exact pow_ne_zero _ (pow_ne_zero _ (g_cast_ne_zero hv))
  obtain ⟨i, hi⟩ := invert_isOk hv.p_prime hp0
  have hne : powP P c.pad a ≠ 0 := by intro h; rw [h] at hp0; simp at hp0
  have hmul : multP P c.data i = gPowP P m := by
    rw [← castP_inj (multP_lt hv.one_lt_p _ _) (gPowP_lt hv.p_pos _), multP_cast, gPowP_cast, h4,
      (invert_cast hv.p_prime hi).2, powP_cast, h3, gPowP_cast, ← pow_mul, ← pow_mul, mul_comm a r,
      mul_assoc, mul_inv_cancel₀ (pow_ne_zero _ (g_cast_ne_zero hv)), mul_one]
  simp only [Ciphertext.decrypt, Ciphertext.decryptKnownProduct, multInvP, if_neg hne, hi, bind,
    Except.bind, hmul]
  apply dlog_error hv.one_lt_p
  intro j hj h
  rw [gPowP_inj_lt hv (by omega) hm] at h
  omega

/-- A concrete key, nonce and message meeting the hypotheses. -/
example : (elgamalEncrypt extraSmall 5 7 (16 ^ 3 % 157)).map (fun c => c.decrypt extraSmall 12 3)
    = some (.ok 5) := by decide

/-- C02 Accumulating ciphertexts of `m₁..mₙ` with nonces `r₁..rₙ` under one key gives the ciphertext of
the sum of the messages with the sum of the nonces. -/
theorem C02_homomorphic (hv : P.Valid) (K : Nat) (l : List (Nat × Nat × Ciphertext)) (hne : l ≠ [])
    (h : ∀ x ∈ l, EncryptsWith P K x.1 x.2.1 x.2.2) :
    ∃ c, elgamalAdd P (l.map (·.2.2)) = .ok c ∧
      EncryptsWith P K (l.map (·.1)).sum (l.map (·.2.1)).sum c := by
  obtain ⟨c, hc⟩ := elgamalAdd_isOk (P := P) (l := l.map (·.2.2)) (by simpa using hne)
  refine ⟨c, hc, ?_⟩
  obtain ⟨h1, h2⟩ := elgamalAdd_cast hc
  have hlt := elgamalAdd_lt hv.one_lt_p (l := l.map (·.2.2)) (by
    intro x hx
    obtain ⟨y, hy, rfl⟩ := List.mem_map.1 hx
    exact (h y hy).lt hv) hc
  rw [encryptsWith_iff_cast hv]
  refine ⟨hlt.1, hlt.2, ?_, ?_⟩
  · rw [h1]
    clear h1 h2 hlt hc hne c
    induction l with
    | nil => simp
    | cons x l ih =>
      simp only [List.map_cons, List.prod_cons, List.sum_cons, pow_add]
      rw [ih (fun y hy => h y (by simp [hy])),
        ((encryptsWith_iff_cast hv).1 (h x (by simp))).2.2.1]
  · rw [h2]
    clear h1 h2 hlt hc hne c
    induction l with
    | nil => simp
    | cons x l ih =>
      simp only [List.map_cons, List.prod_cons, List.sum_cons, pow_add]
      rw [ih (fun y hy => h y (by simp [hy])),
        ((encryptsWith_iff_cast hv).1 (h x (by simp))).2.2.2]
      ring

/-- C02 Hence the accumulation decrypts to the sum of the messages. -/
theorem C02_decrypts_to_sum (hv : P.Valid) (maxE a : Nat) (l : List (Nat × Nat × Ciphertext))
    (hne : l ≠ []) (h : ∀ x ∈ l, EncryptsWith P (P.g ^ a % P.p) x.1 x.2.1 x.2.2)
    (hm : (l.map (·.2.1)).sum < P.q) (hmax : (l.map (·.2.1)).sum ≤ maxE) :
    ∃ c, elgamalAdd P (l.map (·.2.2)) = .ok c ∧
      c.decrypt P maxE a = .ok (l.map (·.2.1)).sum := by
  have : Fact P.p.Prime := ⟨hv.p_prime⟩
  obtain ⟨c, hc, he⟩ := C02_homomorphic hv _ l hne h
  obtain ⟨_, _, h3, h4⟩ := (encryptsWith_iff_cast hv).1 he
  refine ⟨c, hc, ?_⟩
  apply decryptKnownProduct_spec hv hm hmax
  · rw [powP_cast, h3]; exact pow_ne_zero _ (pow_ne_zero _ (g_cast_ne_zero hv))
  · rw [h4, powP_cast, h3, ZMod.natCast_mod]
    push_cast
    rw [← pow_mul, ← pow_mul, mul_comm a]

/-- C02 The accumulation equals `elgamal_encrypt` of the sum under the sum of the nonces mod `q`,
whenever that sum is a legal (non-zero) nonce and the key is in the subgroup. -/
theorem C02_equals_encryption_of_sum (hv : P.Valid) (K : Nat) (hK : isValidResidue P K = true)
    (l : List (Nat × Nat × Ciphertext)) (hne : l ≠ [])
    (h : ∀ x ∈ l, EncryptsWith P K x.1 x.2.1 x.2.2) (hr : addQs P (l.map (·.1)) ≠ 0) :
    ∃ c, elgamalAdd P (l.map (·.2.2)) = .ok c ∧
      elgamalEncrypt P (l.map (·.2.1)).sum (addQs P (l.map (·.1))) K = some c := by
  obtain ⟨c, hc, he⟩ := C02_homomorphic hv K l hne h
  obtain ⟨c', hc', he'⟩ := encrypt_spec hv (m := (l.map (·.2.1)).sum) (K := K) hr
  refine ⟨c, hc, ?_⟩
  rw [hc']
  congr 1
  have hK' := ((isValidResidue_iff hv K).1 hK).2
  have hexp : ((addQs P (l.map (·.1)) : Nat) : ZMod P.q) = (((l.map (·.1)).sum : Nat) : ZMod P.q) := by
    rw [addQs_cast]
    clear h hr hc he hc' he' hne
    induction l with
    | nil => simp
    | cons x l ih => simp only [List.map_cons, List.sum_cons, Nat.cast_add, ih]
  obtain ⟨a1, a2, a3, a4⟩ := (encryptsWith_iff_cast hv).1 he
  obtain ⟨b1, b2, b3, b4⟩ := (encryptsWith_iff_cast hv).1 he'
  have e1 : c'.pad = c.pad := by
    rw [← castP_inj b1 a1, a3, b3]; exact pow_congr_mod (g_cast_pow hv) hexp
  have e2 : c'.data = c.data := by
    rw [← castP_inj b2 a2, a4, b4, pow_congr_mod hK' hexp]
  cases c; cases c'; simp_all

/-- C02 The result does not depend on the order of the arguments, for arbitrary ciphertexts. -/
theorem C02_order_independent (hp : 1 < P.p) {l l' : List Ciphertext} (h : l.Perm l') :
    elgamalAdd P l = elgamalAdd P l' := by
  match l, l' with
  | [], l' => rw [h.nil_eq]
  | [c], l' => rw [List.singleton_perm.1 h]
  | c :: d :: cs, [] => exact absurd h.symm.nil_eq (by simp)
  | c :: d :: cs, [x] => have := h.length_eq; simp at this
  | c :: d :: cs, x :: y :: xs =>
    obtain ⟨r, hr⟩ := elgamalAdd_isOk (P := P) (l := c :: d :: cs) (by simp)
    obtain ⟨r', hr'⟩ := elgamalAdd_isOk (P := P) (l := x :: y :: xs) (by simp)
    rw [hr, hr']
    obtain ⟨a1, a2⟩ := elgamalAdd_cast hr
    obtain ⟨b1, b2⟩ := elgamalAdd_cast hr'
    have hl : r.pad < P.p ∧ r.data < P.p := by
      simp only [elgamalAdd, List.foldl_cons, Except.ok.injEq] at hr
      subst hr; exact foldl_ct_lt hp _ _ ⟨multP_lt hp _ _, multP_lt hp _ _⟩
    have hl' : r'.pad < P.p ∧ r'.data < P.p := by
      simp only [elgamalAdd, List.foldl_cons, Except.ok.injEq] at hr'
      subst hr'; exact foldl_ct_lt hp _ _ ⟨multP_lt hp _ _, multP_lt hp _ _⟩
    have e1 : r.pad = r'.pad := by
      rw [← castP_inj hl.1 hl'.1, a1, b1]; exact (h.map _).prod_eq
    have e2 : r.data = r'.data := by
      rw [← castP_inj hl.2 hl'.2, a2, b2]; exact (h.map _).prod_eq
    cases r; cases r'; simp_all

/-- C02 Accumulating nothing raises. -/
theorem C02_empty_raises : elgamalAdd P [] = .error .assertion := rfl

/-- Three concrete ciphertexts: 1, 0 and 4 under one key; the sum decrypts to 5. -/
example :
    (do let a ← getOptional (elgamalEncrypt extraSmall 1 7 (16 ^ 3 % 157))
        let b ← getOptional (elgamalEncrypt extraSmall 0 9 (16 ^ 3 % 157))
        let c ← getOptional (elgamalEncrypt extraSmall 4 2 (16 ^ 3 % 157))
        let s ← elgamalAdd extraSmall [a, b, c]
        s.decrypt extraSmall 12 3 : R Nat) = .ok 5 := by decide

end EG
