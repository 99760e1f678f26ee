import Verif.Spec.Extraction
import Verif.Lemmas.Forking
import Verif.Props.Shipped

/-!
# C109: whoever shows proofs knows secrets
-/

namespace EG

open Finset

variable {P : Params}

theorem hashElems_schnorr (hmac : Bytes → Bytes → Bytes) (s : Text → Nat) (pf : SchnorrProof) :
    hashElems ⟨P, s, hmac⟩ [.elem pf.k, .elem pf.h] = s (schnorrText pf) % P.q := by
  unfold hashElems schnorrText
  rw [← elemText_eq ⟨P, s, hmac⟩]
  rfl

open Classical in
/-- C109: a program that asks for at most `n` hashes and shows a key with a proof of knowledge.  Let it be accepted for `S` of all hash
functions.  Then of all hash functions and new hash values, at least `S² M / ((n + 1) |Ω|) - (M / q + 1) S` are such that the secret of the
key is found out by running the program once more with the new value. -/
theorem C109_secret (hv : P.Valid) (hmac : Bytes → Bytes → Bytes) (M : Nat) {α : Type} (proof : α → SchnorrProof) (A : Asking α)
    (n : Nat) (hn : A.AtMost n) (f : Text → Nat) (T : Finset Text) (hT : schnorrTexts P ⊆ T) :
    M * ((oracles f T M).filter fun s => (proof (A.run s)).isValid ⟨P, s, hmac⟩ = true).card ^ 2
      ≤ (n + 1) * (oracles f T M).card *
        (((oracles f T M ×ˢ range M).filter fun x => Extracted P proof A x.1 x.2).card
          + (M / P.q + 1) * ((oracles f T M).filter fun s => (proof (A.run s)).isValid ⟨P, s, hmac⟩ = true).card) := by
  have h := forking P.q M (fun a => schnorrText (proof a)) (fun s a => (proof a).isValid ⟨P, s, hmac⟩ = true) A n hn f T (by
    intro s _ hs
    have hc := (SchnorrProof.isValid_iff (E := ⟨P, s, hmac⟩) hv _).1 hs
    refine hT (mem_image.2 ⟨((proof (A.run s)).k, (proof (A.run s)).h), ?_, rfl⟩)
    rw [mem_product, mem_range, mem_range]
    exact ⟨((isValidResidue_iff hv _).1 hc.1).1, hc.2.1⟩)
  refine h.trans (Nat.mul_le_mul_left _ (Nat.add_le_add_right (card_le_card fun x hx => ?_) _))
  rw [mem_filter] at hx ⊢
  obtain ⟨hx, h1, h2, h3, h4⟩ := hx
  refine ⟨hx, ?_⟩
  set s := x.1
  set s' := Function.update s (schnorrText (proof (A.run s))) x.2 with hs'
  have e := elemText_inj h3
  simp only [List.cons.injEq, and_true] at e
  have c1 := ((SchnorrProof.isValid_iff (E := ⟨P, s, hmac⟩) hv _).1 h1).2.2.2.1
  have c2 := ((SchnorrProof.isValid_iff (E := ⟨P, s', hmac⟩) hv _).1 h2).2.2.2.1
  rw [hashElems_schnorr] at c1 c2
  have h3' : schnorrText (proof (A.run s')) = schnorrText (proof (A.run s)) := h3
  rw [h3', hs', Function.update_self] at c2
  exact C09_extraction ⟨P, s, hmac⟩ ⟨P, s', hmac⟩ rfl hv _ _ h1 h2 e.1.symm e.2.symm
    (fun hc => h4 (c1.trans (hc.trans c2.symm)))

/-- From two accepted proofs of a vote with the same commitments and different challenges the vote and the nonce can be computed. -/
theorem C04_extraction (E E' : Env) (hE : E.P = E'.P) (hv : E.P.Valid) (K q q' : Nat)
    (hK : isValidResidue E.P K = true) (c : Ciphertext) (pf pf' : DisjProof)
    (h : pf.isValid E c K q = true) (h' : pf'.isValid E' c K q' = true)
    (hcomm : pf.commitments = pf'.commitments) (hne : pf.c ≠ pf'.c) :
    (pf.c0 ≠ pf'.c0 → ∃ r, divQ E.P (aMinusBQ E.P pf.v0 pf'.v0) (aMinusBQ E.P pf.c0 pf'.c0) = .ok r ∧ EncryptsWith E.P K r 0 c) ∧
    (pf.c0 = pf'.c0 → ∃ r, divQ E.P (aMinusBQ E.P pf.v1 pf'.v1) (aMinusBQ E.P pf.c1 pf'.c1) = .ok r ∧ EncryptsWith E.P K r 1 c) := by
  have : Fact E.P.q.Prime := ⟨hv.q_prime⟩
  have hqp := hv.q_pos
  rw [DisjProof.isValid_iff hv] at h
  rw [DisjProof.isValid_iff (hE ▸ hv), ← hE] at h'
  simp only [DisjProof.commitments, Prod.mk.injEq] at hcomm
  obtain ⟨ea0, eb0, ea1, eb1⟩ := hcomm
  obtain ⟨r1, r2, r3, r4, r5, r6, l1, l2, _, _, hs, hh, q1, q2, q3, q4⟩ := h
  obtain ⟨_, _, _, _, _, _, l1', l2', _, _, hs', hh', q1', q2', q3', q4'⟩ := h'
  rw [← ea0] at q1'; rw [← ea1] at q2'; rw [← eb0] at q3'; rw [← eb1] at q4'
  obtain ⟨x, hx⟩ := residue_log hv r1
  obtain ⟨y, hy⟩ := residue_log hv r2
  obtain ⟨A0, hA0⟩ := residue_log hv r3
  obtain ⟨B0, hB0⟩ := residue_log hv r4
  obtain ⟨A1, hA1⟩ := residue_log hv r5
  obtain ⟨B1, hB1⟩ := residue_log hv r6
  obtain ⟨κ, hκ⟩ := residue_log hv hK
  rw [hx, hA0, ← pow_mul, ← pow_add, g_eq_iff hv] at q1 q1'
  rw [hx, hA1, ← pow_mul, ← pow_add, g_eq_iff hv] at q2 q2'
  rw [hκ, hy, hB0, ← pow_mul, ← pow_mul, ← pow_add, g_eq_iff hv] at q3 q3'
  rw [hκ, hy, hB1, ← pow_mul, ← pow_mul, ← pow_add, ← pow_add, g_eq_iff hv] at q4 q4'
  push_cast at q1 q1' q2 q2' q3 q3' q4 q4'
  have bounds1 := ((isValidResidue_iff hv _).1 r1).1
  have bounds2 := ((isValidResidue_iff hv _).1 r2).1
  have fin : ∀ m r : Nat, (r : ZMod E.P.q) = x → (y : ZMod E.P.q) = m + κ * x → EncryptsWith E.P K r m c := by
    intro m r hr hm
    refine (encryptsWith_iff_cast hv).2 ⟨bounds1, bounds2, ?_, ?_⟩
    · rw [hx, g_eq_iff hv]; exact hr.symm
    · rw [hy, hκ, ← pow_mul, ← pow_add, g_eq_iff hv]
      push_cast; rw [hr]; exact hm
  constructor
  · intro h0
    have hd : (pf.c0 : ZMod E.P.q) - pf'.c0 ≠ 0 := by
      rw [sub_ne_zero, Ne, castP_inj l1 l1']; exact h0
    obtain ⟨i, hi⟩ := invert_isOk hv.q_prime (b := aMinusBQ E.P pf.c0 pf'.c0) (by rw [aMinusBQ_cast hqp]; exact hd)
    refine ⟨multQ E.P (aMinusBQ E.P pf.v0 pf'.v0) i, by simp [divQ, hi, bind, Except.bind, pure, Except.pure], fin 0 _ ?_ ?_⟩
    · rw [multQ_cast, aMinusBQ_cast hqp, (invert_cast hv.q_prime hi).2, aMinusBQ_cast hqp, mul_inv_eq_iff_eq_mul₀ hd]
      linear_combination q1 - q1'
    · apply mul_right_cancel₀ hd
      push_cast
      linear_combination q3' - q3 + (κ : ZMod E.P.q) * (q1 - q1')
  · intro h0
    have h1 : pf.c1 ≠ pf'.c1 := by
      intro h1
      apply hne
      rw [← hs, ← hs', h0, h1]
    have hd : (pf.c1 : ZMod E.P.q) - pf'.c1 ≠ 0 := by
      rw [sub_ne_zero, Ne, castP_inj l2 l2']; exact h1
    obtain ⟨i, hi⟩ := invert_isOk hv.q_prime (b := aMinusBQ E.P pf.c1 pf'.c1) (by rw [aMinusBQ_cast hqp]; exact hd)
    refine ⟨multQ E.P (aMinusBQ E.P pf.v1 pf'.v1) i, by simp [divQ, hi, bind, Except.bind, pure, Except.pure], fin 1 _ ?_ ?_⟩
    · rw [multQ_cast, aMinusBQ_cast hqp, (invert_cast hv.q_prime hi).2, aMinusBQ_cast hqp, mul_inv_eq_iff_eq_mul₀ hd]
      linear_combination q2 - q2'
    · apply mul_right_cancel₀ hd
      linear_combination q4' - q4 + (κ : ZMod E.P.q) * (q2 - q2')

open Classical in
/-- C109: the same for a program that shows an encrypted vote with its proof: vote and nonce are found out. -/
theorem C109_vote (hv : P.Valid) (hmac : Bytes → Bytes → Bytes) (K base M : Nat) (hK : isValidResidue P K = true) {α : Type}
    (item : α → Ciphertext × DisjProof) (A : Asking α) (n : Nat) (hn : A.AtMost n) (f : Text → Nat) (T : Finset Text)
    (hT : challengeTexts P base ⊆ T) :
    M * ((oracles f T M).filter fun s => (item (A.run s)).2.isValid ⟨P, s, hmac⟩ (item (A.run s)).1 K base = true).card ^ 2
      ≤ (n + 1) * (oracles f T M).card *
        (((oracles f T M ×ˢ range M).filter fun x => VoteExtracted P K base item A x.1 x.2).card
          + (M / P.q + 1) *
            ((oracles f T M).filter fun s => (item (A.run s)).2.isValid ⟨P, s, hmac⟩ (item (A.run s)).1 K base = true).card) := by
  have h := forking P.q M (fun a => disjText base (item a).1 (item a).2)
    (fun s a => (item a).2.isValid ⟨P, s, hmac⟩ (item a).1 K base = true) A n hn f T (by
    intro s _ hs
    have hc := (DisjProof.isValid_iff (E := ⟨P, s, hmac⟩) hv _ _ K base).1 hs
    have lt : ∀ {y}, isValidResidue P y = true → y < P.p := fun h => ((isValidResidue_iff hv _).1 h).1
    refine hT (mem_union_left _ (mem_image.2 ⟨((item (A.run s)).1.pad, (item (A.run s)).1.data, (item (A.run s)).2.a0,
      (item (A.run s)).2.b0, (item (A.run s)).2.a1, (item (A.run s)).2.b1), ?_, rfl⟩))
    simp only [mem_product, mem_range]
    exact ⟨lt hc.1, lt hc.2.1, lt hc.2.2.1, lt hc.2.2.2.1, lt hc.2.2.2.2.1, lt hc.2.2.2.2.2.1⟩)
  refine h.trans (Nat.mul_le_mul_left _ (Nat.add_le_add_right (card_le_card fun x hx => ?_) _))
  rw [mem_filter] at hx ⊢
  obtain ⟨hx, h1, h2, h3, h4⟩ := hx
  refine ⟨hx, ?_⟩
  set s := x.1
  set s' := Function.update s (disjText base (item (A.run s)).1 (item (A.run s)).2) x.2 with hs'
  have h3' : disjText base (item (A.run s')).1 (item (A.run s')).2 = disjText base (item (A.run s)).1 (item (A.run s)).2 := h3
  have e := elemText_inj h3'
  simp only [List.cons.injEq, and_true, true_and] at e
  obtain ⟨e1, e2, e3, e4, e5, e6⟩ := e
  have ec : (item (A.run s')).1 = (item (A.run s)).1 := by
    cases hh : (item (A.run s')).1; cases hh' : (item (A.run s)).1
    rw [hh, hh'] at e1 e2
    simp only at e1 e2
    rw [e1, e2]
  have c1 := ((DisjProof.isValid_iff (E := ⟨P, s, hmac⟩) hv _ _ K base).1 h1).2.2.2.2.2.2.2.2.2.2.2.1
  have c2 := ((DisjProof.isValid_iff (E := ⟨P, s', hmac⟩) hv _ _ K base).1 h2).2.2.2.2.2.2.2.2.2.2.2.1
  rw [hashElems_disj] at c1 c2
  rw [h3', hs', Function.update_self] at c2
  have h2' : (item (A.run s')).2.isValid ⟨P, s', hmac⟩ (item (A.run s)).1 K base = true := ec ▸ h2
  have hx2 := C04_extraction ⟨P, s, hmac⟩ ⟨P, s', hmac⟩ rfl hv K base base hK _ _ _ h1 h2'
    (by unfold DisjProof.commitments; rw [e3, e4, e5, e6])
    (fun hc => h4 (c1.symm.trans (hc.trans c2)))
  unfold VoteExtracted extractVote
  simp only
  by_cases h0 : (item (A.run s)).2.c0 = (item (A.run s')).2.c0
  · obtain ⟨r, hr, he⟩ := hx2.2 h0
    refine ⟨1, r, ?_, Or.inr rfl, he⟩
    rw [if_neg (not_not.2 h0)]
    rw [hr]; rfl
  · obtain ⟨r, hr, he⟩ := hx2.1 h0
    refine ⟨0, r, ?_, Or.inl rfl, he⟩
    rw [if_pos h0]
    rw [hr]; rfl

/-- The bounds above for programs that are accepted for at least one in `D` hash functions. -/
theorem extraction_bound {M S O X n D β : Nat} (h : M * S ^ 2 ≤ (n + 1) * O * (X + β * S)) (hD : O ≤ D * S)
    (hM : 2 * ((n + 1) * D * β) ≤ M) : O * M ≤ 2 * (n + 1) * D ^ 2 * X := by
  rcases Nat.eq_zero_or_pos S with rfl | hS
  · have : O = 0 := by simpa using hD
    simp [this]
  have h1 : S * (M * S) ≤ S * ((n + 1) * D * (X + β * S)) := by
    calc S * (M * S) = M * S ^ 2 := by ring
      _ ≤ (n + 1) * O * (X + β * S) := h
      _ ≤ (n + 1) * (D * S) * (X + β * S) := Nat.mul_le_mul_right _ (Nat.mul_le_mul_left _ hD)
      _ = _ := by ring
  have h2 : M * S ≤ (n + 1) * D * (X + β * S) := Nat.le_of_mul_le_mul_left h1 hS
  have h3 : 2 * ((n + 1) * D * β) * S ≤ M * S := Nat.mul_le_mul_right _ hM
  have h4 : M * S ≤ 2 * ((n + 1) * D * X) := by
    have e1 : (n + 1) * D * (X + β * S) = (n + 1) * D * X + (n + 1) * D * β * S := by ring
    have e2 : 2 * ((n + 1) * D * β) * S = 2 * ((n + 1) * D * β * S) := by ring
    omega
  calc O * M ≤ D * S * M := Nat.mul_le_mul_right _ hD
    _ = D * (M * S) := by ring
    _ ≤ D * (2 * ((n + 1) * D * X)) := Nat.mul_le_mul_left _ h4
    _ = _ := by ring

theorem standard_hashes : 2 ^ 256 / standardConstants.params.q + 1 = 2 := by decide +kernel

open Classical in
/-- C109 at the standard constants and hashes of 256 bits: whoever shows an accepted proof of knowledge for at least one in `D` hash
functions after asking for `n` hashes has a secret that is found out with one more run for at least one in `2 (n + 1) D²` hash functions and
new values. -/
theorem C109_secret_standard (hp : standardConstants.p.Prime) (hmac : Bytes → Bytes → Bytes) {α : Type} (proof : α → SchnorrProof)
    (A : Asking α) (n D : Nat) (hn : A.AtMost n) (f : Text → Nat) (T : Finset Text)
    (hT : schnorrTexts standardConstants.params ⊆ T) (hbig : 4 * ((n + 1) * D) ≤ 2 ^ 256)
    (hD : (oracles f T (2 ^ 256)).card ≤
      D * ((oracles f T (2 ^ 256)).filter fun s => (proof (A.run s)).isValid ⟨standardConstants.params, s, hmac⟩ = true).card) :
    (oracles f T (2 ^ 256) ×ˢ range (2 ^ 256)).card ≤ 2 * (n + 1) * D ^ 2 *
      ((oracles f T (2 ^ 256) ×ˢ range (2 ^ 256)).filter fun x => Extracted standardConstants.params proof A x.1 x.2).card := by
  have h := C109_secret (C61_standard_valid hp) hmac (2 ^ 256) proof A n hn f T hT
  rw [standard_hashes] at h
  have := extraction_bound h hD (le_trans (le_of_eq (by ring)) hbig)
  rw [card_product, card_range]
  exact this

open Classical in
/-- C109 at the standard constants: the same for encrypted votes. -/
theorem C109_vote_standard (hp : standardConstants.p.Prime) (hmac : Bytes → Bytes → Bytes) (K base : Nat)
    (hK : isValidResidue standardConstants.params K = true) {α : Type} (item : α → Ciphertext × DisjProof) (A : Asking α) (n D : Nat)
    (hn : A.AtMost n) (f : Text → Nat) (T : Finset Text) (hT : challengeTexts standardConstants.params base ⊆ T)
    (hbig : 4 * ((n + 1) * D) ≤ 2 ^ 256)
    (hD : (oracles f T (2 ^ 256)).card ≤ D * ((oracles f T (2 ^ 256)).filter fun s =>
      (item (A.run s)).2.isValid ⟨standardConstants.params, s, hmac⟩ (item (A.run s)).1 K base = true).card) :
    (oracles f T (2 ^ 256) ×ˢ range (2 ^ 256)).card ≤ 2 * (n + 1) * D ^ 2 *
      ((oracles f T (2 ^ 256) ×ˢ range (2 ^ 256)).filter fun x => VoteExtracted standardConstants.params K base item A x.1 x.2).card := by
  have h := C109_vote (C61_standard_valid hp) hmac K base (2 ^ 256) hK item A n hn f T hT
  rw [standard_hashes] at h
  have := extraction_bound h hD (le_trans (le_of_eq (by ring)) hbig)
  rw [card_product, card_range]
  exact this

/-! ### C106 at the standard constants -/

open Classical in
/-- C106 at the standard constants and hashes of 256 bits: whoever asks for `n` hashes and shows a ballot with `N` proofs is accepted
although the ballot is not a proper one for at most `(n + N) (number of different limits + 1)` in 2^255 hash functions. -/
theorem C106_ballots_standard (hp : standardConstants.p.Prime) (hmac : Bytes → Bytes → Bytes) (K base : Nat)
    (hK : isValidResidue standardConstants.params K = true) (limits : List Nat) (A : Asking (List PublishedContest)) (n N : Nat)
    (hn : A.AtMost n) (hN : ∀ pubs, A.CanShow pubs → (challengesOf pubs).length ≤ N) (f : Text → Nat) (T : Finset Text)
    (hT : challengeTexts standardConstants.params base ⊆ T) :
    2 ^ 255 * ((oracles f T (2 ^ 256)).filter fun s => AcceptedContests ⟨standardConstants.params, s, hmac⟩ K base limits (A.run s) ∧
        ¬ HonestContests standardConstants.params K limits (A.run s)).card
      ≤ (n + N) * (limits.toFinset.card + 1) * (oracles f T (2 ^ 256)).card := by
  have h := C106_ballots_partial (C61_standard_valid hp) C92_standard_sizes.1 hmac K base (2 ^ 256) hK limits A n N hn hN f T hT
  rw [standard_hashes] at h
  have e : (2 : Nat) ^ 256 = 2 * 2 ^ 255 := by norm_num
  generalize hc : ((oracles f T (2 ^ 256)).filter fun s => AcceptedContests ⟨standardConstants.params, s, hmac⟩ K base limits (A.run s) ∧
        ¬ HonestContests standardConstants.params K limits (A.run s)).card = X at h ⊢
  generalize (oracles f T (2 ^ 256)).card = O at h ⊢
  rw [e] at h
  have h1 : 2 * (2 ^ 255 * X) ≤ 2 * ((n + N) * (limits.toFinset.card + 1) * O) := by
    calc 2 * (2 ^ 255 * X) = 2 * 2 ^ 255 * X := by ring
      _ ≤ _ := h
      _ = _ := by ring
  exact Nat.le_of_mul_le_mul_left h1 (by decide)

/-! ### Cases -/

/-- An honest guardian asks for one hash and shows their proof, which is accepted for all hash functions. -/
def honestProver (P : Params) (x r : Nat) : Asking SchnorrProof :=
  .asks (elemText [P.g ^ x % P.p, P.g ^ r % P.p]) fun v => .shows ⟨P.g ^ x % P.p, P.g ^ r % P.p, v % P.q, aPlusBCQ P r x (v % P.q)⟩

theorem honestProver_run (hmac : Bytes → Bytes → Bytes) (x r : Nat) (s : Text → Nat) :
    (honestProver P x r).run s = makeSchnorr ⟨P, s, hmac⟩ ⟨x, P.g ^ x % P.p⟩ r := by
  have h : hashElems ⟨P, s, hmac⟩ [.elem (P.g ^ x % P.p), .elem (P.g ^ r % P.p)] = s (elemText [P.g ^ x % P.p, P.g ^ r % P.p]) % P.q :=
    hashElems_schnorr hmac s ⟨P.g ^ x % P.p, P.g ^ r % P.p, 0, 0⟩
  unfold makeSchnorr
  have hg : gPowP P r = P.g ^ r % P.p := rfl
  simp only [hg, h]
  rfl

/-- The hypotheses of `C109_secret_standard` hold for the honest guardian, with `n = 1` and `D = 1`. -/
example (hp : standardConstants.p.Prime) (hmac : Bytes → Bytes → Bytes) (x r : Nat) (f : Text → Nat) (T : Finset Text) :
    (honestProver standardConstants.params x r).AtMost 1 ∧ 4 * ((1 + 1) * 1) ≤ 2 ^ 256 ∧
    (oracles f T (2 ^ 256)).card ≤ 1 * ((oracles f T (2 ^ 256)).filter fun s =>
      ((honestProver standardConstants.params x r).run s).isValid ⟨standardConstants.params, s, hmac⟩ = true).card := by
  refine ⟨fun _ => trivial, by norm_num, ?_⟩
  rw [one_mul]
  refine card_le_card fun s hs => mem_filter.2 ⟨hs, ?_⟩
  rw [honestProver_run hmac]
  exact C09_completeness ⟨standardConstants.params, s, hmac⟩ (C61_standard_valid hp) x r

end EG
