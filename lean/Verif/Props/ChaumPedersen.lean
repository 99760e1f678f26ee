import Verif.Spec.Mid
import Verif.Lemmas.ChaumPedersen
import Verif.Spec.Toy
import Verif.Lemmas.Hash

/-!
# C03-C09: zero-knowledge proofs — completeness and soundness

`E` is the group together with an arbitrary hash function, so every statement holds for every hash
function.  Soundness is stated for two accepting transcripts with the same commitments: they may use
different hash functions and headers (the "rewinding" of the random-oracle argument).
-/

namespace EG

/-! ### C03 -/

/-- C03 For a ciphertext of 0 or 1 the prover either returns a proof that verifies, or (only for
plaintext 1, and only when the first derived nonce is 0) raises `OverflowError`.
Missing from the full claim: the raising case, see `C03_zero_nonce_fails`. -/
theorem C03_completeness_partial (E : Env) (hv : E.P.Valid) (K r q seed m : Nat) (c : Ciphertext)
    (hK : isValidResidue E.P K = true) (hm : m = 0 ∨ m = 1) (hc : EncryptsWith E.P K r m c) :
    (∃ pf, makeDisj E c r K q seed m = .ok pf ∧ pf.isValid E c K q = true) ∨
    (m = 1 ∧ nonce E seed disjHeader 0 = 0 ∧ makeDisj E c r K q seed m = .error .overflow) := by
  obtain ⟨hr1, hr2⟩ := hc.residue hv hK
  obtain ⟨_, _, h3, h4⟩ := (encryptsWith_iff_cast hv).1 hc
  have hK' := ((isValidResidue_iff hv K).1 hK).2
  have hg := g_cast_pow hv
  have hqp := hv.q_pos
  rcases hm with rfl | rfl
  · left
    refine ⟨makeDisjZero E c r K q seed, by simp [makeDisj], ?_⟩
    rw [DisjProof.isValid_iff hv]
    simp only [makeDisjZero]
    generalize hw1 : nonce E seed disjHeader 0 = c1
    generalize nonce E seed disjHeader 1 = v
    generalize nonce E seed disjHeader 2 = u0
    generalize hch : hashElems E _ = ch
    have hc1 : c1 < E.P.q := hw1 ▸ nonce_lt hqp _ _ _
    have hcl : ch < E.P.q := hch ▸ hashElems_lt hqp _
    refine ⟨hr1, hr2, gPowP_residue hv _, powP_residue hv _ hK, gPowP_residue hv _,
      multP_residue hv (powP_residue hv _ hK) (gPowP_residue hv _), aMinusBQ_lt hqp _ _, hc1,
      aPlusBCQ_lt hqp _ _ _, aPlusBCQ_lt hqp _ _ _, ?_, trivial, ?_, ?_, ?_, ?_⟩
    · rw [← castP_inj (addQ_lt hqp _ _) hcl, addQ_cast, aMinusBQ_cast hqp]; ring
    · rw [gPowP_cast, h3, ← pow_mul, ← pow_add, g_eq_iff hv, aPlusBCQ_cast]
      push_cast; ring
    · rw [gPowP_cast, h3, ← pow_mul, ← pow_add, g_eq_iff hv, aPlusBCQ_cast]
      push_cast; ring
    · rw [powP_cast, h4, pow_zero, one_mul, ← pow_mul, ← pow_add]
      apply pow_congr_mod hK'
      rw [aPlusBCQ_cast]; push_cast; ring
    · rw [multP_cast, powP_cast, gPowP_cast, h4, pow_zero, one_mul, ← pow_mul]
      have : (K : ZMod E.P.p) ^ aPlusBCQ E.P v c1 r = (K : ZMod E.P.p) ^ (v + r * c1) := by
        apply pow_congr_mod hK'
        rw [aPlusBCQ_cast]; push_cast; ring
      rw [this, pow_add]; ring
  · by_cases hw : nonce E seed disjHeader 0 = 0
    · right
      refine ⟨rfl, hw, ?_⟩
      simp only [makeDisj, makeDisjOne, hw, negateQ_zero, bind, Except.bind]
      rfl
    · left
      have hwlt : nonce E seed disjHeader 0 < E.P.q := nonce_lt hqp _ _ _
      have hneg := negateQ_ok (P := E.P) (a := nonce E seed disjHeader 0) (by omega) hwlt.le
      have hmk : ∃ pf, makeDisj E c r K q seed ((1 : Nat) : Int) = .ok pf ∧
          makeDisjOne E c r K q seed = .ok pf := by
        have : makeDisj E c r K q seed ((1 : Nat) : Int) = makeDisjOne E c r K q seed := rfl
        rw [this]
        simp only [makeDisjOne, hneg, bind, Except.bind, pure, Except.pure]
        exact ⟨_, rfl, rfl⟩
      obtain ⟨pf, e1, e2⟩ := hmk
      refine ⟨pf, e1, ?_⟩
      simp only [makeDisjOne, hneg, bind, Except.bind, pure, Except.pure, Except.ok.injEq] at e2
      subst e2
      rw [DisjProof.isValid_iff hv]
      simp only
      generalize hw1 : nonce E seed disjHeader 0 = w at hw hwlt
      generalize nonce E seed disjHeader 1 = v
      generalize nonce E seed disjHeader 2 = u1
      generalize hch : hashElems E _ = ch
      have hcl : ch < E.P.q := hch ▸ hashElems_lt hqp _
      have hnc : ((E.P.q - w : Nat) : ZMod E.P.q) = -(w : ZMod E.P.q) := by
        rw [Nat.cast_sub hwlt.le]; simp
      refine ⟨hr1, hr2, gPowP_residue hv _,
        multP_residue hv (powP_residue hv _ hK) (gPowP_residue hv _), gPowP_residue hv _,
        powP_residue hv _ hK, by omega, addQ_lt hqp _ _, aPlusBCQ_lt hqp _ _ _,
        aPlusBCQ_lt hqp _ _ _, ?_, trivial, ?_, ?_, ?_, ?_⟩
      · rw [← castP_inj (addQ_lt hqp _ _) hcl, addQ_cast, addQ_cast, hnc]; ring
      · rw [gPowP_cast, h3, ← pow_mul, ← pow_add, g_eq_iff hv, aPlusBCQ_cast]
        push_cast; ring
      · rw [gPowP_cast, h3, ← pow_mul, ← pow_add, g_eq_iff hv, aPlusBCQ_cast]
        push_cast; ring
      · rw [multP_cast, powP_cast, gPowP_cast, h4, pow_one, mul_pow, ← pow_mul]
        have e1 : (K : ZMod E.P.p) ^ aPlusBCQ E.P v (E.P.q - w) r
            = (K : ZMod E.P.p) ^ (v + r * (E.P.q - w)) := by
          apply pow_congr_mod hK'
          rw [aPlusBCQ_cast]; push_cast; ring
        have e2 : (E.P.g : ZMod E.P.p) ^ w * (E.P.g : ZMod E.P.p) ^ (E.P.q - w) = 1 := by
          rw [← pow_add, Nat.add_sub_cancel' hwlt.le, hg]
        rw [e1, pow_add]
        calc (K : ZMod E.P.p) ^ v * (K : ZMod E.P.p) ^ (r * (E.P.q - w))
            = (K : ZMod E.P.p) ^ v * (K : ZMod E.P.p) ^ (r * (E.P.q - w)) *
              ((E.P.g : ZMod E.P.p) ^ w * (E.P.g : ZMod E.P.p) ^ (E.P.q - w)) := by
                rw [e2, mul_one]
          _ = _ := by ring
      · rw [powP_cast, h4, pow_one, mul_pow, ← pow_mul]
        have e1 : (K : ZMod E.P.p) ^ aPlusBCQ E.P u1 (addQ E.P ch w) r
            = (K : ZMod E.P.p) ^ (u1 + r * (addQ E.P ch w)) := by
          apply pow_congr_mod hK'
          rw [aPlusBCQ_cast]; push_cast; ring
        rw [e1, pow_add]; ring

/-- C03 For plaintext 0 there is no exception: the proof always verifies. -/
theorem C03_completeness_zero (E : Env) (hv : E.P.Valid) (K r q seed : Nat) (c : Ciphertext)
    (hK : isValidResidue E.P K = true) (hc : EncryptsWith E.P K r 0 c) :
    ∃ pf, makeDisj E c r K q seed 0 = .ok pf ∧ pf.isValid E c K q = true := by
  rcases C03_completeness_partial E hv K r q seed 0 c hK (Or.inl rfl) hc with h | h
  · exact h
  · exact absurd h.1 (by decide)

/-- C03 The prover refuses any other plaintext. -/
theorem C03_other_plaintext_raises (E : Env) (K r q seed : Nat) (c : Ciphertext) (m : Int)
    (h : m < 0 ∨ 1 < m) : makeDisj E c r K q seed m = .error .assertion := by
  unfold makeDisj; rw [if_pos (by omega)]

example : (makeDisj toyEnv ⟨16 ^ 5 % 157, 16 * (16 ^ 3 % 157) ^ 5 % 157⟩ 5 (16 ^ 3 % 157) 9 4 1).map
    (fun pf => pf.isValid toyEnv ⟨16 ^ 5 % 157, 16 * (16 ^ 3 % 157) ^ 5 % 157⟩ (16 ^ 3 % 157) 9)
    = .ok true := by decide

/-- C03, negative: with a hash function that maps the nonce input to 0 the prover raises on an honest
encryption of 1 (`negate_q(0)`). -/
theorem C03_zero_nonce_fails :
    makeDisj { toyEnv with sha := fun _ => 0 } ⟨16 ^ 5 % 157, 16 * (16 ^ 3 % 157) ^ 5 % 157⟩ 5
      (16 ^ 3 % 157) 9 4 1 = .error .overflow := by decide

/-! ### C04 -/

/-- The commitments of a disjunctive proof. -/
def DisjProof.commitments (pf : DisjProof) : Nat × Nat × Nat × Nat := (pf.a0, pf.b0, pf.a1, pf.b1)

/-- C04 Two accepting proofs with the same commitments and different challenges: the ciphertext encrypts
0 or 1. -/
theorem C04_special_soundness (E E' : Env) (hE : E.P = E'.P) (hv : E.P.Valid) (K q q' : Nat)
    (hK : isValidResidue E.P K = true) (c : Ciphertext) (pf pf' : DisjProof)
    (h : pf.isValid E c K q = true) (h' : pf'.isValid E' c K q' = true)
    (hcomm : pf.commitments = pf'.commitments) (hne : pf.c ≠ pf'.c) :
    Encrypts E.P K 0 c ∨ Encrypts E.P K 1 c := by
  have : Fact E.P.q.Prime := ⟨hv.q_prime⟩
  have hqp := hv.q_pos
  rw [DisjProof.isValid_iff hv] at h
  rw [DisjProof.isValid_iff (hE ▸ hv), ← hE] at h'
  simp only [DisjProof.commitments, Prod.mk.injEq] at hcomm
  obtain ⟨ea0, eb0, ea1, eb1⟩ := hcomm
  obtain ⟨r1, r2, r3, r4, r5, r6, l1, l2, _, _, hs, hh, q1, q2, q3, q4⟩ := h
  obtain ⟨_, _, _, _, _, _, l1', l2', _, _, hs', hh', q1', q2', q3', q4'⟩ := h'
  rw [← ea0] at q1'; rw [← ea1] at q2'; rw [← eb0] at q3'; rw [← eb1] at q4'
  obtain ⟨x, hx⟩ := residue_log hv r1
  obtain ⟨y, hy⟩ := residue_log hv r2
  obtain ⟨A0, hA0⟩ := residue_log hv r3
  obtain ⟨B0, hB0⟩ := residue_log hv r4
  obtain ⟨A1, hA1⟩ := residue_log hv r5
  obtain ⟨B1, hB1⟩ := residue_log hv r6
  obtain ⟨κ, hκ⟩ := residue_log hv hK
  rw [hx, hA0, ← pow_mul, ← pow_add, g_eq_iff hv] at q1 q1'
  rw [hx, hA1, ← pow_mul, ← pow_add, g_eq_iff hv] at q2 q2'
  rw [hκ, hy, hB0, ← pow_mul, ← pow_mul, ← pow_add, g_eq_iff hv] at q3 q3'
  rw [hκ, hy, hB1, ← pow_mul, ← pow_mul, ← pow_add, ← pow_add, g_eq_iff hv] at q4 q4'
  push_cast at q1 q1' q2 q2' q3 q3' q4 q4'
  have bounds1 := ((isValidResidue_iff hv _).1 r1).1
  have bounds2 := ((isValidResidue_iff hv _).1 r2).1
  -- it suffices to find the exponent of the second component
  have fin : ∀ m : Nat, (y : ZMod E.P.q) = m + κ * x → Encrypts E.P K m c := by
    intro m hm
    refine ⟨x, (encryptsWith_iff_cast hv).2 ⟨bounds1, bounds2, hx, ?_⟩⟩
    rw [hy, hκ, ← pow_mul, ← pow_add, g_eq_iff hv]
    push_cast; exact hm
  by_cases h0 : (pf.c0 : ZMod E.P.q) = pf'.c0
  · by_cases h1 : (pf.c1 : ZMod E.P.q) = pf'.c1
    · exfalso
      apply hne
      rw [← hs, ← hs', ← castP_inj (addQ_lt hqp _ _) (addQ_lt hqp _ _), addQ_cast, addQ_cast, h0, h1]
    · right
      apply fin
      have hd : (pf.c1 : ZMod E.P.q) - pf'.c1 ≠ 0 := sub_ne_zero.2 h1
      apply mul_right_cancel₀ hd
      linear_combination q4' - q4 + (κ : ZMod E.P.q) * (q2 - q2')
  · left
    apply fin
    have hd : (pf.c0 : ZMod E.P.q) - pf'.c0 ≠ 0 := sub_ne_zero.2 h0
    apply mul_right_cancel₀ hd
    push_cast
    linear_combination q3' - q3 + (κ : ZMod E.P.q) * (q1 - q1')

/-- Two plaintexts of one ciphertext agree modulo `q`. -/
theorem C04_plaintext_unique (P : Params) (hv : P.Valid) (K m m' : Nat)
    (hK : isValidResidue P K = true) (c : Ciphertext) (h : Encrypts P K m c) (h' : Encrypts P K m' c) :
    m % P.q = m' % P.q := by
  obtain ⟨r, hr⟩ := h
  obtain ⟨r', hr'⟩ := h'
  obtain ⟨_, _, a3, a4⟩ := (encryptsWith_iff_cast hv).1 hr
  obtain ⟨_, _, b3, b4⟩ := (encryptsWith_iff_cast hv).1 hr'
  obtain ⟨κ, hκ⟩ := residue_log hv hK
  rw [b3, g_eq_iff hv] at a3
  rw [b4, hκ, ← pow_mul, ← pow_mul, ← pow_add, ← pow_add, g_eq_iff hv] at a4
  push_cast at a4
  rw [a3] at a4
  have : (m' : ZMod P.q) = m := by linear_combination a4
  exact ((ZMod.natCast_eq_natCast_iff' _ _ _).1 this).symm

/-- C04 If the ciphertext encrypts something other than 0 and 1 modulo `q`, then for each choice of
commitments there is a single challenge that any accepted proof must carry, whatever the hash function,
the header and the responses: an accepted proof means the hash hit that one value. -/
theorem C04_single_challenge (P : Params) (hv : P.Valid) (K m : Nat) (hK : isValidResidue P K = true)
    (c : Ciphertext) (hc : Encrypts P K m c) (hm0 : m % P.q ≠ 0) (hm1 : m % P.q ≠ 1)
    (comm : Nat × Nat × Nat × Nat) :
    ∃ star, ∀ (E : Env) (q : Nat) (pf : DisjProof), E.P = P → pf.commitments = comm →
      pf.isValid E c K q = true →
      hashElems E (disjHashArgs q c comm.1 comm.2.1 comm.2.2.1 comm.2.2.2) = star := by
  by_cases hex : ∃ (E : Env) (q : Nat) (pf : DisjProof), E.P = P ∧ pf.commitments = comm ∧
      pf.isValid E c K q = true
  · obtain ⟨E, q, pf, hE, hcm, hval⟩ := hex
    subst hE
    refine ⟨pf.c, ?_⟩
    intro E' q' pf' hE' hcm' hval'
    have hh' := ((DisjProof.isValid_iff (hE' ▸ hv) pf' c K q').1 hval').2.2.2.2.2.2.2.2.2.2.2.1
    have hcomm' : comm.1 = pf'.a0 ∧ comm.2.1 = pf'.b0 ∧ comm.2.2.1 = pf'.a1 ∧ comm.2.2.2 = pf'.b1 := by
      rw [← hcm']; exact ⟨rfl, rfl, rfl, rfl⟩
    rw [hcomm'.1, hcomm'.2.1, hcomm'.2.2.1, hcomm'.2.2.2, ← hh']
    by_contra hne
    have h2 : 1 % E.P.q = 1 := Nat.mod_eq_of_lt hv.one_lt_q
    rcases C04_special_soundness E E' hE'.symm hv K q q' hK c pf pf' hval hval'
      (hcm.trans hcm'.symm) (fun h => hne h.symm) with h | h
    · exact hm0 (by have := C04_plaintext_unique E.P hv K _ _ hK c hc h; simpa using this)
    · exact hm1 (by have := C04_plaintext_unique E.P hv K _ _ hK c hc h; rw [h2] at this; exact this)
  · refine ⟨0, ?_⟩
    intro E q pf h1 h2 h3
    exact absurd ⟨E, q, pf, h1, h2, h3⟩ hex

/-- The hypotheses are met by an encryption of 2. -/
example : Encrypts extraSmall (16 ^ 3 % 157) 2 ⟨16 ^ 5 % 157, 16 ^ 2 * (16 ^ 3 % 157) ^ 5 % 157⟩ :=
  ⟨5, rfl, rfl⟩

/-- C04 The challenge binds everything it is computed from: two accepted proofs with the same challenge have the
same base hash, ciphertext and commitments, or the two hashed texts collide. -/
theorem C04_challenge_binds (E : Env) (hv : E.P.Valid) (K K' q q' : Nat) (c c' : Ciphertext) (pf pf' : DisjProof)
    (h : pf.isValid E c K q = true) (h' : pf'.isValid E c' K' q' = true) (he : pf.c = pf'.c) :
    (q = q' ∧ c = c' ∧ pf.commitments = pf'.commitments) ∨
    CollisionIn E [hashText E (disjHashArgs q c pf.a0 pf.b0 pf.a1 pf.b1),
      hashText E (disjHashArgs q' c' pf'.a0 pf'.b0 pf'.a1 pf'.b1)] := by
  have h1 := ((DisjProof.isValid_iff hv pf c K q).1 h).2.2.2.2.2.2.2.2.2.2.2.1
  have h2 := ((DisjProof.isValid_iff hv pf' c' K' q').1 h').2.2.2.2.2.2.2.2.2.2.2.1
  rw [h1, h2] at he
  rcases hashElems_binding (by simp [disjHashArgs, sameKinds, sameKind]) he with h3 | h3
  · left
    simp only [disjHashArgs, List.cons.injEq, HArg.elem.injEq, and_true] at h3
    obtain ⟨e1, e2, e3, e4, e5, e6, e7⟩ := h3
    refine ⟨e1, ?_, ?_⟩
    · cases c; cases c'; simp_all
    · simp [DisjProof.commitments, e4, e5, e6, e7]
  · right
    simpa [hashTexts, disjHashArgs, argsTexts, argTexts] using h3

/-! ### C05, C06 -/

/-- C05 The proof made for a ciphertext of the constant `L` verifies, for `0 ≤ L < 10⁹`, `L < q`.  The
hypothesis `(q-1)² < p` is needed because the verifier reduces the exponent `c·L` modulo `p`; it holds
for the production group and fails for the medium test group, see `C05_medium_group_fails`. -/
theorem C05_completeness_partial (E : Env) (hv : E.P.Valid) (hpq : (E.P.q - 1) * (E.P.q - 1) < E.P.p)
    (K r L seed q : Nat) (c : Ciphertext) (hK : isValidResidue E.P K = true) (hL : L < 1000000000)
    (hLq : L < E.P.q) (hc : EncryptsWith E.P K r L c) :
    (makeConst E c L r K seed q).isValid E c K q = true := by
  obtain ⟨hr1, hr2⟩ := hc.residue hv hK
  obtain ⟨_, _, h3, h4⟩ := (encryptsWith_iff_cast hv).1 hc
  have hK' := ((isValidResidue_iff hv K).1 hK).2
  have hqp := hv.q_pos
  rw [ConstProof.isValid_iff hv]
  simp only [makeConst]
  generalize nonce E seed constHeader 0 = u
  generalize hch : hashElems E _ = ch
  have hcl : ch < E.P.q := hch ▸ hashElems_lt hqp _
  have hcL : ch * L < E.P.p :=
    lt_of_le_of_lt (Nat.mul_le_mul (by omega) (by omega)) hpq
  refine ⟨hr1, hr2, gPowP_residue hv _, powP_residue hv _ hK, hcl, aPlusBCQ_lt hqp _ _ _, trivial,
    ⟨by omega, by omega⟩, by omega, ?_, ?_⟩
  · rw [gPowP_cast, h3, ← pow_mul, ← pow_add, g_eq_iff hv, aPlusBCQ_cast]
    push_cast; ring
  · have e1 : (K : ZMod E.P.p) ^ aPlusBCQ E.P u ch r = (K : ZMod E.P.p) ^ (u + r * ch) := by
      apply pow_congr_mod hK'
      rw [aPlusBCQ_cast]; push_cast; ring
    simp only [Int.toNat_natCast]
    rw [Nat.mod_eq_of_lt hcL, powP_cast, h4, e1, pow_add, mul_pow, ← pow_mul, ← pow_mul]
    ring

example : (makeConst toyEnv ⟨16 ^ 5 % 157, 16 ^ 2 * (16 ^ 3 % 157) ^ 5 % 157⟩ 2 5 (16 ^ 3 % 157) 4
    9).isValid toyEnv ⟨16 ^ 5 % 157, 16 ^ 2 * (16 ^ 3 % 157) ^ 5 % 157⟩ (16 ^ 3 % 157) 9 = true := by
  decide

/-- constants.py:53-55 `MEDIUM_TEST_CONSTANTS`. -/
def mediumParams : Params := ⟨65267, 32633, 3⟩

/-- C05, negative: in the medium test group the reduction of `c·L` modulo `p` rejects an honest proof
for `L = 3`. -/
theorem C05_medium_group_fails :
    let E : Env := { toyEnv with P := mediumParams, sha := fun _ => 30000 }
    let c : Ciphertext := ⟨3 ^ 5 % 65267, 3 ^ 3 * (3 ^ 7 % 65267) ^ 5 % 65267⟩
    EncryptsWith E.P (3 ^ 7 % 65267) 5 3 c ∧ isValidResidue E.P (3 ^ 7 % 65267) = true ∧
    (makeConst E c 3 5 (3 ^ 7 % 65267) 4 9).isValid E c (3 ^ 7 % 65267) 9 = false := by
  refine ⟨⟨rfl, rfl⟩, ?_, ?_⟩ <;> decide +kernel

example : midParams.Valid ∧ (midParams.q - 1) * (midParams.q - 1) < midParams.p :=
  ⟨midParams_valid, by decide⟩

/-- C06 Two accepting proofs with the same commitments, the same constant and different challenges: the
ciphertext encrypts the constant. -/
theorem C06_special_soundness_partial (E E' : Env) (hE : E.P = E'.P) (hv : E.P.Valid)
    (hpq : (E.P.q - 1) * (E.P.q - 1) < E.P.p) (K q q' : Nat)
    (hK : isValidResidue E.P K = true) (c : Ciphertext) (pf pf' : ConstProof)
    (h : pf.isValid E c K q = true) (h' : pf'.isValid E' c K q' = true)
    (ha : pf.a = pf'.a) (hb : pf.b = pf'.b) (hL : pf.constant = pf'.constant) (hne : pf.c ≠ pf'.c) :
    Encrypts E.P K pf.constant.toNat c := by
  have : Fact E.P.q.Prime := ⟨hv.q_prime⟩
  rw [ConstProof.isValid_iff hv] at h
  rw [ConstProof.isValid_iff (hE ▸ hv), ← hE] at h'
  obtain ⟨r1, r2, r3, r4, l1, l2, _, ⟨s1, _⟩, s3, q1, q2⟩ := h
  obtain ⟨_, _, _, _, l1', l2', _, _, _, q1', q2'⟩ := h'
  rw [← ha] at q1'; rw [← hb, ← hL] at q2'
  have hlt : ∀ x, x < E.P.q → x * pf.constant.toNat < E.P.p := fun x hx =>
    lt_of_le_of_lt (Nat.mul_le_mul (by omega) (by omega)) hpq
  rw [Nat.mod_eq_of_lt (hlt _ l1)] at q2
  rw [Nat.mod_eq_of_lt (hlt _ l1')] at q2'
  obtain ⟨x, hx⟩ := residue_log hv r1
  obtain ⟨y, hy⟩ := residue_log hv r2
  obtain ⟨A, hA⟩ := residue_log hv r3
  obtain ⟨B, hB⟩ := residue_log hv r4
  obtain ⟨κ, hκ⟩ := residue_log hv hK
  rw [hx, hA, ← pow_mul, ← pow_add, g_eq_iff hv] at q1 q1'
  rw [hκ, hy, hB, ← pow_mul, ← pow_mul, ← pow_add, ← pow_add, g_eq_iff hv] at q2 q2'
  push_cast at q1 q1' q2 q2'
  have bounds1 := ((isValidResidue_iff hv _).1 r1).1
  have bounds2 := ((isValidResidue_iff hv _).1 r2).1
  refine ⟨x, (encryptsWith_iff_cast hv).2 ⟨bounds1, bounds2, hx, ?_⟩⟩
  rw [hy, hκ, ← pow_mul, ← pow_add, g_eq_iff hv]
  push_cast
  have hd : (pf.c : ZMod E.P.q) - pf'.c ≠ 0 := by
    rw [sub_ne_zero, Ne, castP_inj l1 l1']; exact hne
  apply mul_right_cancel₀ hd
  linear_combination q2' - q2 + (κ : ZMod E.P.q) * (q1 - q1')

/-- C06 If the ciphertext encrypts a value different from `L` modulo `q`, then for each choice of
commitments a single challenge can be answered by a proof that states the constant `L`. -/
theorem C06_single_challenge_partial (P : Params) (hv : P.Valid) (hpq : (P.q - 1) * (P.q - 1) < P.p)
    (K m : Nat) (L : Int) (hK : isValidResidue P K = true) (c : Ciphertext) (hc : Encrypts P K m c)
    (hm : m % P.q ≠ L.toNat % P.q) (a b : Nat) :
    ∃ star, ∀ (E : Env) (q : Nat) (pf : ConstProof), E.P = P → pf.a = a → pf.b = b →
      pf.constant = L → pf.isValid E c K q = true →
      hashElems E (constHashArgs q c a b) = star := by
  by_cases hex : ∃ (E : Env) (q : Nat) (pf : ConstProof), E.P = P ∧ pf.a = a ∧ pf.b = b ∧
      pf.constant = L ∧ pf.isValid E c K q = true
  · obtain ⟨E, q, pf, hE, ha, hb, hL, hval⟩ := hex
    subst hE
    refine ⟨pf.c, ?_⟩
    intro E' q' pf' hE' ha' hb' hL' hval'
    have hh' := ((ConstProof.isValid_iff (hE' ▸ hv) pf' c K q').1 hval').2.2.2.2.2.2.1
    rw [← ha', ← hb', ← hh']
    by_contra hne
    have := C06_special_soundness_partial E E' hE'.symm hv hpq K q q' hK c pf pf' hval hval'
      (ha.trans ha'.symm) (hb.trans hb'.symm) (hL.trans hL'.symm) (fun h => hne h.symm)
    rw [hL] at this
    exact hm (C04_plaintext_unique E.P hv K _ _ hK c hc this)
  · refine ⟨0, ?_⟩
    intro E q pf h1 h2 h3 h4 h5
    exact absurd ⟨E, q, pf, h1, h2, h3, h4, h5⟩ hex

/-- C06 The challenge binds the base hash, the ciphertext and the commitments, up to a collision of the two hashed
texts. -/
theorem C06_challenge_binds (E : Env) (hv : E.P.Valid) (K K' q q' : Nat) (c c' : Ciphertext) (pf pf' : ConstProof)
    (h : pf.isValid E c K q = true) (h' : pf'.isValid E c' K' q' = true) (he : pf.c = pf'.c) :
    (q = q' ∧ c = c' ∧ pf.a = pf'.a ∧ pf.b = pf'.b) ∨
    CollisionIn E [hashText E (constHashArgs q c pf.a pf.b), hashText E (constHashArgs q' c' pf'.a pf'.b)] := by
  have h1 := ((ConstProof.isValid_iff hv pf c K q).1 h).2.2.2.2.2.2.1
  have h2 := ((ConstProof.isValid_iff hv pf' c' K' q').1 h').2.2.2.2.2.2.1
  rw [h1, h2] at he
  rcases hashElems_binding (by simp [constHashArgs, sameKinds, sameKind]) he with h3 | h3
  · left
    simp only [constHashArgs, List.cons.injEq, HArg.elem.injEq, and_true] at h3
    obtain ⟨e1, e2, e3, e4, e5⟩ := h3
    refine ⟨e1, ?_, e4, e5⟩
    cases c; cases c'; simp_all
  · right
    simpa [hashTexts, constHashArgs, argsTexts, argTexts] using h3

/-! ### C07, C08 -/

/-- C07 The proof of a partial decryption `pad^s` verifies against the public key `g^s`, for every
secret, every seed and every ciphertext in the subgroup. -/
theorem C07_completeness (E : Env) (hv : E.P.Valid) (c : Ciphertext) (s seed q : Nat)
    (hc1 : isValidResidue E.P c.pad = true) (hc2 : isValidResidue E.P c.data = true)
    (hq : q < E.P.q) :
    (makeCP E c s (c.partialDecrypt E.P s) seed q).isValid E c (E.P.g ^ s % E.P.p)
      (c.partialDecrypt E.P s) q = true := by
  have hqp := hv.q_pos
  have hcp := ((isValidResidue_iff hv _).1 hc1).2
  rw [CPProof.isValid_iff hv]
  simp only [makeCP, Ciphertext.partialDecrypt]
  generalize nonce E seed constHeader 0 = u
  generalize hch : hashElems E _ = ch
  have hcl : ch < E.P.q := hch ▸ hashElems_lt hqp _
  refine ⟨hc1, hc2, gPowP_residue hv s, powP_residue hv _ hc1, gPowP_residue hv _,
    powP_residue hv _ hc1, hcl, aPlusBCQ_lt hqp _ _ _, hq, trivial, ?_, ?_⟩
  · rw [gPowP_cast, ZMod.natCast_mod]
    push_cast
    rw [← pow_mul, ← pow_add, g_eq_iff hv, aPlusBCQ_cast]
    push_cast; ring
  · rw [powP_cast, powP_cast, ← pow_mul, ← pow_add]
    apply pow_congr_mod hcp
    rw [aPlusBCQ_cast]; push_cast; ring

example : (makeCP toyEnv ⟨16 ^ 5 % 157, 16 ^ 7 % 157⟩ 3 ((16 ^ 5 % 157) ^ 3 % 157) 4 9).isValid toyEnv
    ⟨16 ^ 5 % 157, 16 ^ 7 % 157⟩ (16 ^ 3 % 157) ((16 ^ 5 % 157) ^ 3 % 157) 9 = true := by decide

/-- C08 Two accepting transcripts with the same commitments and different challenges: the share is
`pad^s` where the public key is `g^s`. -/
theorem C08_special_soundness (E E' : Env) (hE : E.P = E'.P) (hv : E.P.Valid) (s q q' share : Nat)
    (c : Ciphertext) (pf pf' : CPProof)
    (h : pf.isValid E c (E.P.g ^ s % E.P.p) share q = true)
    (h' : pf'.isValid E' c (E.P.g ^ s % E.P.p) share q' = true)
    (ha : pf.a = pf'.a) (hb : pf.b = pf'.b) (hne : pf.c ≠ pf'.c) :
    share = c.pad ^ s % E.P.p := by
  have : Fact E.P.q.Prime := ⟨hv.q_prime⟩
  rw [CPProof.isValid_iff hv] at h
  rw [CPProof.isValid_iff (hE ▸ hv), ← hE] at h'
  obtain ⟨r1, r2, r3, r4, r5, r6, l1, l2, _, _, q1, q2⟩ := h
  obtain ⟨_, _, _, _, _, _, l1', l2', _, _, q1', q2'⟩ := h'
  rw [← ha] at q1'; rw [← hb] at q2'
  obtain ⟨x, hx⟩ := residue_log hv r1
  obtain ⟨m, hm⟩ := residue_log hv r4
  obtain ⟨A, hA⟩ := residue_log hv r5
  obtain ⟨B, hB⟩ := residue_log hv r6
  have hk : ((E.P.g ^ s % E.P.p : Nat) : ZMod E.P.p) = (E.P.g : ZMod E.P.p) ^ s := by
    rw [ZMod.natCast_mod]; push_cast; rfl
  rw [hk, hA, ← pow_mul, ← pow_add, g_eq_iff hv] at q1 q1'
  rw [hx, hm, hB, ← pow_mul, ← pow_mul, ← pow_add, g_eq_iff hv] at q2 q2'
  push_cast at q1 q1' q2 q2'
  rw [← castP_inj ((isValidResidue_iff hv _).1 r4).1 (Nat.mod_lt _ hv.p_pos), ZMod.natCast_mod]
  push_cast
  rw [hm, hx, ← pow_mul, g_eq_iff hv]
  push_cast
  have hd : (pf.c : ZMod E.P.q) - pf'.c ≠ 0 := by
    rw [sub_ne_zero, Ne, castP_inj l1 l1']; exact hne
  apply mul_right_cancel₀ hd
  linear_combination q2' - q2 + (x : ZMod E.P.q) * (q1 - q1')

/-- C08 If the share differs from `pad^s`, then for each choice of commitments a single challenge can be
answered. -/
theorem C08_single_challenge (P : Params) (hv : P.Valid) (s share : Nat) (c : Ciphertext)
    (hm : share ≠ c.pad ^ s % P.p) (a b : Nat) :
    ∃ star, ∀ (E : Env) (q : Nat) (pf : CPProof), E.P = P → pf.a = a → pf.b = b →
      pf.isValid E c (P.g ^ s % P.p) share q = true →
      hashElems E (cpHashArgs q c a b share) = star := by
  by_cases hex : ∃ (E : Env) (q : Nat) (pf : CPProof), E.P = P ∧ pf.a = a ∧ pf.b = b ∧
      pf.isValid E c (P.g ^ s % P.p) share q = true
  · obtain ⟨E, q, pf, hE, ha, hb, hval⟩ := hex
    subst hE
    refine ⟨pf.c, ?_⟩
    intro E' q' pf' hE' ha' hb' hval'
    have hh' := ((CPProof.isValid_iff (hE' ▸ hv) pf' c _ _ q').1 hval').2.2.2.2.2.2.2.2.2.1
    rw [← ha', ← hb', ← hh']
    by_contra hne
    exact hm (C08_special_soundness E E' hE'.symm hv s q q' share c pf pf' hval hval'
      (ha.trans ha'.symm) (hb.trans hb'.symm) (fun h => hne h.symm))
  · refine ⟨0, ?_⟩
    intro E q pf h1 h2 h3 h4
    exact absurd ⟨E, q, pf, h1, h2, h3, h4⟩ hex

/-- C08 The challenge binds the base hash, the ciphertext, the commitments and the share, up to a collision of the
two hashed texts. -/
theorem C08_challenge_binds (E : Env) (hv : E.P.Valid) (K K' q q' m m' : Nat) (c c' : Ciphertext)
    (pf pf' : CPProof) (h : pf.isValid E c K m q = true) (h' : pf'.isValid E c' K' m' q' = true)
    (he : pf.c = pf'.c) :
    (q = q' ∧ c = c' ∧ pf.a = pf'.a ∧ pf.b = pf'.b ∧ m = m') ∨
    CollisionIn E [hashText E (cpHashArgs q c pf.a pf.b m), hashText E (cpHashArgs q' c' pf'.a pf'.b m')] := by
  have h1 := ((CPProof.isValid_iff hv pf c K m q).1 h).2.2.2.2.2.2.2.2.2.1
  have h2 := ((CPProof.isValid_iff hv pf' c' K' m' q').1 h').2.2.2.2.2.2.2.2.2.1
  rw [h1, h2] at he
  rcases hashElems_binding (by simp [cpHashArgs, sameKinds, sameKind]) he with h3 | h3
  · left
    simp only [cpHashArgs, List.cons.injEq, HArg.elem.injEq, and_true] at h3
    obtain ⟨e1, e2, e3, e4, e5, e6⟩ := h3
    refine ⟨e1, ?_, e4, e5, e6⟩
    cases c; cases c'; simp_all
  · right
    simpa [hashTexts, cpHashArgs, argsTexts, argTexts] using h3

/-! ### C09 -/

/-- C09 The Schnorr proof of any key pair (public key `g^s`) verifies, for every nonce. -/
theorem C09_completeness (E : Env) (hv : E.P.Valid) (s r : Nat) :
    (makeSchnorr E ⟨s, E.P.g ^ s % E.P.p⟩ r).isValid E = true := by
  have hqp := hv.q_pos
  rw [SchnorrProof.isValid_iff hv]
  simp only [makeSchnorr]
  generalize hch : hashElems E _ = ch
  have hcl : ch < E.P.q := hch ▸ hashElems_lt hqp _
  refine ⟨gPowP_residue hv s, gPowP_lt hv.p_pos _, aPlusBCQ_lt hqp _ _ _, trivial, ?_⟩
  rw [gPowP_cast, ZMod.natCast_mod]
  push_cast
  rw [← pow_mul, ← pow_add, g_eq_iff hv, aPlusBCQ_cast]
  push_cast; ring

example : (makeSchnorr toyEnv ⟨3, 16 ^ 3 % 157⟩ 5).isValid toyEnv = true := by decide

/-- C09 Two accepting proofs with the same key and commitment but different challenges yield the secret
key by an explicit computation: `(u - u') / (c - c')` with `a_minus_b_q` and `div_q`. -/
theorem C09_extraction (E E' : Env) (hE : E.P = E'.P) (hv : E.P.Valid) (pf pf' : SchnorrProof)
    (h : pf.isValid E = true) (h' : pf'.isValid E' = true) (hk : pf.k = pf'.k) (hh : pf.h = pf'.h)
    (hne : pf.c ≠ pf'.c) :
    ∃ s, divQ E.P (aMinusBQ E.P pf.u pf'.u) (aMinusBQ E.P pf.c pf'.c) = .ok s ∧
      E.P.g ^ s % E.P.p = pf.k := by
  have : Fact E.P.q.Prime := ⟨hv.q_prime⟩
  have : Fact E.P.p.Prime := ⟨hv.p_prime⟩
  have hqp := hv.q_pos
  rw [SchnorrProof.isValid_iff hv] at h
  rw [SchnorrProof.isValid_iff (hE ▸ hv), ← hE] at h'
  obtain ⟨r1, r2, l1, e1, q1⟩ := h
  obtain ⟨_, r2', l1', e1', q1'⟩ := h'
  have hcl : pf.c < E.P.q := e1 ▸ hashElems_lt hqp _
  have hcl' : pf'.c < E.P.q := by rw [← e1', hE]; exact hashElems_lt (hE ▸ hqp) _
  rw [← hk, ← hh] at q1'
  obtain ⟨x, hx⟩ := residue_log hv r1
  -- the commitment is also a power of g
  have hres : (pf.h : ZMod E.P.p) ^ E.P.q = 1 := by
    have h1 : ((pf.k : ZMod E.P.p) ^ pf.c) ^ E.P.q = 1 := by
      rw [hx, ← pow_mul, ← pow_mul, ← mul_assoc, mul_comm, pow_mul, g_cast_pow hv, one_pow]
    have h2 : ((E.P.g : ZMod E.P.p) ^ pf.u) ^ E.P.q = 1 := by
      rw [← pow_mul, mul_comm, pow_mul, g_cast_pow hv, one_pow]
    rw [q1, mul_pow, h1, mul_one] at h2; exact h2
  obtain ⟨A, _, hA⟩ := exists_log hv hres
  rw [hx, ← hA, ← pow_mul, ← pow_add, g_eq_iff hv] at q1 q1'
  push_cast at q1 q1'
  have hd : (pf.c : ZMod E.P.q) - pf'.c ≠ 0 := by
    rw [sub_ne_zero, Ne, castP_inj hcl hcl']; exact hne
  obtain ⟨i, hi⟩ := invert_isOk hv.q_prime (b := aMinusBQ E.P pf.c pf'.c)
    (by rw [aMinusBQ_cast hqp]; exact hd)
  refine ⟨multQ E.P (aMinusBQ E.P pf.u pf'.u) i, ?_, ?_⟩
  · simp [divQ, hi, bind, Except.bind, pure, Except.pure]
  · rw [← castP_inj (Nat.mod_lt _ hv.p_pos) ((isValidResidue_iff hv _).1 r1).1, ZMod.natCast_mod]
    push_cast
    rw [hx, g_eq_iff hv, multQ_cast, aMinusBQ_cast hqp, (invert_cast hv.q_prime hi).2,
      aMinusBQ_cast hqp, mul_inv_eq_iff_eq_mul₀ hd]
    linear_combination q1 - q1'

/-- C09 The challenge binds the key and the commitment, up to a collision of the two hashed texts. -/
theorem C09_challenge_binds (E : Env) (hv : E.P.Valid) (pf pf' : SchnorrProof)
    (h : pf.isValid E = true) (h' : pf'.isValid E = true) (he : pf.c = pf'.c) :
    (pf.k = pf'.k ∧ pf.h = pf'.h) ∨
    CollisionIn E [hashText E [.elem pf.k, .elem pf.h], hashText E [.elem pf'.k, .elem pf'.h]] := by
  have h1 := ((SchnorrProof.isValid_iff hv pf).1 h).2.2.2.1
  have h2 := ((SchnorrProof.isValid_iff hv pf').1 h').2.2.2.1
  rw [← h1, ← h2] at he
  rcases hashElems_binding (by simp [sameKinds, sameKind]) he with h3 | h3
  · left
    simp only [List.cons.injEq, HArg.elem.injEq, and_true] at h3
    exact h3
  · right
    simpa [hashTexts, argsTexts, argTexts] using h3

/-- C09 An accepted proof always names a subgroup element as key. -/
theorem C09_key_in_subgroup (E : Env) (pf : SchnorrProof) (h : pf.isValid E = true) :
    isValidResidue E.P pf.k = true := by
  unfold SchnorrProof.isValid at h
  simp only [Bool.and_eq_true] at h
  exact h.1.1.1.1

end EG
