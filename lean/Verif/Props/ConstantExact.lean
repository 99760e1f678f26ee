import Verif.Props.ChaumPedersen

/-!
# C05 exactly

The verifier of a proof of a constant reduces `c·L` modulo `p`, where the exponents count modulo `q`.  Here is exactly when an honest
proof is accepted, in any group.
-/

namespace EG

/-- C05 In every group, an honest proof of a constant in range is accepted exactly when `p` goes into `challenge · constant` a multiple of
`q` times; in particular when the product is below `p`. -/
theorem C05_completeness_iff (E : Env) (hv : E.P.Valid) (K r L seed q : Nat) (c : Ciphertext) (hK : isValidResidue E.P K = true)
    (hL : L < 1000000000) (hLq : L < E.P.q) (hc : EncryptsWith E.P K r L c) :
    (makeConst E c L r K seed q).isValid E c K q = true ↔ (makeConst E c L r K seed q).c * L / E.P.p % E.P.q = 0 := by
  obtain ⟨hr1, hr2⟩ := hc.residue hv hK
  obtain ⟨_, _, h3, h4⟩ := (encryptsWith_iff_cast hv).1 hc
  have hK' := ((isValidResidue_iff hv K).1 hK).2
  have hqp := hv.q_pos
  obtain ⟨κ, hκ⟩ := residue_log hv hK
  rw [ConstProof.isValid_iff hv]
  simp only [makeConst]
  generalize nonce E seed constHeader 0 = u
  generalize hch : hashElems E _ = ch
  have hcl : ch < E.P.q := hch ▸ hashElems_lt hqp _
  have e1 : (K : ZMod E.P.p) ^ aPlusBCQ E.P u ch r = (K : ZMod E.P.p) ^ (u + r * ch) := by
    apply pow_congr_mod hK'
    rw [aPlusBCQ_cast]; push_cast; ring
  have heq : ((E.P.g : ZMod E.P.p) ^ (ch * L % E.P.p) * (K : ZMod E.P.p) ^ aPlusBCQ E.P u ch r
      = ((powP E.P K u : Nat) : ZMod E.P.p) * (c.data : ZMod E.P.p) ^ ch) ↔ ch * L / E.P.p % E.P.q = 0 := by
    rw [e1, powP_cast, h4, hκ, ← pow_mul, ← pow_mul, ← pow_mul, ← pow_add, ← pow_add, ← pow_mul, ← pow_add, g_eq_iff hv]
    have hsplit : ((ch * L : Nat) : ZMod E.P.q) = ((ch * L % E.P.p : Nat) : ZMod E.P.q) + ((ch * L / E.P.p : Nat) : ZMod E.P.q) := by
      obtain ⟨k, hk⟩ := hv.q_dvd
      have hp : E.P.p = E.P.q * k + 1 := by have := hv.one_lt_p; omega
      conv_lhs => rw [← Nat.mod_add_div (ch * L) E.P.p]
      rw [Nat.cast_add, Nat.cast_mul]
      have : ((E.P.p : Nat) : ZMod E.P.q) = 1 := by rw [hp]; push_cast; simp
      rw [this, one_mul]
    have hz : ((ch * L / E.P.p : Nat) : ZMod E.P.q) = 0 ↔ ch * L / E.P.p % E.P.q = 0 := by
      rw [ZMod.natCast_eq_zero_iff]
      exact Nat.dvd_iff_mod_eq_zero
    rw [← hz]
    generalize ((ch * L / E.P.p : Nat) : ZMod E.P.q) = B at *
    push_cast
    push_cast at hsplit
    generalize ((ch * L % E.P.p : Nat) : ZMod E.P.q) = A at *
    constructor
    · intro h
      linear_combination -hsplit - h
    · intro h
      linear_combination -hsplit - h
  constructor
  · rintro ⟨-, -, -, -, -, -, -, -, -, -, h⟩
    simp only [Int.toNat_natCast] at h
    exact heq.1 h
  · intro h
    refine ⟨hr1, hr2, gPowP_residue hv _, powP_residue hv _ hK, hcl, aPlusBCQ_lt hqp _ _ _, trivial, ⟨by omega, by omega⟩, by omega, ?_, ?_⟩
    · rw [gPowP_cast, h3, ← pow_mul, ← pow_add, g_eq_iff hv, aPlusBCQ_cast]
      push_cast; ring
    · simp only [Int.toNat_natCast]
      exact heq.2 h

-- the rejected proof of `C05_medium_group_fails`: the challenge is 30000, and 30000 · 3 = 90000 has 65267 once
example : 30000 * 3 / mediumParams.p % mediumParams.q = 1 := by decide
-- with the constant 2 the same challenge is accepted
example : 30000 * 2 / mediumParams.p % mediumParams.q = 0 := by decide

/-- C06 In every group, two accepted proofs with the same commitments, the same constant `L` and different challenges `c`, `c'` determine
what is encrypted: the number `m` with `m (c - c') = (c L mod p) - (c' L mod p)` modulo `q`.  This is `L` as soon as the two
products stay below `p`. -/
theorem C06_any_group (E E' : Env) (hE : E.P = E'.P) (hv : E.P.Valid) (K q q' : Nat) (hK : isValidResidue E.P K = true)
    (c : Ciphertext) (pf pf' : ConstProof) (h : pf.isValid E c K q = true) (h' : pf'.isValid E' c K q' = true)
    (ha : pf.a = pf'.a) (hb : pf.b = pf'.b) (hL : pf.constant = pf'.constant) (hne : pf.c ≠ pf'.c) :
    (∀ m, Encrypts E.P K m c ↔ (m : ZMod E.P.q) * ((pf.c : ZMod E.P.q) - pf'.c) =
      ((pf.c * pf.constant.toNat % E.P.p : Nat) : ZMod E.P.q) - ((pf'.c * pf.constant.toNat % E.P.p : Nat) : ZMod E.P.q)) ∧
    (pf.c * pf.constant.toNat < E.P.p → pf'.c * pf.constant.toNat < E.P.p → Encrypts E.P K pf.constant.toNat c) := by
  have : Fact E.P.q.Prime := ⟨hv.q_prime⟩
  rw [ConstProof.isValid_iff hv] at h
  rw [ConstProof.isValid_iff (hE ▸ hv), ← hE] at h'
  obtain ⟨r1, r2, r3, r4, l1, l2, _, ⟨s1, _⟩, s3, q1, q2⟩ := h
  obtain ⟨_, _, _, _, l1', l2', _, _, _, q1', q2'⟩ := h'
  rw [← ha] at q1'; rw [← hb, ← hL] at q2'
  obtain ⟨x, hx⟩ := residue_log hv r1
  obtain ⟨y, hy⟩ := residue_log hv r2
  obtain ⟨A, hA⟩ := residue_log hv r3
  obtain ⟨B, hB⟩ := residue_log hv r4
  obtain ⟨κ, hκ⟩ := residue_log hv hK
  rw [hx, hA, ← pow_mul, ← pow_add, g_eq_iff hv] at q1 q1'
  rw [hκ, hy, hB, ← pow_mul, ← pow_mul, ← pow_add, ← pow_add, g_eq_iff hv] at q2 q2'
  have bounds1 := ((isValidResidue_iff hv _).1 r1).1
  have bounds2 := ((isValidResidue_iff hv _).1 r2).1
  have hd : (pf.c : ZMod E.P.q) - pf'.c ≠ 0 := by
    rw [sub_ne_zero, Ne, castP_inj l1 l1']; exact hne
  have key : ∀ m, Encrypts E.P K m c ↔ (m : ZMod E.P.q) * ((pf.c : ZMod E.P.q) - pf'.c) =
      ((pf.c * pf.constant.toNat % E.P.p : Nat) : ZMod E.P.q) - ((pf'.c * pf.constant.toNat % E.P.p : Nat) : ZMod E.P.q) := by
    intro m
    generalize pf.c * pf.constant.toNat % E.P.p = X at *
    generalize pf'.c * pf.constant.toNat % E.P.p = Y at *
    push_cast at q1 q1' q2 q2'
    have hxy : Encrypts E.P K m c ↔ (y : ZMod E.P.q) = m + κ * x := by
      constructor
      · rintro ⟨r, hr⟩
        obtain ⟨-, -, e3, e4⟩ := (encryptsWith_iff_cast hv).1 hr
        rw [hx, g_eq_iff hv] at e3
        rw [hy, hκ, ← pow_mul, ← pow_add, g_eq_iff hv] at e4
        push_cast at e4
        rw [e4, e3]
      · intro h
        refine ⟨x, (encryptsWith_iff_cast hv).2 ⟨bounds1, bounds2, hx, ?_⟩⟩
        rw [hy, hκ, ← pow_mul, ← pow_add, g_eq_iff hv]
        push_cast
        exact h
    rw [hxy]
    constructor
    · intro h
      linear_combination q2' - q2 + (κ : ZMod E.P.q) * (q1 - q1') - h * ((pf.c : ZMod E.P.q) - pf'.c)
    · intro h
      apply mul_right_cancel₀ hd
      linear_combination q2' - q2 + (κ : ZMod E.P.q) * (q1 - q1') - h
  refine ⟨key, fun h1 h2 => (key _).2 ?_⟩
  rw [Nat.mod_eq_of_lt h1, Nat.mod_eq_of_lt h2]
  push_cast
  ring

/-- C06, negative: in the medium test group special soundness fails: two proofs of the constant 3 with the same commitments and different
challenges are accepted, for a ciphertext of 28608. -/
theorem C06_medium_group_fails :
    let E : Env := { toyEnv with P := mediumParams, sha := fun _ => 30000 }
    let E' : Env := { toyEnv with P := mediumParams, sha := fun _ => 0 }
    let c : Ciphertext := ⟨243, 3349⟩
    EncryptsWith E.P 2187 5 28608 c ∧ isValidResidue E.P 2187 = true ∧
    (⟨81, 24807, 30000, 19472, 3⟩ : ConstProof).isValid E c 2187 9 = true ∧
    (⟨81, 24807, 0, 4, 3⟩ : ConstProof).isValid E' c 2187 9 = true := by
  refine ⟨⟨?_, ?_⟩, ?_, ?_, ?_⟩ <;> decide +kernel

end EG
