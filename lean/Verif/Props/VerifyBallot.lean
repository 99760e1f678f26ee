import Verif.Spec.Verify
import Verif.Props.Encrypt

/-!
# C64: the ballot verifier
-/

namespace EG

variable {E : Env}

theorem verifyBallot_eq (b : CBallot) (m : Manifest) (ctx : Context) : verifyBallot E b m ctx =
    b.isValidEncryption E (m.cryptoHash E) ctx.elgamalPublicKey ctx.cryptoExtendedBaseHash := by
  unfold verifyBallot
  cases b.isValidEncryption E (m.cryptoHash E) ctx.elgamalPublicKey ctx.cryptoExtendedBaseHash with
  | error e => rfl
  | ok r => cases r <;> rfl

/-- C64 `verify_ballot` succeeds exactly for ballots that name the hash of the manifest, have the hash of their own
contents, and in which every selection has its own hash and a valid 0-or-1 proof and every contest has its own hash, the
product of its selections and a valid proof about it, all for the key and the extended base hash of the context. -/
theorem C64_success_iff (b : CBallot) (m : Manifest) (ctx : Context) : verifyBallot E b m ctx = .ok true ↔
    b.manifestHash = m.cryptoHash E ∧ b.cryptoHash = b.cryptoHashWith E (m.cryptoHash E) ∧
    ∀ c ∈ b.contests,
      (∀ s ∈ c.ballotSelections, s.cryptoHash = s.cryptoHashWith E s.descriptionHash ∧ ∃ pf, s.proof = some pf ∧
        pf.isValid E s.ciphertext ctx.elgamalPublicKey ctx.cryptoExtendedBaseHash = true) ∧
      c.cryptoHash = c.cryptoHashWith E c.descriptionHash ∧
      accumulateSelections E.P c.ballotSelections = .ok c.ciphertextAccumulation ∧
      ∃ pf, c.proof = some pf ∧
        pf.isValid E c.ciphertextAccumulation ctx.elgamalPublicKey ctx.cryptoExtendedBaseHash = true := by
  rw [verifyBallot_eq, CBallot.isValidEncryption_iff]
  have hs : ∀ s : CSelection, s.isValidEncryption E s.descriptionHash ctx.elgamalPublicKey ctx.cryptoExtendedBaseHash
      = true ↔ s.cryptoHash = s.cryptoHashWith E s.descriptionHash ∧ ∃ pf, s.proof = some pf ∧
        pf.isValid E s.ciphertext ctx.elgamalPublicKey ctx.cryptoExtendedBaseHash = true := by
    intro s
    unfold CSelection.isValidEncryption
    rw [if_neg (by simp)]
    split
    · rename_i h; simp [h]
    · rename_i h
      replace h := Classical.not_not.1 h
      cases s.proof with
      | none => simp
      | some pf => simp [← h]
  simp only [hs, CContest.isValidEncryption_iff, true_and]
  constructor
  · rintro ⟨h1, h2, h3⟩
    refine ⟨h1.symm, h2, fun c hc => ?_⟩
    obtain ⟨g1, g2, pf, g3, g4, g5⟩ := h3 c hc
    exact ⟨g1, g2, g4, pf, g3, g5⟩
  · rintro ⟨h1, h2, h3⟩
    refine ⟨h1.symm, h2, fun c hc => ?_⟩
    obtain ⟨g1, g2, g4, pf, g3, g5⟩ := h3 c hc
    exact ⟨g1, g2, pf, g3, g4, g5⟩

theorem mkInternalManifest_hash {m : Manifest} {im : InternalManifest} (h : mkInternalManifest E m = .ok im) :
    im.manifestHash = m.cryptoHash E := by
  unfold mkInternalManifest at h
  simp only [bind, Except.bind, pure, Except.pure] at h
  cases hg : generateContestsWithPlaceholders m with
  | error e => rw [hg] at h; cases h
  | ok cs => rw [hg] at h; cases h; rfl

/-- C64 Every ballot that `encrypt_ballot` returns is accepted.  Partial: as in C28, for manifests that list their contests in
sequence order (`C64_contest_order_fails` otherwise). -/
theorem C64_accepts_partial (hv : E.P.Valid) (hpq : (E.P.q - 1) * (E.P.q - 1) < E.P.p)
    (json : ContestData → Bytes) (b : PlaintextBallot) (m : Manifest) (im : InternalManifest)
    (him : mkInternalManifest E m = .ok im) (ctx : Context) (cseed nonce : Nat)
    (now : Int) (verify : Bool) (enc : CBallot) (hK : isValidResidue E.P ctx.elgamalPublicKey = true)
    (hn : ∀ d, im.StyleHas b.styleId d → d.numberElected < 1000000000 ∧ d.numberElected < E.P.q)
    (hsorted : im.contests.Pairwise (fun c d => c.sequenceOrder ≤ d.sequenceOrder))
    (hsome : ∃ d, im.StyleHas b.styleId d)
    (h : encryptBallot E json b im ctx cseed nonce now verify = .ok (some enc)) :
    verifyBallot E enc m ctx = .ok true := by
  rw [verifyBallot_eq, ← mkInternalManifest_hash him]
  exact C28_verifies_partial hv hpq json b im ctx cseed nonce now verify enc hK hn hsorted hsome h

/-- C64 fails for a valid manifest whose contests are not in sequence order. -/
theorem C64_contest_order_fails : ∃ (E : Env) (m : Manifest) (im : InternalManifest) (ctx : Context)
    (json : ContestData → Bytes) (b : PlaintextBallot) (nonce : Nat) (enc : CBallot),
    E.P.Valid ∧ isValidResidue E.P ctx.elgamalPublicKey = true ∧
    m.isValid = true ∧ mkInternalManifest E m = .ok im ∧
    encryptBallot E json b im ctx 3 nonce 17 = .ok (some enc) ∧ verifyBallot E enc m ctx = .ok false := by
  obtain ⟨E, m, im, ctx, json, b, nonce, enc, h1, h2, h3, h4, h5, h6⟩ := C28_contest_order_fails
  exact ⟨E, m, im, ctx, json, b, nonce, enc, h1, h2, h3, h4, h5, by
    rw [verifyBallot_eq, ← mkInternalManifest_hash h4]; exact h6⟩

/-- A ballot of the toy election is accepted; for another key it is not. -/
example : verifyBallot toyEnv (toyEncrypt "b" "t" 1 0 1 0) toyManifest toyCtx = .ok true ∧
    verifyBallot toyEnv (toyEncrypt "b" "t" 1 0 1 0) toyManifest { toyCtx with elgamalPublicKey := 16 } = .ok false := by
  decide +kernel

end EG
