import Verif.Spec.Export

/-!
# Auditing the result of an election

The checks of an audit that the result rests on, and what an auditor may conclude from them.
-/

namespace EG

/-- The part of the audit that the result rests on: it leaves out the guardians' commitments, their proofs, and the Lagrange
coefficients. -/
structure RecordView.ResultAudited (v : RecordView) (E : Env) : Prop where
  constants : v.constants.params = E.P
  manifest : v.manifest.isValid = true
  context : v.context = makeContext E v.guardians.length v.context.quorum v.context.elgamalPublicKey v.context.commitmentHash
    (v.manifest.cryptoHash E)
  guardianIds : (v.guardians.map GuardianRecord.guardianId).Nodup
  /-- the keys of the guardians are in the group -/
  keys : ∀ g ∈ v.guardians, isValidResidue E.P g.publicKey = true
  jointKey : v.context.elgamalPublicKey = (v.guardians.map GuardianRecord.publicKey).prod % E.P.p
  ballotIds : (v.ballots.map (fun b => b.objectId)).Nodup
  ballots : ∀ b ∈ v.ballots, verifyBallot E b.toCBallot v.manifest v.context = .ok true
  aggregation : verifyAggregation E true v.ballots v.tallyToCheck v.manifest v.context = .ok true
  tally : v.tally.InOrder E v (v.encryptedTally.contests.map (fun e => e.2.toCt))
  spoiled : ∀ b ∈ v.ballots, b.state = .spoiled → ∃ pt ∈ v.spoiled, pt.objectId = b.objectId ∧ pt.InOrder E v b.toCts
  spoiledOnly : ∀ pt ∈ v.spoiled, ∃ b ∈ v.ballots, b.state = .spoiled ∧ b.objectId = pt.objectId
  spoiledIds : (v.spoiled.map PlaintextTally.objectId).Nodup

/-- The selection has a proof, and the hash of the proof is the only challenge with which there can be a proof, with these commitments,
for this ciphertext. -/
def CSelection.Lucky (s : CSelection) (E : Env) (key baseHash : Nat) : Prop :=
  ∃ pf, s.proof = some pf ∧ ∀ (E' : Env) (base : Nat) (pf' : DisjProof), E'.P = E.P →
    (pf'.a0, pf'.b0, pf'.a1, pf'.b1) = (pf.a0, pf.b0, pf.a1, pf.b1) → pf'.isValid E' s.ciphertext key base = true →
    hashElems E' (disjHashArgs base s.ciphertext pf.a0 pf.b0 pf.a1 pf.b1)
      = hashElems E (disjHashArgs baseHash s.ciphertext pf.a0 pf.b0 pf.a1 pf.b1)

/-- The contest has a proof, and the hash of the proof is the only challenge with which there can be a proof of the same constant, with
these commitments, for its sum. -/
def CContest.Lucky (c : CContest) (E : Env) (key baseHash : Nat) : Prop :=
  ∃ pf, c.proof = some pf ∧ ∀ (E' : Env) (base : Nat) (pf' : ConstProof), E'.P = E.P → pf'.a = pf.a → pf'.b = pf.b →
    pf'.constant = pf.constant → pf'.isValid E' c.ciphertextAccumulation key base = true →
    hashElems E' (constHashArgs base c.ciphertextAccumulation pf.a pf.b)
      = hashElems E (constHashArgs baseHash c.ciphertextAccumulation pf.a pf.b)

/-- Some proof in the record is lucky: that of a selection or of a contest on a ballot, or that of a share of the tally or of a spoiled
ballot. -/
def RecordView.Lucky (v : RecordView) (E : Env) : Prop :=
  (∃ b ∈ v.ballots, ∃ c ∈ b.contests,
    (∃ s ∈ c.ballotSelections, s.Lucky E v.context.elgamalPublicKey v.context.cryptoExtendedBaseHash) ∨
    c.Lucky E v.context.elgamalPublicKey v.context.cryptoExtendedBaseHash) ∨
  ∃ pt, (pt = v.tally ∨ pt ∈ v.spoiled) ∧ ∃ cid sid ps, pt.Shows cid sid ps ∧ ps.Lucky E v

/-- The votes for a selection on a ballot, when `plain` says what is in the ciphertexts. -/
def CBallot.votesFor (b : CBallot) (plain : Ciphertext → Nat) (cid sid : String) : Nat :=
  ((contribution b.contests cid sid).map plain).sum

/-- The record shows the votes `plain` that are encrypted on its ballots. -/
structure RecordView.ShowsVotes (v : RecordView) (E : Env) (im : InternalManifest) (plain : Ciphertext → Nat) : Prop where
  /-- every selection on a ballot encrypts a vote or none -/
  votes : ∀ b ∈ v.ballots, ∀ c ∈ b.contests, ∀ s ∈ c.ballotSelections,
    plain s.ciphertext ≤ 1 ∧ Encrypts E.P v.context.elgamalPublicKey (plain s.ciphertext) s.ciphertext
  /-- the votes of a contest add up to what its proof says -/
  limit : ∀ b ∈ v.ballots, ∀ c ∈ b.contests, c.ballotSelections.length < E.P.q → ∃ pf, c.proof = some pf ∧
    (((c.ballotSelections.map (fun s => plain s.ciphertext)).sum : Nat) : Int) = pf.constant
  /-- the tally shows, for every selection of the manifest, the votes of the cast ballots -/
  tally : ∀ d ∈ im.contests, ∀ sd ∈ d.ballotSelections, ∃ ps, v.tally.Shows d.objectId sd.objectId ps ∧
    ps.tally ≡ ((v.ballots.filter (fun b => decide (b.state = .cast))).map
      (fun b => b.toCBallot.votesFor plain d.objectId sd.objectId)).sum [MOD E.P.q]
  /-- it shows nothing else -/
  only : ∀ cid sid ps, v.tally.Shows cid sid ps → Describes v.manifest cid sid
  /-- the spoiled ballots are opened -/
  spoiled : ∀ b ∈ v.ballots, b.state = .spoiled → ∃ pt ∈ v.spoiled, pt.objectId = b.objectId ∧
    ∀ c ∈ b.contests, ∀ s ∈ c.ballotSelections, Describes v.manifest c.objectId s.objectId →
      ∃ ps, pt.Shows c.objectId s.objectId ps ∧ ps.tally ≡ plain s.ciphertext [MOD E.P.q]

end EG
