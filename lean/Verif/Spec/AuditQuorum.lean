import Verif.Spec.Audit

/-!
# Auditing a record of a decryption in which guardians were missing

The share of a missing guardian has no proof of its own.  It comes with the parts that the other guardians made, and every part is
proved against a key that follows from the commitments of the missing guardian.
-/

namespace EG

/-- The guardians who took part in the decryption: those with a Lagrange coefficient. -/
def RecordView.available (v : RecordView) : List GuardianRecord :=
  v.guardians.filter (fun g => (dget v.coefficients g.guardianId).isSome)

/-- The Lagrange coefficient of a guardian among those who took part. -/
def RecordView.IsQuorumCoefficient (v : RecordView) (P : Params) (g : GuardianRecord) (w : Nat) : Prop :=
  let others := (v.available.filter (fun h => decide (h.guardianId ≠ g.guardianId))).map GuardianRecord.sequenceOrder
  w < P.q ∧ (w : Int) * (others.map (fun j => j - g.sequenceOrder)).prod ≡ others.prod [ZMOD P.q]

/-- The key for the part that `a` makes of the share of `m`: the product of the commitments of `m`, number `j` to the power of `i ^ j`,
where `i` is the sequence order of `a`. -/
def GuardianRecord.partKey (a m : GuardianRecord) (P : Params) : Nat :=
  (m.commitments.zipIdx.map (fun e => e.1 ^ (a.sequenceOrder.toNat ^ e.2))).prod % P.p

/-- The share of the missing guardian `m` follows from its parts: there is one of every guardian who took part, with a valid proof, and
the share is the product of the parts to the power of the Lagrange coefficients. -/
structure DecSelection.Recovered (x : DecSelection) (E : Env) (v : RecordView) (m : GuardianRecord) (message : Ciphertext)
    (parts : List (String × CompSelection)) : Prop where
  guardians : (parts.map Prod.fst).Perm (v.available.map GuardianRecord.guardianId)
  names : ∀ e ∈ parts, e.2.guardianId = e.1 ∧ e.2.missingId = m.guardianId
  keys : ∀ e ∈ parts, ∀ a ∈ v.available, a.guardianId = e.1 → e.2.recoveryKey = a.partKey m E.P
  proofs : ∀ e ∈ parts, e.2.proof.isValid E message e.2.recoveryKey e.2.share v.context.cryptoExtendedBaseHash = true
  product : x.share = (parts.map (fun e => e.2.share ^ (dget v.coefficients e.1).getD 0)).prod % E.P.p

/-- A share is in order: it is proved, or it follows from its parts. -/
def DecSelection.ShareInOrder (x : DecSelection) (E : Env) (v : RecordView) (g : GuardianRecord) (message : Ciphertext) : Prop :=
  (∃ pf, x.proof = some pf ∧ pf.isValid E message g.publicKey x.share v.context.cryptoExtendedBaseHash = true) ∨
  (x.proof = none ∧ ∃ parts, x.recovered = some parts ∧ x.Recovered E v g message parts)

/-- The decryption of some contests is in order: as `PlaintextTally.InOrder`, but shares may be recovered. -/
structure PlaintextTally.InQuorumOrder (pt : PlaintextTally) (E : Env) (v : RecordView) (cs : List CtContest) : Prop where
  shares : ∀ cid sid ps, pt.Shows cid sid ps → ∀ x ∈ ps.shares, ∃ g ∈ v.guardians, g.guardianId = x.guardianId ∧
    x.ShareInOrder E v g ps.message
  shown : ∀ c ∈ cs, ∀ s ∈ c.selections, Describes v.manifest c.objectId s.objectId →
    ∃ ps, pt.Shows c.objectId s.objectId ps ∧ ps.Follows E.P (v.guardians.map GuardianRecord.guardianId) s.ciphertext
  only : ∀ cid sid ps, pt.Shows cid sid ps → ∃ c ∈ cs, ∃ s ∈ c.selections, c.objectId = cid ∧ s.objectId = sid ∧
    Describes v.manifest cid sid

/-- The audit of a record succeeds, where guardians may have been missing at the decryption. -/
structure RecordView.QuorumAudited (v : RecordView) (E : Env) : Prop where
  constants : v.constants.params = E.P
  manifest : v.manifest.isValid = true
  context : v.context = makeContext E v.guardians.length v.context.quorum v.context.elgamalPublicKey v.context.commitmentHash
    (v.manifest.cryptoHash E)
  commitmentHash : ∃ gs, v.guardians.Perm gs ∧
    v.context.commitmentHash = hashElems E [.list ((gs.flatMap GuardianRecord.commitments).map HArg.elem)]
  guardianIds : (v.guardians.map GuardianRecord.guardianId).Nodup
  guardians : ∀ g ∈ v.guardians, g.commitments.head? = some g.publicKey ∧ (g.commitments.length : Int) = v.context.quorum ∧
    List.Forall₂ (fun k (pf : SchnorrProof) => pf.k = k ∧ pf.isValid E = true) g.commitments g.proofs
  jointKey : v.context.elgamalPublicKey = (v.guardians.map GuardianRecord.publicKey).prod % E.P.p
  ballotIds : (v.ballots.map (fun b => b.objectId)).Nodup
  ballots : ∀ b ∈ v.ballots, verifyBallot E b.toCBallot v.manifest v.context = .ok true
  aggregation : verifyAggregation E true v.ballots v.tallyToCheck v.manifest v.context = .ok true
  /-- at least a quorum of guardians took part -/
  quorum : v.context.quorum ≤ v.available.length
  /-- they have different sequence orders -/
  orders : (v.available.map GuardianRecord.sequenceOrder).Nodup
  range : ∀ g ∈ v.available, 0 ≤ g.sequenceOrder ∧ g.sequenceOrder < E.P.q
  /-- the Lagrange coefficients are those of the guardians who took part -/
  coefficients : ∀ g ∈ v.available, ∃ w, dget v.coefficients g.guardianId = some w ∧ v.IsQuorumCoefficient E.P g w
  tally : v.tally.InQuorumOrder E v (v.encryptedTally.contests.map (fun e => e.2.toCt))
  spoiled : ∀ b ∈ v.ballots, b.state = .spoiled → ∃ pt ∈ v.spoiled, pt.objectId = b.objectId ∧ pt.InQuorumOrder E v b.toCts
  spoiledOnly : ∀ pt ∈ v.spoiled, ∃ b ∈ v.ballots, b.state = .spoiled ∧ b.objectId = pt.objectId
  spoiledIds : (v.spoiled.map PlaintextTally.objectId).Nodup

/-- The hash of the proof of a part is the only challenge with which there can be a proof, with these commitments, for this part. -/
def CompSelection.Lucky (z : CompSelection) (E : Env) (message : Ciphertext) (baseHash : Nat) : Prop :=
  ∀ (E' : Env) (base : Nat) (pf' : CPProof), E'.P = E.P → pf'.a = z.proof.a → pf'.b = z.proof.b →
    pf'.isValid E' message z.recoveryKey z.share base = true →
    hashElems E' (cpHashArgs base message z.proof.a z.proof.b z.share)
      = hashElems E (cpHashArgs baseHash message z.proof.a z.proof.b z.share)

/-- Some part of a recovered share in the decryption of a selection is lucky. -/
def PTSelection.LuckyPart (ps : PTSelection) (E : Env) (v : RecordView) : Prop :=
  ∃ x ∈ ps.shares, x.proof = none ∧ ∃ parts, x.recovered = some parts ∧ ∃ e ∈ parts, e.2.Lucky E ps.message v.context.cryptoExtendedBaseHash

/-- Some part of a share in the record is lucky. -/
def RecordView.LuckyPart (v : RecordView) (E : Env) : Prop :=
  ∃ pt, (pt = v.tally ∨ pt ∈ v.spoiled) ∧ ∃ cid sid ps, pt.Shows cid sid ps ∧ ps.LuckyPart E v

end EG
