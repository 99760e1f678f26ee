import Verif.Model.Export
import Verif.Spec.Decryption
import Verif.Spec.Cli
import Verif.Spec.ElGamal
import Verif.Spec.Verify
import Mathlib.Data.Int.ModEq

/-!
# Auditing an election record

What someone who only has the record checks: the steps of an ElectionGuard verifier, with the verifiers of electionguard_verify where
there is one.
-/

namespace EG

/-- What an auditor read from a record.  The files of a directory come in any order. -/
structure RecordView where
  manifest : Manifest
  context : Context
  constants : Constants
  guardians : List GuardianRecord
  ballots : List SBallot
  spoiled : List PlaintextTally
  encryptedTally : PublishedTally
  tally : PlaintextTally
  coefficients : List (String × Nat)
  devices : List Device

/-- The view is what is in the files of the record. -/
structure RecordView.Of (v : RecordView) (r : ElectionRecord) : Prop where
  manifest : v.manifest = r.manifest
  context : v.context = r.context
  constants : v.constants = r.constants
  guardians : v.guardians.Perm (r.guardians.map Prod.snd)
  ballots : v.ballots.Perm (r.submittedBallots.map Prod.snd)
  spoiled : v.spoiled.Perm (r.spoiledBallots.map Prod.snd)
  encryptedTally : v.encryptedTally = r.encryptedTally
  tally : v.tally = r.tally
  coefficients : v.coefficients = r.coefficients
  devices : v.devices.Perm (r.devices.map Prod.snd)

/-- The public key in a guardian record. -/
def GuardianRecord.toKey (g : GuardianRecord) : ElectionPublicKey := ⟨g.guardianId, g.sequenceOrder, g.publicKey, g.commitments, g.proofs⟩

/-- The guardians' keys, as `verify_decryption` takes them. -/
def RecordView.keys (v : RecordView) : List (String × ElectionPublicKey) := v.guardians.map (fun g => (g.guardianId, g.toKey))

/-- The tally that `verify_aggregation` needs: the published contests, with the ids of the cast and of the spoiled ballots. -/
def RecordView.tallyToCheck (v : RecordView) : Tally where
  objectId := v.encryptedTally.objectId
  contests := v.encryptedTally.contests
  castIds := (v.ballots.filter (fun b => decide (b.state = .cast))).map (fun b => b.objectId)
  spoiledIds := (v.ballots.filter (fun b => decide (b.state = .spoiled))).map (fun b => b.objectId)

/-- The decryption shows `s` for a selection of a contest. -/
def PlaintextTally.Shows (pt : PlaintextTally) (cid sid : String) (s : PTSelection) : Prop :=
  ∃ pc, dget pt.contests cid = some pc ∧ dget pc.selections sid = some s

/-- The number that is shown follows from the shares: there is one share of every guardian, and the number is what they decrypt the
ciphertext to. -/
structure PTSelection.Follows (s : PTSelection) (P : Params) (guardians : List String) (c : Ciphertext) : Prop where
  message : s.message = c
  guardians : (s.shares.map (fun x => x.guardianId)).Perm guardians
  value : s.value = P.g ^ s.tally % P.p
  product : s.value * (s.shares.map (fun x => x.share)).prod % P.p = c.data

/-- The decryption of some contests is in order: all proofs of the shares are valid, every described selection is shown, with a number
that follows from the shares, and nothing else is shown. -/
structure PlaintextTally.InOrder (pt : PlaintextTally) (E : Env) (v : RecordView) (cs : List CtContest) : Prop where
  proofs : verifyDecryption E pt v.keys v.context = .ok true
  shown : ∀ c ∈ cs, ∀ s ∈ c.selections, Describes v.manifest c.objectId s.objectId →
    ∃ ps, pt.Shows c.objectId s.objectId ps ∧ ps.Follows E.P (v.guardians.map GuardianRecord.guardianId) s.ciphertext
  only : ∀ cid sid ps, pt.Shows cid sid ps → ∃ c ∈ cs, ∃ s ∈ c.selections, c.objectId = cid ∧ s.objectId = sid ∧
    Describes v.manifest cid sid

/-- The Lagrange coefficient of a guardian among all guardians: the product of `j / (j - i)` modulo `q`, where `i` is its sequence order
and `j` runs through those of the others. -/
def RecordView.IsCoefficient (v : RecordView) (P : Params) (g : GuardianRecord) (w : Nat) : Prop :=
  let others := (v.guardians.filter (fun h => decide (h.guardianId ≠ g.guardianId))).map GuardianRecord.sequenceOrder
  w < P.q ∧ (w : Int) * (others.map (fun j => j - g.sequenceOrder)).prod ≡ others.prod [ZMOD P.q]

/-- The audit of a record succeeds. -/
structure RecordView.Audited (v : RecordView) (E : Env) : Prop where
  /-- the record is for the group in use -/
  constants : v.constants.params = E.P
  /-- the manifest is well formed -/
  manifest : v.manifest.isValid = true
  /-- the hashes in the context are those of the parameters, the manifest and the commitments -/
  context : v.context = makeContext E v.guardians.length v.context.quorum v.context.elgamalPublicKey v.context.commitmentHash
    (v.manifest.cryptoHash E)
  commitmentHash : ∃ gs, v.guardians.Perm gs ∧
    v.context.commitmentHash = hashElems E [.list ((gs.flatMap GuardianRecord.commitments).map HArg.elem)]
  /-- every guardian has one record, with as many commitments as the quorum, each with a valid proof -/
  guardianIds : (v.guardians.map GuardianRecord.guardianId).Nodup
  guardians : ∀ g ∈ v.guardians, g.commitments.head? = some g.publicKey ∧ (g.commitments.length : Int) = v.context.quorum ∧
    List.Forall₂ (fun k (pf : SchnorrProof) => pf.k = k ∧ pf.isValid E = true) g.commitments g.proofs
  /-- the joint key is the product of the guardians' keys -/
  jointKey : v.context.elgamalPublicKey = (v.guardians.map GuardianRecord.publicKey).prod % E.P.p
  /-- every ballot is there once, and is valid -/
  ballotIds : (v.ballots.map (fun b => b.objectId)).Nodup
  ballots : ∀ b ∈ v.ballots, verifyBallot E b.toCBallot v.manifest v.context = .ok true
  /-- the encrypted tally is that of the cast ballots -/
  aggregation : verifyAggregation E true v.ballots v.tallyToCheck v.manifest v.context = .ok true
  /-- the tally is its decryption -/
  tally : v.tally.InOrder E v (v.encryptedTally.contests.map (fun e => e.2.toCt))
  /-- the spoiled ballots, and no others, are decrypted -/
  spoiled : ∀ b ∈ v.ballots, b.state = .spoiled → ∃ pt ∈ v.spoiled, pt.objectId = b.objectId ∧ pt.InOrder E v b.toCts
  spoiledOnly : ∀ pt ∈ v.spoiled, ∃ b ∈ v.ballots, b.state = .spoiled ∧ b.objectId = pt.objectId
  spoiledIds : (v.spoiled.map PlaintextTally.objectId).Nodup
  /-- the Lagrange coefficients are those of the guardians -/
  coefficients : ∀ g ∈ v.guardians, ∃ w, dget v.coefficients g.guardianId = some w ∧ v.IsCoefficient E.P g w

/-- A ballot without the nonces that would open it. -/
def CBallot.NoNonces (b : CBallot) : Prop :=
  b.nonce = none ∧ ∀ c ∈ b.contests, c.nonce = none ∧ ∀ s ∈ c.ballotSelections, s.nonce = none

/-- What the record says about the voters' ballots `cast` and `spoiled`: the tally has the votes of the cast ones, every spoiled one is
opened, and the record has their encryptions, as cast or as spoiled, without nonces, with nothing that the verifiers would not notice. -/
structure RecordView.Publishes (v : RecordView) (im : InternalManifest) (cast spoiled : List PlaintextBallot) : Prop where
  tally : v.tally.Counts im cast
  opened : ∀ b ∈ spoiled, ∃ pt ∈ v.spoiled, pt.Opens im b
  ballots : (v.ballots.map (fun b => (b.objectId, b.state))).Perm (cast.map (fun b => (b.objectId, .cast)) ++
    spoiled.map (fun b => (b.objectId, .spoiled)))
  nonces : ∀ b ∈ v.ballots, b.toCBallot.NoNonces
  regular : ∀ b ∈ v.ballots, b.toCBallot.Regular im
  dicts : WFContests v.encryptedTally.contests

/-- The share has a proof, and the hash of the proof is the only challenge with which there can be a proof, with these commitments, for
this share: whatever the hash function, a valid proof has the same challenge.  For a right share every challenge can be answered. -/
def DecSelection.Lucky (x : DecSelection) (E : Env) (message : Ciphertext) (key baseHash : Nat) : Prop :=
  ∃ pf, x.proof = some pf ∧ ∀ (E' : Env) (base : Nat) (pf' : CPProof), E'.P = E.P → pf'.a = pf.a → pf'.b = pf.b →
    pf'.isValid E' message key x.share base = true →
    hashElems E' (cpHashArgs base message pf.a pf.b x.share) = hashElems E (cpHashArgs baseHash message pf.a pf.b x.share)

/-- Some share in the decryption of a selection is lucky. -/
def PTSelection.Lucky (ps : PTSelection) (E : Env) (v : RecordView) : Prop :=
  ∃ x ∈ ps.shares, ∃ g ∈ v.guardians, g.guardianId = x.guardianId ∧
    x.Lucky E ps.message g.publicKey v.context.cryptoExtendedBaseHash

/-- The ballot has `n` votes for a selection: it has one ciphertext for it, which encrypts `n`, or none, and `n` is zero. -/
def CBallot.Holds (b : CBallot) (P : Params) (K : Nat) (cid sid : String) (n : Nat) : Prop :=
  (∃ ct, contribution b.contests cid sid = [ct] ∧ Encrypts P K n ct) ∨ contribution b.contests cid sid = [] ∧ n = 0

end EG
