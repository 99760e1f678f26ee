import Verif.Model.ElectionBuilder
import Verif.Model.Export
import Verif.Model.Marking

/-!
# electionguard_tools/scripts/sample_generator.py, and the parts of the factories and of export.py that it uses

The numbers of guardians, 5 and 3 (election_factory.py:58-59), are arguments.  The manifest file is given as the manifest that is read
from it.  The two directories are removed at the start (sample_generator.py:75-76), so they have what is returned here and nothing else.
What a run leaves behind that raises is not modelled.
-/

namespace EG

/-- The random numbers and clocks of a run. -/
structure SampleRandom where
  polynomials : Nat → List (Nat × Nat)
  backups : String → Nat → Nat
  draws : List BallotDraws
  ballots : Nat → Nat × Int
  spoil : Nat → Nat
  seeds : TallySeeds

/-- election_factory.py:62-77 `AllPublicElectionData` and `AllPrivateElectionData`. -/
structure SampleElection where
  manifest : Manifest
  internalManifest : InternalManifest
  context : Context
  extendedData : Option (List (String × String))
  records : List GuardianRecord
  guardians : List Guardian

/-- election_factory.py:116-153 `get_sample_manifest_with_encryption_context`. -/
def sampleElection (E : Env) (loads : Bytes → R (List Char)) (n quorum : Int) (m : Manifest) (polynomials : Nat → List (Nat × Nat))
    (backups : String → Nat → Nat) : R SampleElection := do
  let b ← ElectionBuilder.new E n quorum m
  let gs ← createGuardians E ⟨n, quorum⟩ polynomials
  let (gs, med) ← performFullCeremony E loads backups gs (KCM.init "key-ceremony-mediator" ⟨n, quorum⟩)
  let jk ← getOptional (med.publishJointKey E)
  let (im, ctx, ext) ← getOptional (← ((b.setPublicKey jk.jointPublicKey).setCommitmentHash jk.commitmentHash).build E)
  return ⟨m, im, ctx, ext, gs.map Guardian.publish, gs⟩

/-- sample_generator.py:107-113: the ballots that were cast or spoiled, and the store; `draw i` is the random number for ballot `i`. -/
def sampleSubmit (E : Env) (im : InternalManifest) (ctx : Context) (rate : Int) (draw : Nat → Nat) :
    Nat → List CBallot → Store SBallot → R (List SBallot × Store SBallot)
  | _, [], store => .ok ([], store)
  | i, b :: bs, store => do
    let k ← randint (draw i) 0 100
    let r := if k < rate then boxSpoil E im ctx store b else boxCast E im ctx store b
    let sb ← getOptional (← r.1)
    let (sbs, store) ← sampleSubmit E im ctx rate draw (i + 1) bs r.2
    return (sb :: sbs, store)

/-- sample_generator.py:133-154: the decryption, by the first `quorum` guardians or by all. -/
def sampleSetup (E : Env) (loads : Bytes → R (List Char)) (sd : TallySeeds) (ctx : Context) (t : Tally) (bs : List SBallot)
    (gs : List Guardian) (quorum : Int) (all : Bool) : R DM :=
  if !all then performCompensatedSetup E loads sd ctx t bs (gs.take quorum.toNat) (gs.map Guardian.shareKey) DM.init
  else performDecryptionSetup E sd ctx t bs gs DM.init

/-- export.py:100-134 `export_private_data`: its three directories. -/
structure PrivateData where
  guardians : List (String × PrivateGuardianRecord)
  plaintextBallots : List (String × PlaintextBallot)
  ciphertextBallots : List (String × CBallot)

/-- export.py:100-134 `export_private_data`, to an empty directory. -/
def exportPrivateData (plain : List PlaintextBallot) (enc : List CBallot) (records : List PrivateGuardianRecord) : PrivateData where
  guardians := writeAll "private_guardian_" PrivateGuardianRecord.guardianId records
  plaintextBallots := writeAll "plaintext_ballot_" PlaintextBallot.objectId plain
  ciphertextBallots := writeAll "ciphertext_ballot_" (fun b => b.objectId) enc

/-- What a run computes: the election, the ballots, and the two directories. -/
structure SampleResult where
  election : SampleElection
  plain : List PlaintextBallot
  encrypted : List CBallot
  submitted : List SBallot
  record : Option ElectionRecord
  secret : Option PrivateData

/-- sample_generator.py:62-195 `generate`; as many ballots as there are draws.  Without a tally nothing is exported (165). -/
def sampleRun (E : Env) (loads : Bytes → R (List Char)) (json : ContestData → Bytes) (maxE : Nat) (constants : Constants) (device : Device)
    (rnd : SampleRandom) (n quorum : Int) (m : Manifest) (rate : Int) (all priv : Bool) : R SampleResult := do
  let el ← sampleElection E loads n quorum m rnd.polynomials rnd.backups
  let plain ← generateFakeBallots el.internalManifest rnd.draws none false true
  let encrypted ← encryptVotes E json el.internalManifest el.context device (plain.zipIdx.map (fun e => (e.1, rnd.ballots e.2)))
  let (submitted, store) ← sampleSubmit E el.internalManifest el.context rate rnd.spoil 0 encrypted []
  let spoiled := (getBallots store (some .spoiled)).map (·.2)
  let t ← getOptional (← tallyBallots E el.internalManifest el.context true store)
  let dm ← sampleSetup E loads rnd.seeds el.context t spoiled el.guardians quorum all
  let pt ← dm.plaintextTally E maxE el.context t m
  let pts ← getOptional (← dm.plaintextBallots E maxE el.context spoiled m)
  match pt with
  | none => return ⟨el, plain, encrypted, submitted, none, none⟩
  | some pt =>
    let lagrange ← lagrangeForGuardians E.P (dm.available.map (·.2))
    return ⟨el, plain, encrypted, submitted,
      some (exportRecord m el.context el.extendedData constants [device] submitted (pts.map (·.2)) t.publish pt (some el.records) lagrange),
      if priv then some (exportPrivateData plain encrypted (el.guardians.map Guardian.exportPrivate)) else none⟩

end EG
