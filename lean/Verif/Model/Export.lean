import Verif.Model.Cli
import Verif.Model.Constants
import Verif.Model.Verify

/-!
# electionguard_tools/helpers/export.py, and the commands that export an election record

The record is a directory with files of fixed names, which are the fields below, and four directories.  A file is read back as it
was written.  Ids are taken to be usable as parts of file names (no path separators).  The zip archive is left out.
-/

namespace EG

/-- tally.py:180-186 `PublishedCiphertextTally`. -/
structure PublishedTally where
  objectId : String
  contests : List (String × TallyContest)

/-- tally.py:316-317 `publish`. -/
def Tally.publish (t : Tally) : PublishedTally := ⟨t.objectId, t.contests⟩

/-- export.py:25-41: the files of an election record. -/
structure ElectionRecord where
  manifest : Manifest
  context : Context
  extendedData : Option (List (String × String))
  constants : Constants
  coefficients : List (String × Nat)
  devices : List (String × Device)
  guardians : List (String × GuardianRecord)
  submittedBallots : List (String × SBallot)
  spoiledBallots : List (String × PlaintextTally)
  encryptedTally : PublishedTally
  tally : PlaintextTally

/-- serialize.py:126-143 `to_file` for each of some objects, into one directory that was empty; serialize.py:57-65 `construct_path`. -/
def writeAll {α : Type} (pre : String) (id : α → String) (l : List α) : List (String × α) :=
  l.foldl (fun d x => dset d (pre ++ id x ++ ".json") x) []

/-- export.py:51-97 `export_record`, to an empty directory. -/
def exportRecord (m : Manifest) (ctx : Context) (ext : Option (List (String × String))) (constants : Constants)
    (devices : List Device) (submitted : List SBallot) (spoiled : List PlaintextTally) (encrypted : PublishedTally)
    (tally : PlaintextTally) (guardians : Option (List GuardianRecord)) (lagrange : List (String × Nat)) : ElectionRecord where
  manifest := m
  context := ctx
  extendedData := ext
  constants := constants
  coefficients := lagrange
  devices := writeAll "device_" (fun d => decStr d.deviceId) devices
  guardians := writeAll "guardian_" GuardianRecord.guardianId (guardians.getD [])
  submittedBallots := writeAll "submitted_ballot_" (fun b => b.objectId) submitted
  spoiledBallots := writeAll "spoiled_ballot_" PlaintextTally.objectId spoiled
  encryptedTally := encrypted
  tally := tally

/-- e2e_publish_step.py:38-60 `_export_election_record`: the record of a run of `e2e`; output_step_base.py:36-40
`_get_guardian_records`. -/
def e2eRecord (constants : Constants) (m : Manifest) (device : Device) (r : E2eResult) : ElectionRecord :=
  exportRecord m r.context r.extendedData constants [device] r.store.all (r.results.spoiled.map (·.2)) r.results.ciphertextTally.publish
    r.results.tally (some (r.guardians.map Guardian.publish)) r.results.lagrange

/-- import_ballots_publish_step.py:19-51 `publish`: the record of a run of `import-ballots` with the results `r`, if one was asked for.
The inputs and the context are those that the command has in hand (`importCommand`). -/
def importRecord (E : Env) (constants : Constants) (m : Manifest) (ctx : Context) (ext : Option (List (String × String)))
    (devices : List Device) (ballotFiles keyFiles : List CliFile) (wanted : Bool) (r : DecryptResults) :
    R (Option ElectionRecord) := do
  let records ← keyFiles.mapM CliFile.asKey
  let gs := records.map (fun r => Guardian.fromPrivateRecord r ctx.numberOfGuardians ctx.quorum)
  let bs ← ballotFiles.mapM CliFile.asSubmitted
  let (_, ctx, ext) ← buildWithContext E m ctx ext
  if wanted then
    return some (exportRecord m ctx ext constants devices bs (r.spoiled.map (·.2)) r.ciphertextTally.publish r.tally
      (some (gs.map Guardian.publish)) r.lagrange)
  else return none

/-- verify.py:71-93 `verify_aggregation` with the published tally in place of a `CiphertextTally`: the ballots are appended, and
`isinstance` (84) is false. -/
def verifyAggregationPublished (E : Env) (up : Bool) (bs : List SBallot) (_ : PublishedTally) (m : Manifest) (ctx : Context) :
    R Bool := do
  let im ← mkInternalManifest E m
  let _ ← appendAll E im ctx up bs (newTally E "verify" im)
  return false

end EG
