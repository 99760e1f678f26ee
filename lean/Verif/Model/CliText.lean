import Verif.Model.Export
import Verif.Model.GuiText

/-!
# electionguard_cli: the commands over the texts of their files

`Model/Cli` has the commands over the values in the files; here every command reads and writes texts.  A directory is a dictionary from file
names to texts.  Ids are taken to be usable as parts of file names (no path separators).  Left out: the zip archive around the record, the
confirmation before old keys are overwritten, output options that are not given (apart from the record), and what is printed apart
from the results.
-/

namespace EG

/-- The names and texts of the files of a directory. -/
abbrev TextDir := List (String × List Char)

/-- What is at a path; `os.listdir` gives the files of a directory in any order. -/
inductive CliPath
  | file (raw : List Char)
  | dir (files : List (List Char))
  | neither

/-- input_retrieval_step_base.py:49-67 `_get_ballots`, `_get_ballot`. -/
def CliPath.read {α : Type} (dec : Json → R α) : CliPath → R (List α)
  | .file raw => fromListRaw dec raw
  | .dir files => files.mapM (fromRaw dec)
  | .neither => .error .value

/-- input_retrieval_step_base.py:22-27 `_get_manifest`; serialize.py:90-94 `from_file_wrapper`. -/
def cliReadManifest (raw : List Char) : R Manifest := do cliGetManifest (← fromRaw Manifest.ofJson raw)

/-- output_step_base.py:16-30 `_export_private_keys`. -/
def exportPrivateKeysText (dir : TextDir) (gs : List Guardian) : TextDir :=
  (gs.map Guardian.exportPrivate).foldl
    (fun d r => dset d ("guardian_" ++ r.guardianId ++ ".json") (toRaw PrivateGuardianRecord.toJson r)) dir

/-- output_setup_files_step.py:23-66: the texts of the files of an encryption package. -/
structure PackageTexts where
  context : List Char
  constants : List Char
  manifest : List Char
  guardians : TextDir

/-- setup_election_command.py:64-73, setup_input_retrieval_step.py:16-32 and output_setup_files_step.py:23-66: the package and the directory of
the keys.  election_builder.py leaves the configuration of the context at its defaults (election.py:14-27). -/
def setupCommandText (E : Env) (constants : Constants) (polynomials : Nat → List (Nat × Nat)) (backups : String → Nat → Nat)
    (guardianCount quorum : Int) (manifest : List Char) (url : Option String) (keysDir : TextDir) : R (PackageTexts × TextDir) := do
  let gs ← createGuardians E ⟨guardianCount, quorum⟩ polynomials
  let m ← cliReadManifest manifest
  let (gs, jk) ← runKeyCeremony E loadsCoordinate backups gs
  let (_, ctx, ext) ← buildElection E guardianCount quorum m jk.jointPublicKey jk.commitmentHash url
  return (⟨toRaw ContextFile.toJson ⟨ctx, ext, true, 1000000⟩, toRaw Constants.toJson constants, toRaw Manifest.toJson m,
    (gs.map Guardian.publish).foldl (fun d r => dset d ("guardian_" ++ r.guardianId ++ ".json") (toRaw GuardianRecord.toJson r)) []⟩,
    exportPrivateKeysText keysDir gs)

/-- encrypt_command.py:42-51, encrypt_ballots_input_retrieval_step.py:19-40 and encrypt_ballots_publish_step.py:12-21: the directory
afterwards.  `rnd` has the nonce and the time of each ballot. -/
def encryptCommandText (E : Env) (d : Device) (manifest context : List Char) (ballots : CliPath) (rnd : List (Nat × Int)) (dir : TextDir) :
    R TextDir := do
  let m ← cliReadManifest manifest
  let c ← fromRaw (ContextFile.ofJson E.P) context
  let bs ← ballots.read PlaintextBallot.ofJson
  let (im, ctx, _) ← buildWithContext E m c.context c.extendedData
  let cs ← encryptVotes E contestDataJson im ctx d (bs.zip rnd)
  return cs.foldl (fun dir c => dset dir (c.objectId ++ ".json") (toRaw CBallot.toJson c)) (dset dir "device.json" (toRaw Device.toJson d))

/-- submit_command.py:49-60, submit_ballots_input_retrieval_step.py:15-38 and submit_ballots_publish_step.py:12-19: the directory
afterwards. -/
def submitCommandText (E : Env) (manifest context : List Char) (cast : CliPath) (spoil : Option CliPath) (dir : TextDir) : R TextDir := do
  let m ← cliReadManifest manifest
  let c ← fromRaw (ContextFile.ofJson E.P) context
  let cast ← cast.read (CBallot.ofJson E.P)
  let spoil ← match spoil with
    | some path => path.read (CBallot.ofJson E.P)
    | none => pure []
  let (im, ctx, _) ← buildWithContext E m c.context c.extendedData
  let bs ← submitBallots E im ctx cast spoil
  return bs.foldl (fun dir b => dset dir (b.objectId ++ ".json") (toRaw SBallot.toJson b)) dir

/-- What a run of `import-ballots` gives: the results, what is printed, and the texts of the record, if one was asked for. -/
structure ImportTexts where
  results : DecryptResults
  printed : List PrintedContest × List (String × List PrintedContest)
  record : Option RecordTexts

/-- import_ballots_command.py:69-104, import_ballots_input_retrieval_step.py:24-96 and import_ballots_publish_step.py:19-51.  `device` is
the text of the file of the encryption device, if one is given; `wanted` says whether a record is asked for. -/
def importCommandText (E : Env) (constants : Constants) (maxE : Nat) (sd : TallySeeds) (manifest context : List Char) (ballots : CliPath)
    (keys : List (List Char)) (device : Option (List Char)) (wanted : Bool) : R ImportTexts := do
  let m ← cliReadManifest manifest
  let c ← fromRaw (ContextFile.ofJson E.P) context
  let records ← keys.mapM (fromRaw (PrivateGuardianRecord.ofJson E.P))
  let gs := records.map (fun r => Guardian.fromPrivateRecord r c.context.numberOfGuardians c.context.quorum)
  let devices ← match device with
    | none => pure []
    | some raw => do
      let d ← fromRaw Device.ofJson raw
      pure [d]
  let bs ← ballots.read (SBallot.ofJson E.P)
  let (im, ctx, ext) ← buildWithContext E m c.context c.extendedData
  let (t, spoiled) ← tallyFromBallots E im ctx bs
  let res ← cliDecrypt E sd maxE ctx t spoiled gs m
  let printed ← printElectionResults m res.tally res.spoiled
  let record := if wanted then
    some ((exportRecord m ctx ext constants devices bs (res.spoiled.map (·.2)) res.ciphertextTally.publish res.tally
      (some (gs.map Guardian.publish)) res.lagrange).toTexts true 1000000)
    else none
  return ⟨res, printed, record⟩

/-- e2e_command.py:89-134, e2e_input_retrieval_step.py:20-49 and e2e_publish_step.py:18-69: the run, the texts of the record, and the
directory of the keys.  The guardians are created before the files are read; `e2eRun` creates the same again. -/
def e2eCommandText (E : Env) (constants : Constants) (maxE : Nat) (rnd : E2eRandom) (guardianCount quorum : Int) (manifest : List Char)
    (ballots : CliPath) (spoilId url : Option String) (record : Option String) (keysDir : Option TextDir) :
    R (E2eResult × RecordTexts × Option TextDir) := do
  let _ ← createGuardians E ⟨guardianCount, quorum⟩ rnd.polynomials
  let m ← cliReadManifest manifest
  let bs ← ballots.read PlaintextBallot.ofJson
  let r ← e2eRun E loadsCoordinate contestDataJson maxE rnd guardianCount quorum m bs spoilId url
  match record with
  | none => .error .type
  | some _ => return (r, (e2eRecord constants m rnd.device r).toTexts true 1000000, keysDir.map (fun d => exportPrivateKeysText d r.guardians))

end EG
