import Verif.Model.GuiElection
import Verif.Model.Names
import Verif.Model.Encrypt
import Verif.Model.Tally
import Verif.Model.BallotBox
import Verif.Model.Orchestrator

/-!
# electionguard_cli: the commands `e2e`, `setup`, `encrypt-ballots`, `submit-ballots` and `import-ballots`

Directories are dictionaries from file names to what was written, and reading a file as another type raises unless the file has all
fields of that type (`CliFile.asEncrypted`); `Model/CliText` has the texts of the files.  `os.listdir` gives the files of a directory in any order, so the commands that read a directory get the list of
its files.  The context file is the context with its extended data.  Random numbers, clocks and seeds are arguments.
The election record that `e2e` and `import-ballots` can export is in `Model/Export`.  Left out: the confirmation before old keys are overwritten,
and what is printed apart from the results.
-/

namespace EG

/-- What can be in a file of the directories that the commands share. -/
inductive CliFile
  | encrypted (b : CBallot)
  | submitted (b : SBallot)
  | device (d : Device)
  | key (r : PrivateGuardianRecord)

/-- A directory. -/
abbrev Dir := List (String × CliFile)

/-- input_retrieval_step_base.py:63-67 `_get_ballot` of a `CiphertextBallot`; serialize.py:97-102 `from_file` passes over the field
`state` of a submitted ballot, and raises for a missing field. -/
def CliFile.asEncrypted : CliFile → R CBallot
  | .encrypted b => .ok b
  | .submitted b => .ok b.toCBallot
  | _ => .error .key

/-- input_retrieval_step_base.py:63-67 `_get_ballot` of a `SubmittedBallot`. -/
def CliFile.asSubmitted : CliFile → R SBallot
  | .submitted b => .ok b
  | _ => .error .key

/-- import_ballots_input_retrieval_step.py:85-88 `_load_private_record`. -/
def CliFile.asKey : CliFile → R PrivateGuardianRecord
  | .key r => .ok r
  | _ => .error .key

/-! ### The steps -/

/-- input_retrieval_step_base.py:22-27 `_get_manifest`; `__print_manifest` asks for the name (36-37). -/
def cliGetManifest (m : Manifest) : R Manifest :=
  if m.isValid then do
    let _ ← m.getName
    return m
  else .error .value

/-- key_ceremony_step.py:18-28 `run_key_ceremony`, with the guardians as they are afterwards. -/
def runKeyCeremony (E : Env) (loads : Bytes → R (List Char)) (nonces : String → Nat → Nat) (gs : List Guardian) :
    R (List Guardian × ElectionJointKey) :=
  match gs with
  | [] => .error .index
  | g :: _ => do
    let (gs', m) ← performFullCeremony E loads nonces gs (KCM.init "mediator_1" g.details)
    let jk ← getOptional (m.publishJointKey E)
    return (gs', jk)

/-- encrypt_votes_step.py:59-68 `_encrypt_ballots`: each ballot with the nonce and the time of its call. -/
def encryptLoop (E : Env) (json : ContestData → Bytes) (im : InternalManifest) (ctx : Context) :
    Nat → List (PlaintextBallot × Nat × Int) → R (List CBallot)
  | _, [] => .ok []
  | seed, (b, nonce, now) :: calls => do
    let (enc, seed') ← mediatorEncrypt E json im ctx seed b nonce now
    let c ← getOptional enc
    let cs ← encryptLoop E json im ctx seed' calls
    return c :: cs

/-- encrypt_votes_step.py:23-57 `encrypt`. -/
def encryptVotes (E : Env) (json : ContestData → Bytes) (im : InternalManifest) (ctx : Context) (d : Device)
    (calls : List (PlaintextBallot × Nat × Int)) : R (List CBallot) :=
  encryptLoop E json im ctx (d.getHash E) calls

/-- submit_votes_step.py:38-58 `_cast_and_spoil`; a refused ballot raises when its state is printed. -/
def castAndSpoil (E : Env) (im : InternalManifest) (ctx : Context) (spoilId : Option String) :
    List CBallot → Store SBallot → R (Store SBallot)
  | [], store => .ok store
  | b :: bs, store => do
    let r := if some b.objectId = spoilId then boxSpoil E im ctx store b else boxCast E im ctx store b
    let _ ← getOptional (← r.1)
    castAndSpoil E im ctx spoilId bs r.2

/-- submit_ballots_step.py:28-34: one of the two loops of `submit`; what the box answers is not looked at. -/
def submitLoop (box : Store SBallot → CBallot → R (Option SBallot) × Store SBallot) :
    List CBallot → Store SBallot → R (Store SBallot)
  | [], store => .ok store
  | b :: bs, store => do
    let r := box store b
    let _ ← r.1
    submitLoop box bs r.2

/-- submit_ballots_step.py:15-36 `submit`: the ballots in the store. -/
def submitBallots (E : Env) (im : InternalManifest) (ctx : Context) (cast spoil : List CBallot) : R (List SBallot) := do
  let store ← submitLoop (boxCast E im ctx) cast []
  let store ← submitLoop (boxSpoil E im ctx) spoil store
  return store.all

/-- tally_step.py:36-49 `_get_tally`; what `batch_append` returns is not looked at. -/
def cliTally (E : Env) (im : InternalManifest) (ctx : Context) (bs : List SBallot) : R Tally :=
  match (newTally E "election-results" im).batchAppend E im ctx true bs true with
  | (.error e, _) => .error e
  | (.ok _, t) => .ok t

/-- tally_step.py:15-26 `get_from_ballots`. -/
def tallyFromBallots (E : Env) (im : InternalManifest) (ctx : Context) (bs : List SBallot) : R (Tally × List SBallot) := do
  let t ← cliTally E im ctx bs
  return (t, bs.filter (fun b => decide (b.state = .spoiled)))

/-- tally_step.py:28-34 `get_from_ballot_store` and 51-55 `_get_spoiled_ballots`. -/
def tallyFromStore (E : Env) (im : InternalManifest) (ctx : Context) (store : Store SBallot) : R (Tally × List SBallot) := do
  let t ← cliTally E im ctx store.all
  return (t, (getBallots store (some .spoiled)).map (·.2))

/-- decrypt_step.py:49-57: the loop of `decrypt` over the guardians. -/
def cliAnnounce (E : Env) (sd : TallySeeds) (ctx : Context) (t : Tally) (bs : List SBallot) : List Guardian → DM → R DM
  | [], dm => .ok dm
  | g :: gs, dm => do
    let share ← getOptional (g.computeTallyShare E t ctx (sd.tally g.id))
    let ballotShares := g.computeBallotShares E bs ctx (sd.ballot g.id)
    cliAnnounce E sd ctx t bs gs (dm.announce g.shareKey share (some ballotShares))

/-- cli_decrypt_results.py `CliDecryptResults`. -/
structure DecryptResults where
  tally : PlaintextTally
  spoiled : List (String × PlaintextTally)
  ciphertextTally : Tally
  lagrange : List (String × Nat)

/-- decrypt_step.py:28-74 `decrypt`. -/
def cliDecrypt (E : Env) (sd : TallySeeds) (maxE : Nat) (ctx : Context) (t : Tally) (bs : List SBallot) (gs : List Guardian)
    (m : Manifest) : R DecryptResults := do
  let dm ← cliAnnounce E sd ctx t bs gs DM.init
  let lagrange ← lagrangeForGuardians E.P (dm.available.map (·.2))
  let pt ← getOptional (← dm.plaintextTally E maxE ctx t m)
  let pts ← getOptional (← dm.plaintextBallots E maxE ctx bs m)
  return ⟨pt, pts, t, lagrange⟩

/-- output_step_base.py:16-30 `_export_private_keys` to a directory; serialize.py:126-143 `to_file` overwrites. -/
def exportPrivateKeys (dir : Dir) (gs : List Guardian) : Dir :=
  (gs.map Guardian.exportPrivate).foldl (fun d r => dset d ("guardian_" ++ r.guardianId ++ ".json") (.key r)) dir

/-! ### `e2e` -/

/-- The random numbers and clocks of a run of `e2e`: of the guardians' polynomials, of their backups, of the ballots and of the
decryption. -/
structure E2eRandom where
  polynomials : Nat → List (Nat × Nat)
  backups : String → Nat → Nat
  device : Device
  ballots : List (Nat × Int)
  seeds : TallySeeds

/-- What a run of `e2e` computes: the guardians, the context and its extended data, the store, the results, and what is printed. -/
structure E2eResult where
  guardians : List Guardian
  context : Context
  extendedData : Option (List (String × String))
  store : Store SBallot
  results : DecryptResults
  printed : List PrintedContest × List (String × List PrintedContest)

/-- e2e_command.py:89-124: `e2e` up to the printing of the results; e2e_input_retrieval_step.py:20-49 `get_inputs`. -/
def e2eRun (E : Env) (loads : Bytes → R (List Char)) (json : ContestData → Bytes) (maxE : Nat) (rnd : E2eRandom)
    (guardianCount quorum : Int) (m : Manifest) (ballots : List PlaintextBallot) (spoilId url : Option String) : R E2eResult := do
  let gs ← createGuardians E ⟨guardianCount, quorum⟩ rnd.polynomials
  let m ← cliGetManifest m
  let (gs, jk) ← runKeyCeremony E loads rnd.backups gs
  let (im, ctx, ext) ← buildElection E guardianCount quorum m jk.jointPublicKey jk.commitmentHash url
  let encrypted ← encryptVotes E json im ctx rnd.device (ballots.zip rnd.ballots)
  let store ← castAndSpoil E im ctx spoilId encrypted []
  let (t, spoiled) ← tallyFromStore E im ctx store
  let res ← cliDecrypt E rnd.seeds maxE ctx t spoiled gs m
  let printed ← printElectionResults m res.tally res.spoiled
  return ⟨gs, ctx, ext, store, res, printed⟩

/-- e2e_publish_step.py:18-69 `export`: whether an election record was written, and the directory of the keys.  `splitext(None)` (62)
raises `TypeError` before the keys are written. -/
def e2ePublish (record : Option String) (keysDir : Option Dir) (r : E2eResult) : R (String × Option Dir) :=
  match record with
  | none => .error .type
  | some file => .ok (file, keysDir.map (fun d => exportPrivateKeys d r.guardians))

/-! ### `setup` -/

/-- setup_election_command.py:64-73 and setup_input_retrieval_step.py:16-32: the package and the directory of the keys. -/
def setupCommand (E : Env) (loads : Bytes → R (List Char)) (polynomials : Nat → List (Nat × Nat)) (backups : String → Nat → Nat)
    (guardianCount quorum : Int) (m : Manifest) (url : Option String) (keysDir : Dir) : R (EncryptionPackage × Dir) := do
  let gs ← createGuardians E ⟨guardianCount, quorum⟩ polynomials
  let m ← cliGetManifest m
  let (gs, jk) ← runKeyCeremony E loads backups gs
  let (_, ctx, ext) ← buildElection E guardianCount quorum m jk.jointPublicKey jk.commitmentHash url
  return (outputSetupFiles ctx ext m (gs.map Guardian.publish), exportPrivateKeys keysDir gs)

/-! ### The commands that start from a context file -/

/-- encrypt_ballots_election_builder_step.py:10-21 (the same in the other commands) `build_election_with_context`; election.py:79-84
`get_extended_data_field`. -/
def buildWithContext (E : Env) (m : Manifest) (ctx : Context) (ext : Option (List (String × String))) :
    R (InternalManifest × Context × Option (List (String × String))) :=
  buildElection E ctx.numberOfGuardians ctx.quorum m ctx.elgamalPublicKey ctx.commitmentHash
    (dget (ext.getD []) "verification_url")

/-- encrypt_command.py:42-51 and encrypt_ballots_publish_step.py:12-21: the directory afterwards.  The device is written to the same
directory as the ballots. -/
def encryptCommand (E : Env) (json : ContestData → Bytes) (d : Device) (m : Manifest) (ctx : Context)
    (ext : Option (List (String × String))) (calls : List (PlaintextBallot × Nat × Int)) (dir : Dir) : R Dir := do
  let m ← cliGetManifest m
  let (im, ctx, _) ← buildWithContext E m ctx ext
  let cs ← encryptVotes E json im ctx d calls
  return cs.foldl (fun dir c => dset dir (c.objectId ++ ".json") (.encrypted c)) (dset dir "device.json" (.device d))

/-- submit_command.py:49-60, submit_ballots_input_retrieval_step.py:15-38 and submit_ballots_publish_step.py:12-19: the directory
afterwards. -/
def submitCommand (E : Env) (m : Manifest) (ctx : Context) (ext : Option (List (String × String))) (castFiles spoilFiles : List CliFile)
    (dir : Dir) : R Dir := do
  let m ← cliGetManifest m
  let cast ← castFiles.mapM CliFile.asEncrypted
  let spoil ← spoilFiles.mapM CliFile.asEncrypted
  let (im, ctx, _) ← buildWithContext E m ctx ext
  let bs ← submitBallots E im ctx cast spoil
  return bs.foldl (fun dir b => dset dir (b.objectId ++ ".json") (.submitted b)) dir

/-- import_ballots_command.py:69-90, import_ballots_input_retrieval_step.py:24-96: the results and what is printed. -/
def importCommand (E : Env) (maxE : Nat) (sd : TallySeeds) (m : Manifest) (ctx : Context) (ext : Option (List (String × String)))
    (ballotFiles keyFiles : List CliFile) :
    R (DecryptResults × (List PrintedContest × List (String × List PrintedContest))) := do
  let m ← cliGetManifest m
  let records ← keyFiles.mapM CliFile.asKey
  let gs := records.map (fun r => Guardian.fromPrivateRecord r ctx.numberOfGuardians ctx.quorum)
  let bs ← ballotFiles.mapM CliFile.asSubmitted
  let (im, ctx, _) ← buildWithContext E m ctx ext
  let (t, spoiled) ← tallyFromBallots E im ctx bs
  let res ← cliDecrypt E sd maxE ctx t spoiled gs m
  let printed ← printElectionResults m res.tally res.spoiled
  return (res, printed)

end EG
