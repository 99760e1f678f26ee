import Verif.Model.SerializeShares
import Verif.Model.GuiRecord
import Verif.Model.GuiElection

/-!
# electionguard_gui: a decryption with the texts that the database and the files hold

`Model/GuiDecryption` keeps shares and results as values.  Here the database keeps them as the JSON texts that the code stores, the
private files of the guardians are texts, and every reader parses them again.
-/

namespace EG

/-- decryption_service.py:44-62: a decryption as the database holds it. -/
structure TextDecryption where
  electionId : String
  guardians : Int
  joined : List String
  shares : List JoinedDoc
  completed : Option ResultDoc
  deriving DecidableEq

/-- decryption_service.py:44-62 `create`: nobody has joined. -/
def TextDecryption.create (electionId : String) (guardians : Int) : TextDecryption := ⟨electionId, guardians, [], [], none⟩

/-- decryption_s2_announce_service.py:16-20 `should_run`. -/
def TextDecryption.shouldRun (d : TextDecryption) (isAdmin : Bool) : Bool :=
  isAdmin && decide (d.guardians ≤ d.joined.length) && d.completed.isNone

/-- guardian_service.py:31-46 `_load_guardian`; `files` are the texts of the private files.  A file that is missing, or that cannot be
read, raises. -/
def loadGuardianText (P : Params) (files : String → Option (List Char)) (guardianCount quorum : Int) (guardianId : String) : Option Guardian :=
  match files guardianId with
  | none => none
  | some raw => match fromRaw (PrivateGuardianRecord.ofJson P) raw with
    | .error _ => none
    | .ok r => some (Guardian.fromPrivateRecord r guardianCount quorum)

/-- decryption_s2_announce_service.py:22-87, with decryption_dto.py:120-129: the shares are parsed from the texts. -/
def s2ComputeText (E : Env) (maxE : Nat) (parse : List Char → Option SBallot) (net : Nat → Nat → Bool) (db : GuiDb)
    (d : TextDecryption) : R GuiResult := do
  let election ← db.getElection d.electionId
  let shares ← d.shares.mapM (JoinedDoc.read E.P)
  let dm ← announceShares election shares DM.init
  let ballots := db.getBallots parse net d.electionId
  let t ← getTally E election.manifest election.context ballots false
  match ← dm.plaintextTally E maxE election.context t election.manifest with
  | none => .error .value
  | some pt =>
    match ← dm.plaintextBallots E maxE election.context (spoiledOf ballots) election.manifest with
    | none => .error .value
    | some pbs =>
      let lagrange ← lagrangeForGuardians E.P (dm.available.map (·.2))
      return ⟨pt, pbs, lagrange, t⟩

/-- decryption_s1_join_service.py:15-57 `run`: stage 1, with nothing in between (decryption_service.py:105-138 stores the texts). -/
def s1JoinText (E : Env) (parse : List Char → Option SBallot) (net : Nat → Nat → Bool) (db : GuiDb) (d : TextDecryption)
    (user : String) (guardian : Option Guardian) (seeds : JoinSeeds) : R TextDecryption := do
  let r ← s1Compute E parse net db d.electionId user guardian seeds
  return { d with shares := d.shares ++ [r.1.toDoc], joined := d.joined ++ [r.1.guardianId] }

/-- view_decryption_component.py:77-84 `try_run_stage_2`, with nothing in between. -/
def tryRunStage2Text (E : Env) (maxE : Nat) (parse : List Char → Option SBallot) (net : Nat → Nat → Bool) (db : GuiDb)
    (d : TextDecryption) (isAdmin : Bool) : R Bool × TextDecryption :=
  if d.shouldRun isAdmin then
    match s2ComputeText E maxE parse net db d with
    | .error e => (.error e, d)
    | .ok r => (.ok true, { d with completed := some r.toDoc })
  else (.ok false, d)

/-- As `GuiWorld`, with the texts in the database. -/
structure TextWorld where
  db : GuiDb
  dec : TextDecryption
  made : List (JoinedShare × Tally)
  reads : List TextDecryption
  results : List GuiResult

/-- As `GuiWorld.step`: what is stored is turned into texts (decryption_service.py:114-134, 151-166), what is read is parsed. -/
def TextWorld.step (E : Env) (maxE : Nat) (parse : List Char → Option SBallot) (guardianOf : String → Option Guardian)
    (w : TextWorld) : GuiEvent → TextWorld
  | .upload uid eid fn contents => { w with db := (w.db.uploadBallot parse uid eid fn contents).2 }
  | .createUpload eid newId device => { w with db := (w.db.createUpload eid newId device).2 }
  | .joinCompute user net seeds =>
    match s1Compute E parse net w.db w.dec.electionId user (guardianOf user) seeds with
    | .error _ => w
    | .ok r => { w with made := w.made ++ [r] }
  | .joinShare i =>
    match w.made[i]? with
    | none => w
    | some r => { w with dec := { w.dec with shares := w.dec.shares ++ [r.1.toDoc] } }
  | .joinId i =>
    match w.made[i]? with
    | none => w
    | some r => { w with dec := { w.dec with joined := w.dec.joined ++ [r.1.guardianId] } }
  | .adminRead => { w with reads := w.reads ++ [w.dec] }
  | .adminCompute i net =>
    match w.reads[i]? with
    | none => w
    | some d =>
      if d.shouldRun true then
        match s2ComputeText E maxE parse net w.db d with
        | .error _ => w
        | .ok r => { w with results := w.results ++ [r] }
      else w
  | .complete i =>
    match w.results[i]? with
    | none => w
    | some r => { w with dec := { w.dec with completed := some r.toDoc } }

/-- The world after a sequence of steps. -/
def TextWorld.run (E : Env) (maxE : Nat) (parse : List Char → Option SBallot) (guardianOf : String → Option Guardian)
    (w : TextWorld) (evs : List GuiEvent) : TextWorld := evs.foldl (TextWorld.step E maxE parse guardianOf) w

/-- A new decryption (decryption_service.py:36-67 `create`). -/
def TextWorld.start (db : GuiDb) (electionId : String) (guardians : Int) : TextWorld :=
  ⟨db, ⟨electionId, guardians, [], [], none⟩, [], [], []⟩

/-! ### The record as texts -/

/-- export.py:25-41: the texts of the files of an election record. -/
structure RecordTexts where
  manifest : List Char
  context : List Char
  constants : List Char
  coefficients : List Char
  devices : List (String × List Char)
  guardians : List (String × List Char)
  submittedBallots : List (String × List Char)
  spoiledBallots : List (String × List Char)
  encryptedTally : List Char
  tally : List Char
  deriving DecidableEq

/-- export.py:51-100 with serialize.py:126-143 `to_file`: the texts that are written for a record.  The configuration of the context
(election.py:14-27), which `Context` leaves out, is given separately. -/
def ElectionRecord.toTexts (allowOvervotes : Bool) (maxVotes : Int) (r : ElectionRecord) : RecordTexts where
  manifest := toRaw Manifest.toJson r.manifest
  context := toRaw ContextFile.toJson ⟨r.context, r.extendedData, allowOvervotes, maxVotes⟩
  constants := toRaw Constants.toJson r.constants
  coefficients := toRaw lagrangeJson r.coefficients
  devices := r.devices.map (fun e => (e.1, toRaw Device.toJson e.2))
  guardians := r.guardians.map (fun e => (e.1, toRaw GuardianRecord.toJson e.2))
  submittedBallots := r.submittedBallots.map (fun e => (e.1, toRaw SBallot.toJson e.2))
  spoiledBallots := r.spoiledBallots.map (fun e => (e.1, toRaw PlaintextTally.toJson e.2))
  encryptedTally := toRaw PublishedTally.toJson r.encryptedTally
  tally := toRaw PlaintextTally.toJson r.tally

/-- serialize.py:97-102 `from_file` for each file of a directory. -/
def readAll {α : Type} (dec : Json → R α) (files : List (String × List Char)) : R (List (String × α)) :=
  files.mapM (fun e => do return (e.1, ← fromRaw dec e.2))

/-- serialize.py:97-102 `from_file`: what a reader of the record gets from the texts. -/
def RecordTexts.read (P : Params) (t : RecordTexts) : R ElectionRecord := do
  let manifest ← fromRaw Manifest.ofJson t.manifest
  let context ← fromRaw (ContextFile.ofJson P) t.context
  let constants ← fromRaw Constants.ofJson t.constants
  let coefficients ← fromRaw (lagrangeOf P) t.coefficients
  let devices ← readAll Device.ofJson t.devices
  let guardians ← readAll (GuardianRecord.ofJson P) t.guardians
  let submitted ← readAll (SBallot.ofJson P) t.submittedBallots
  let spoiled ← readAll (PlaintextTally.ofJson P) t.spoiledBallots
  let encryptedTally ← fromRaw (PublishedTally.ofJson P) t.encryptedTally
  let tally ← fromRaw (PlaintextTally.ofJson P) t.tally
  return ⟨manifest, context.context, context.extendedData, constants, coefficients, devices, guardians, submitted, spoiled, encryptedTally,
    tally⟩

/-- What the database holds as texts of an election: the manifest, the context and the guardian records (election_service.py:44-69), and the
devices of the ballot uploads. -/
structure ElectionTexts where
  manifest : List Char
  context : List Char
  records : List Char
  devices : List Device

/-- election_service.py:40-43: the texts that are stored of a new election; election_builder.py leaves the configuration at its defaults
(election.py:14-27). -/
def GuiElection.texts (e : GuiElection) (devices : List Device) : ElectionTexts :=
  ⟨toRaw Manifest.toJson e.manifest, toRaw ContextFile.toJson ⟨e.context, e.extendedData, true, 1000000⟩,
    toRaw (listJson GuardianRecord.toJson) e.guardianRecords, devices⟩

/-- export_election_record_component.py:52-89 `export_election_record` with election_dto.py:96-120 and decryption_dto.py:137-156: everything
is parsed from the texts of the database, and written as texts. -/
def guiExportText (E : Env) (constants : Constants) (net : Nat → Nat → Bool) (db : GuiDb) (x : ElectionTexts) (d : TextDecryption) :
    R RecordTexts := do
  let m ← fromRaw Manifest.ofJson x.manifest
  let ctx ← fromRaw (ContextFile.ofJson E.P) x.context
  let ballots := db.getBallots (parseSubmitted E.P) net d.electionId
  match d.completed with
  | none => .error .value
  | some doc => do
    let (tally, spoiled, lagrange, encrypted) ← doc.read E.P
    let records ← fromListRaw (GuardianRecord.ofJson E.P) x.records
    return (exportRecord m ctx.context ctx.extendedData constants x.devices ballots spoiled encrypted tally (some records) lagrange).toTexts
      ctx.allowOvervotes ctx.maxVotes

end EG
