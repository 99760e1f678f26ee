import Verif.Model.Tally

/-!
# electionguard_gui: ballot uploads and the tally of the uploaded ballots

The database is a value: the collection `elections` as a dict from the id, and the documents of the collection
`ballot_uploads` that carry a ballot, in the order of insertion.  Left out: the header document that
`BallotUploadService.create` inserts into `ballot_uploads` (it carries neither an object id nor file contents, so no query
below finds it, and `increment_ballot_count` compares its `ObjectId` with a string, which never matches), device and log
texts, and the contents of the front end.  The JSON parser `from_raw(SubmittedBallot, …)` is a parameter that gives `none`
when it raises.  The database answers every call, except that fetching one ballot may fail, as an oracle decides.
-/

namespace EG

/-- ballot_upload_service.py:54-62: a document with a ballot. -/
structure BallotDoc where
  uploadId : String
  electionId : String
  fileName : String
  objectId : String
  contents : List Char
  deriving DecidableEq, Repr

/-- election_service.py:102-111: an entry of `ballot_uploads` of an election, without the texts about the device. -/
structure UploadEntry where
  uploadId : String
  ballotCount : Nat
  deriving DecidableEq, Repr

/-- election_service.py:44-69, election_dto.py:33-49: an election; `guardianRecords` keeps the id and the sequence order
of the guardians. -/
structure ElectionDoc where
  manifest : Manifest
  context : Context
  guardianRecords : List (String × Int)
  uploads : List UploadEntry
  deriving DecidableEq, Repr

/-- The two collections. -/
structure GuiDb where
  elections : List (String × ElectionDoc)
  ballots : List BallotDoc
  deriving DecidableEq, Repr

/-- What a call of the component reports to the front end. -/
inductive UploadResult where
  | fail
  | success (isDuplicate : Bool)
  deriving DecidableEq, Repr

/-- election_service.py:86-114 `append_ballot_upload`; `update_one` changes nothing if there is no such election. -/
def GuiDb.appendUpload (db : GuiDb) (electionId uploadId : String) : GuiDb :=
  match dget db.elections electionId with
  | none => db
  | some e => { db with elections := dset db.elections electionId { e with uploads := e.uploads ++ [⟨uploadId, 0⟩] } }

/-- upload_ballots_component.py:35-65 `create_ballot_upload`.  `newId` is the id that the database gives to the new
document; `device` says whether the device file is a JSON object with the fields that are read
(election_service.py:97-108).  The result is the id, or `none` for a failure. -/
def GuiDb.createUpload (db : GuiDb) (electionId newId : String) (device : Bool) : Option String × GuiDb :=
  match dget db.elections electionId with
  | none => (none, db)
  | some _ => if device then (some newId, db.appendUpload electionId newId) else (none, db)

/-- ballot_upload_service.py:72-79 `any_ballot_exists`. -/
def GuiDb.anyBallotExists (db : GuiDb) (electionId objectId : String) : Bool :=
  decide (0 < (db.ballots.filter (fun d => d.electionId == electionId && d.objectId == objectId)).length)

/-- `{"$inc": {"ballot_uploads.$.ballot_count": 1}}`: the first matching entry is counted up. -/
def incrementFirst (uploadId : String) : List UploadEntry → List UploadEntry
  | [] => []
  | u :: us => if u.uploadId == uploadId then { u with ballotCount := u.ballotCount + 1 } :: us
    else u :: incrementFirst uploadId us

/-- election_service.py:135-147 `increment_ballot_upload_ballot_count`. -/
def GuiDb.increment (db : GuiDb) (electionId uploadId : String) : GuiDb :=
  match dget db.elections electionId with
  | none => db
  | some e => { db with
      elections := dset db.elections electionId { e with uploads := incrementFirst uploadId e.uploads } }

/-- ballot_upload_service.py:44-63 `add_ballot`. -/
def GuiDb.addBallot (db : GuiDb) (d : BallotDoc) : GuiDb := { db with ballots := db.ballots ++ [d] }

/-- upload_ballots_component.py:74-91: the part of `upload_ballot` before the ballot is stored: the answer of the
component if it ends here, otherwise the id of the ballot. -/
def GuiDb.checkUpload (parse : List Char → Option SBallot) (db : GuiDb) (electionId : String) (contents : List Char) :
    UploadResult ⊕ String :=
  match parse contents with
  | none => .inl .fail
  | some b => match dget db.elections electionId with
    | none => .inl .fail
    | some e =>
      if e.context.manifestHash ≠ b.manifestHash then .inl .fail
      else if db.anyBallotExists electionId b.objectId then .inl (.success true)
      else .inr b.objectId

/-- upload_ballots_component.py:98-111: the part of `upload_ballot` that stores the ballot and counts it. -/
def GuiDb.storeUpload (db : GuiDb) (uploadId electionId fileName : String) (contents : List Char) (objectId : String) :
    GuiDb := (db.addBallot ⟨uploadId, electionId, fileName, objectId, contents⟩).increment electionId uploadId

/-- upload_ballots_component.py:67-114 `upload_ballot`. -/
def GuiDb.uploadBallot (parse : List Char → Option SBallot) (db : GuiDb) (uploadId electionId fileName : String)
    (contents : List Char) : UploadResult × GuiDb :=
  match db.checkUpload parse electionId contents with
  | .inl r => (r, db)
  | .inr objectId => (.success false, db.storeUpload uploadId electionId fileName contents objectId)

/-- upload_ballots_component.py:183-196: the loop of `upload_ballots` over the files (name and contents): `none` for the
failure of one upload, which ends the loop, or else the number of duplicates. -/
def GuiDb.uploadFiles (parse : List Char → Option SBallot) (uploadId electionId : String) :
    List (String × List Char) → GuiDb → Nat → Option Nat × GuiDb
  | [], db, dups => (some dups, db)
  | f :: fs, db, dups =>
    match db.uploadBallot parse uploadId electionId f.1 f.2 with
    | (.fail, db') => (none, db')
    | (.success dup, db') => uploadFiles parse uploadId electionId fs db' (if dup then dups + 1 else dups)

/-- upload_ballots_component.py:159-199 `upload_ballots` for a drive with a device file and ballot files: the number of
files and of duplicates, or `none` for a failure. -/
def GuiDb.uploadBallots (parse : List Char → Option SBallot) (db : GuiDb) (electionId newId : String) (device : Bool)
    (files : List (String × List Char)) : Option (Nat × Nat) × GuiDb :=
  match db.createUpload electionId newId device with
  | (none, db') => (none, db')
  | (some uploadId, db') =>
    match db'.uploadFiles parse uploadId electionId files 0 with
    | (none, db'') => (none, db'')
    | (some dups, db'') => (some (files.length, dups), db'')

/-- A client between the two parts of `upload_ballot`. -/
structure PendingUpload where
  uploadId : String
  electionId : String
  fileName : String
  contents : List Char
  objectId : String
  deriving DecidableEq, Repr

/-- Several clients upload ballots at the same time.  The database runs one call at a time, but between the check and the
insertion of one client there may be calls of others. -/
structure UploadState where
  db : GuiDb
  pending : List (String × PendingUpload)
  deriving DecidableEq, Repr

/-- What a client does next. -/
inductive UploadEvent where
  | check (client uploadId electionId fileName : String) (contents : List Char)
  | store (client : String)

/-- upload_ballots_component.py:67-114: one half of `upload_ballot` of one client.  A client runs one call at a time. -/
def UploadState.step (parse : List Char → Option SBallot) (s : UploadState) : UploadEvent → UploadState
  | .check client uploadId electionId fileName contents =>
    match dget s.pending client with
    | some _ => s
    | none => match s.db.checkUpload parse electionId contents with
      | .inl _ => s
      | .inr objectId =>
        { s with pending := dset s.pending client ⟨uploadId, electionId, fileName, contents, objectId⟩ }
  | .store client =>
    match dget s.pending client with
    | none => s
    | some u => ⟨s.db.storeUpload u.uploadId u.electionId u.fileName u.contents u.objectId, ddel s.pending client⟩

/-- election_dto.py:128-129 `sum_ballots`. -/
def ElectionDoc.sumBallots (e : ElectionDoc) : Nat := (e.uploads.map (fun u => u.ballotCount)).sum

/-- The ways in which fetching a ballot ends. -/
inductive Fetch where
  | got (b : SBallot)
  | retry
  | raised

/-- ballot_upload_service.py:130-154 `get_submitted_ballot`; `up` says whether the database answers.  The last character
of an empty text raises `IndexError`, which is not retried. -/
def fetchBallot (parse : List Char → Option SBallot) (up : Bool) (contents : List Char) : Fetch :=
  if up = false then .retry
  else match contents.getLast? with
    | none => .raised
    | some c =>
      if c ≠ '}' then .retry
      else match parse contents with
        | none => .retry
        | some b => .got b

/-- ballot_upload_service.py:111-128 `get_submitted_ballot_with_retry`: three attempts. -/
def fetchWithRetry (parse : List Char → Option SBallot) (contents : List Char) : List Bool → Option SBallot
  | [] => none
  | up :: ups => match fetchBallot parse up contents with
    | .got b => some b
    | .raised => none
    | .retry => fetchWithRetry parse contents ups

/-- ballot_upload_service.py:81-109 `get_ballots`.  `net n k` says whether the database answers attempt `k` for the
`n`-th ballot.  A ballot that cannot be fetched is skipped. -/
def GuiDb.getBallots (parse : List Char → Option SBallot) (net : Nat → Nat → Bool) (db : GuiDb) (electionId : String) :
    List SBallot :=
  (db.ballots.filter (fun d => d.electionId == electionId)).zipIdx.filterMap (fun e =>
    fetchWithRetry parse e.1.contents [net e.2 0, net e.2 1, net e.2 2])

/-- decryption_stage_base.py:58-74 `get_tally`: the answer of `batch_append` is not looked at; an exception is passed
on. -/
def getTally (E : Env) (m : Manifest) (ctx : Context) (ballots : List SBallot) (shouldValidate : Bool) : R Tally := do
  let im ← mkInternalManifest E m
  match (newTally E "election-results" im).batchAppend E im ctx true ballots shouldValidate with
  | (.error e, _) => .error e
  | (.ok _, t) => return t

end EG
