import Verif.Model.GuiKeyCeremony
import Verif.Model.GuiDecryption

/-!
# electionguard_gui: the lists of key ceremonies, elections and decryptions, and the calls that add to them

The three collections are dicts from the id, in the order of insertion.  A call of a component is a sequence of requests to the
database; the database runs one request at a time, but between two requests of one call there may be requests of other calls and any
other work (uploads, joining, the stages of a ceremony), which is an arbitrary change of the part of a document that it may touch.
The id of a new document is the one that the database gives; inserting an id that is there already raises.  Left out: dates, the
user who created a document, and the log.  `handle_error` (component_base.py) answers with a failure.
-/

namespace EG

/-- key_ceremony_service.py:42-63: a key ceremony with its name. -/
structure NamedCeremony where
  name : String
  doc : KCDoc
  deriving DecidableEq, Repr

/-- election_service.py:122-131: an entry of `decryptions` of an election. -/
structure DecryptionEntry where
  decryptionId : String
  name : String
  deriving DecidableEq, Repr

/-- election_service.py:44-69: what the lists and `DecryptionService.create` read of an election. -/
structure NamedElection where
  name : String
  keyCeremonyId : String
  guardians : Int
  quorum : Int
  uploads : List UploadEntry
  decryptions : List DecryptionEntry
  deriving DecidableEq, Repr

/-- decryption_service.py:44-62: a decryption with its name and the numbers that it takes from the election. -/
structure NamedDecryption where
  name : String
  electionName : String
  keyCeremonyId : String
  quorum : Int
  ballotCount : Nat
  uploadCount : Nat
  doc : GuiDecryption
  deriving DecidableEq, Repr

/-- The collections, and the deltas that tell watchers of changes (collection and id). -/
structure ListsDb where
  ceremonies : List (String × NamedCeremony)
  elections : List (String × NamedElection)
  decryptions : List (String × NamedDecryption)
  deltas : List (String × String)
  deriving DecidableEq, Repr

/-- A new database. -/
def ListsDb.empty : ListsDb := ⟨[], [], [], []⟩

/-- What a call tells the front end. -/
inductive Answer where
  | success (id : String)
  | fail
  | raised
  deriving DecidableEq, Repr

/-- key_ceremony_service.py:168-172 `exists`. -/
def ListsDb.ceremonyExists (db : ListsDb) (name : String) : Bool := db.ceremonies.any (fun c => c.2.name == name)

/-- create_election_component.py:77: `db.elections.find_one({"election_name": …})`. -/
def ListsDb.electionExists (db : ListsDb) (name : String) : Bool := db.elections.any (fun e => e.2.name == name)

/-- decryption_service.py:72-75 `name_exists`: the name is looked for in the decryptions of all elections. -/
def ListsDb.decryptionExists (db : ListsDb) (name : String) : Bool := db.decryptions.any (fun d => d.2.name == name)

/-- decryption_service.py:86-91 `get_decryption_count`. -/
def ListsDb.decryptionCount (db : ListsDb) (electionId : String) : Nat :=
  (db.decryptions.filter (fun d => d.2.doc.electionId == electionId)).length

/-- create_decryption_component.py:36-38: the name on offer for the decryption number `n`. -/
def suggestedName (electionName : String) (n : Nat) : String := electionName ++ " Tally #" ++ toString n

/-- create_decryption_component.py:27-35 `get_suggested_decryption_name`; `get` raises if there is no such election. -/
def ListsDb.suggest (db : ListsDb) (electionId : String) : R String :=
  match dget db.elections electionId with
  | none => .error .value
  | some e => .ok (suggestedName e.name (db.decryptionCount electionId + 1))

/-- guardian_home_component.py:38-42 `get_decryptions`, decryption_service.py:93-103 `get_active`: ids and names. -/
def ListsDb.homeDecryptions (db : ListsDb) : List (String × String) :=
  (db.decryptions.filter (fun d => d.2.doc.completed.isNone)).map (fun d => (d.1, d.2.name))

/-- guardian_home_component.py:44-50 `get_key_ceremonies`, key_ceremony_service.py:164-166 `get_active`. -/
def ListsDb.homeCeremonies (db : ListsDb) : List (String × String) :=
  (db.ceremonies.filter (fun c => !c.2.doc.completed)).map (fun c => (c.1, c.2.name))

/-- create_election_component.py:57-64 `get_keys`, key_ceremony_service.py:160-162 `get_completed`. -/
def ListsDb.keys (db : ListsDb) : List (String × String) :=
  (db.ceremonies.filter (fun c => c.2.doc.completed)).map (fun c => (c.1, c.2.name))

/-- election_list_component.py:18-22 `get_elections`. -/
def ListsDb.electionList (db : ListsDb) : List (String × String) := db.elections.map (fun e => (e.1, e.2.name))

/-- election_dto.py:83-90: the decryptions that `get_election` shows (view_election_component.py:18-21); `get` raises if there is no
such election. -/
def ListsDb.decryptionsOf (db : ListsDb) (electionId : String) : R (List (String × String)) :=
  match dget db.elections electionId with
  | none => .error .value
  | some e => .ok (e.decryptions.map (fun x => (x.decryptionId, x.name)))

/-- election_dto.py:128-129 `sum_ballots`. -/
def NamedElection.sumBallots (e : NamedElection) : Nat := (e.uploads.map (fun u => u.ballotCount)).sum

/-- decryption_service.py:36-62 `create`: the document. -/
def NamedDecryption.create (electionId : String) (e : NamedElection) (name : String) : NamedDecryption :=
  ⟨name, e.name, e.keyCeremonyId, e.quorum, e.sumBallots, e.uploads.length, GuiDecryption.create electionId e.guardians⟩

/-- db_watcher_service.py:30-33 `notify_changed`. -/
def ListsDb.notify (db : ListsDb) (collection id : String) : ListsDb := { db with deltas := db.deltas ++ [(collection, id)] }

/-- election_service.py:116-133 `append_decryption`; `update_one` changes nothing if there is no such election. -/
def ListsDb.appendDecryption (db : ListsDb) (electionId decryptionId name : String) : ListsDb :=
  match dget db.elections electionId with
  | none => db
  | some e => { db with
      elections := dset db.elections electionId { e with decryptions := e.decryptions ++ [⟨decryptionId, name⟩] } }

/-- What is asked of the GUI.  `build` is the computation of `create_election` from the ceremony (the numbers of guardians and the
quorum in the context, or an error), see `computeElection`. -/
inductive Call where
  | ceremony (name : String) (guardianCount quorum : Int)
  | election (keyCeremonyId name : String) (build : KCDoc → R (Int × Int))
  | decryption (electionId name : String)

/-- How far a call has come: the next request to the database, with what the call knows by then. -/
inductive Progress where
  | ceremonyCheck (name : String) (guardianCount quorum : Int)
  | ceremonyInsert (name : String) (guardianCount quorum : Int)
  | ceremonyNotify (id : String)
  | electionCheck (keyCeremonyId name : String) (build : KCDoc → R (Int × Int))
  | electionGet (keyCeremonyId name : String) (build : KCDoc → R (Int × Int))
  | electionInsert (keyCeremonyId name : String) (guardians quorum : Int)
  | decryptionGet (electionId name : String)
  | decryptionCheck (electionId name : String) (e : NamedElection)
  | decryptionInsert (electionId name : String) (e : NamedElection)
  | decryptionNotify (electionId name decryptionId : String)
  | decryptionPush (electionId name decryptionId : String)
  | done (a : Answer)

/-- The call up to its first request; create_key_ceremony_component.py:31-35 compares the numbers first. -/
def Call.start : Call → Progress
  | .ceremony name guardianCount quorum =>
    if guardianCount < quorum then .done .fail else .ceremonyCheck name guardianCount quorum
  | .election kc name build => .electionCheck kc name build
  | .decryption eid name => .decryptionGet eid name

/-- One request of a call; `newId` is the id that the database gives if the request inserts a document.
create_key_ceremony_component.py:28-56, create_election_component.py:66-134, create_decryption_component.py:40-63. -/
def Progress.step (newId : String) (db : ListsDb) : Progress → ListsDb × Progress
  | .ceremonyCheck name gc q =>
    if db.ceremonyExists name then (db, .done .fail) else (db, .ceremonyInsert name gc q)
  | .ceremonyInsert name gc q =>
    match dget db.ceremonies newId with
    | some _ => (db, .done .raised)
    | none => ({ db with ceremonies := dset db.ceremonies newId ⟨name, KCDoc.create gc q⟩ }, .ceremonyNotify newId)
  | .ceremonyNotify id => (db.notify "key_ceremonies" id, .done (.success id))
  | .electionCheck kc name build =>
    if db.electionExists name then (db, .done .fail) else (db, .electionGet kc name build)
  | .electionGet kc name build =>
    match dget db.ceremonies kc with
    | none => (db, .done .fail)
    | some c => match build c.doc with
      | .error _ => (db, .done .fail)
      | .ok (guardians, quorum) => (db, .electionInsert kc name guardians quorum)
  | .electionInsert kc name guardians quorum =>
    match dget db.elections newId with
    | some _ => (db, .done .fail)
    | none => ({ db with elections := dset db.elections newId ⟨name, kc, guardians, quorum, [], []⟩ }, .done (.success newId))
  | .decryptionGet eid name =>
    match dget db.elections eid with
    | none => (db, .done .fail)
    | some e => (db, .decryptionCheck eid name e)
  | .decryptionCheck eid name e =>
    if db.decryptionExists name then (db, .done .fail) else (db, .decryptionInsert eid name e)
  | .decryptionInsert eid name e =>
    match dget db.decryptions newId with
    | some _ => (db, .done .fail)
    | none => ({ db with decryptions := dset db.decryptions newId (.create eid e name) }, .decryptionNotify eid name newId)
  | .decryptionNotify eid name did => (db.notify "decryptions" did, .decryptionPush eid name did)
  | .decryptionPush eid name did => (db.appendDecryption eid did name, .done (.success did))
  | .done a => (db, .done a)

/-- So many requests of one call, one after the other. -/
def Progress.go (newId : String) : Nat → ListsDb → Progress → ListsDb × Progress
  | 0, db, p => (db, p)
  | n + 1, db, p => let r := p.step newId db
    go newId n r.1 r.2

/-- A call that no other call or work interrupts.  No call makes more than five requests, and at most one of them inserts. -/
def ListsDb.run (db : ListsDb) (newId : String) (c : Call) : ListsDb × Progress := c.start.go newId 5 db

/-- Other work: uploads to an election, the joining and completing of a decryption, the stages of a key ceremony.  The names, the
lists of decryptions and the election of a decryption are never touched by it. -/
inductive Work where
  | uploads (electionId : String) (f : List UploadEntry → List UploadEntry)
  | decryption (decryptionId : String) (f : GuiDecryption → GuiDecryption)
  | ceremony (id : String) (f : KCDoc → KCDoc)

/-- `update_one` of a part of one document. -/
def ListsDb.work (db : ListsDb) : Work → ListsDb
  | .uploads eid f => match dget db.elections eid with
    | none => db
    | some e => { db with elections := dset db.elections eid { e with uploads := f e.uploads } }
  | .decryption did f => match dget db.decryptions did with
    | none => db
    | some d => { db with
        decryptions := dset db.decryptions did { d with doc := { f d.doc with electionId := d.doc.electionId } } }
  | .ceremony id f => match dget db.ceremonies id with
    | none => db
    | some c => { db with ceremonies := dset db.ceremonies id { c with doc := f c.doc } }

/-- Several front ends use one database. -/
structure ListsState where
  db : ListsDb
  calls : List (Nat × Progress)

/-- What happens next: a front end makes a call (one at a time), the call of a front end goes on, or other work is done. -/
inductive ListsEvent where
  | call (client : Nat) (c : Call)
  | step (client : Nat) (newId : String)
  | work (w : Work)

/-- The call of a front end has ended (or there was none). -/
def ListsState.idle (s : ListsState) (client : Nat) : Bool :=
  match dget s.calls client with
  | none => true
  | some (.done _) => true
  | some _ => false

/-- One event. -/
def ListsState.step (s : ListsState) : ListsEvent → ListsState
  | .call client c => if s.idle client then { s with calls := dset s.calls client c.start } else s
  | .step client newId => match dget s.calls client with
    | none => s
    | some p => let r := p.step newId s.db
      ⟨r.1, dset s.calls client r.2⟩
  | .work w => { s with db := s.db.work w }

/-- All events. -/
def ListsState.steps (s : ListsState) (es : List ListsEvent) : ListsState := es.foldl ListsState.step s

end EG
