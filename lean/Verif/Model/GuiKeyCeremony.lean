import Verif.Model.Guardian
import Verif.Model.KeyCeremonyMediator
import Verif.Model.KeyCeremonyState

/-!
# electionguard_gui: the key ceremony

A key ceremony is a document of the database.  Guardians join it (stage 1); afterwards every change of the document makes the
browsers of the administrator and the guardians look for a stage to run (stages 2 to 6).  Keys, backups and verifications are
stored as dictionaries; reading gives back what was written (the Schnorr proofs of a key come back as texts, but no stage reads
them).  The private record of a guardian is a file named after the id of the guardian.  An `Exception` and a `StopIteration` of
the GUI are `Err.value` here.  Log messages and notifications are left out.
-/

namespace EG

/-- key_ceremony_service.py:42-63, key_ceremony_dto.py:18-36: a key ceremony. -/
structure KCDoc where
  guardianCount : Int
  quorum : Int
  joined : List String
  keys : List ElectionPublicKey
  otherKeys : List (String × List ElectionPublicKey)
  backups : List Backup
  sharedBackups : List (String × List Backup)
  verifications : List Verification
  jointKey : Option ElectionJointKey
  completed : Bool
  deriving DecidableEq, Repr

/-- key_ceremony_service.py:42-63 `create`. -/
def KCDoc.create (guardianCount quorum : Int) : KCDoc := ⟨guardianCount, quorum, [], [], [], [], [], [], none, false⟩

/-- create_key_ceremony_component.py:28-56 `create_key_ceremony`; `exists` says whether the name is taken. -/
def createKeyCeremony (guardianCount quorum : Int) (nameExists : Bool) : Option KCDoc :=
  if guardianCount < quorum then none
  else if nameExists then none
  else some (KCDoc.create guardianCount quorum)

/-- The updates of the document. -/
inductive KCUpdate where
  | joined (id : String)
  | key (k : ElectionPublicKey)
  | otherKeys (ks : List (String × List ElectionPublicKey))
  | backups (bs : List Backup)
  | sharedBackups (bs : List (String × List Backup))
  | verifications (vs : List Verification)
  | jointKey (k : ElectionJointKey)
  | complete

/-- key_ceremony_service.py:77-156: the updates; `$push` appends, `$set` replaces. -/
def KCDoc.apply (d : KCDoc) : KCUpdate → KCDoc
  | .joined id => { d with joined := d.joined ++ [id] }
  | .key k => { d with keys := d.keys ++ [k] }
  | .otherKeys ks => { d with otherKeys := d.otherKeys ++ ks }
  | .backups bs => { d with backups := d.backups ++ bs }
  | .sharedBackups bs => { d with sharedBackups := d.sharedBackups ++ bs }
  | .verifications vs => { d with verifications := d.verifications ++ vs }
  | .jointKey k => { d with jointKey := some k }
  | .complete => { d with completed := true }

/-- key_ceremony_service.py:173-182 `get_guardian_number`. -/
def KCDoc.guardianNumber (d : KCDoc) (id : String) : R Int :=
  if id ∈ d.joined then .ok ((d.joined.idxOf id : Int) + 1) else .error .value

/-- key_ceremony_dto.py:78-83 `find_key`. -/
def KCDoc.findKey (d : KCDoc) (id : String) : R ElectionPublicKey :=
  match d.keys.find? (fun k => k.ownerId == id) with
  | none => .error .value
  | some k => .ok k

/-- key_ceremony_dto.py:85-87 `get_backup_count_for_user`. -/
def KCDoc.backupCount (d : KCDoc) (user : String) : Nat := (d.backups.filter (fun b => b.ownerId == user)).length

/-- key_ceremony_dto.py:89-96 `get_verification_count_for_user`. -/
def KCDoc.verificationCount (d : KCDoc) (user : String) : Nat :=
  (d.verifications.filter (fun v => v.designatedId == user)).length

/-- key_ceremony_dto.py:103-112 `get_shared_backups_for_guardian`. -/
def KCDoc.sharedBackupsFor (d : KCDoc) (user : String) : R (List Backup) :=
  match d.sharedBackups.find? (fun e => e.1 == user) with
  | none => .error .value
  | some e => .ok e.2

/-- key_ceremony_dto.py:117-125 `find_other_keys_for_user`. -/
def KCDoc.otherKeysFor (d : KCDoc) (user : String) : R (List ElectionPublicKey) :=
  match d.otherKeys.find? (fun e => e.1 == user) with
  | none => .error .value
  | some e => .ok e.2

/-- key_ceremony_dto.py:136-140 `set_can_join`. -/
def KCDoc.canJoin (d : KCDoc) (user : String) (isAdmin : Bool) : Bool := !decide (user ∈ d.joined) && !isAdmin

/-- What decides the state of a key ceremony. -/
def KCDoc.counts (d : KCDoc) : CeremonyCounts :=
  ⟨d.guardianCount, d.joined.length, d.otherKeys.length, d.backups.length, d.sharedBackups.length, d.verifications.length,
    d.jointKey.isSome⟩

/-- key_ceremony_state_service.py:16-44 `get_key_ceremony_state`. -/
def KCDoc.state (d : KCDoc) : CeremonyState := ceremonyState d.counts

/-- guardian_service.py:91-96 `make_mediator`. -/
def KCDoc.mediator (d : KCDoc) : KCM := KCM.init "mediator_1" ⟨d.guardianCount, d.quorum⟩

/-- guardian_service.py:99-104 `announce_guardians`. -/
def KCDoc.announceGuardians (d : KCDoc) : R KCM :=
  d.joined.foldlM (fun m id => do return m.announce (← d.findKey id)) d.mediator

/-- guardian_service.py:80-88 `make_guardian`: `from_nonce` draws one pair of random numbers per coefficient
(election_polynomial.py:63-85). -/
def makeGuardian (E : Env) (user : String) (number guardianCount quorum : Int) (rands : Nat → Nat × Nat) : R Guardian :=
  Guardian.fromRandom E user number guardianCount quorum ((List.range quorum.toNat).map rands)

/-- guardian_service.py:31-46, 60-68 `load_guardian_from_key_ceremony`. -/
def KCDoc.loadGuardian (d : KCDoc) (file : Option PrivateGuardianRecord) : R Guardian :=
  match file with
  | none => .error .value
  | some r => .ok (Guardian.fromPrivateRecord r d.guardianCount d.quorum)

/-- guardian_service.py:70-77 `load_other_keys`. -/
def KCDoc.loadOtherKeys (d : KCDoc) (user : String) (g : Guardian) : R Guardian := do
  let ks ← d.otherKeysFor user
  return ks.foldl Guardian.saveKey g

/-- key_ceremony_s2_announce_service.py:35-52 `announce`. -/
def KCDoc.announce (d : KCDoc) : R (List (String × List ElectionPublicKey)) := do
  let m ← d.announceGuardians
  d.joined.mapM (fun id => do
    let ks ← getOptional (← m.shareAnnounced (some id))
    return (id, ks))

/-- key_ceremony_s3_make_backup_service.py:25-37 `run`, up to the update. -/
def KCDoc.makeBackups (E : Env) (d : KCDoc) (user : String) (file : Option PrivateGuardianRecord) (nonces : Nat → Nat) :
    R (List Backup) := do
  let g ← d.loadGuardian file
  let g ← d.loadOtherKeys user g
  let (r, g) := g.generateBackups E nonces
  let _ ← r
  return g.shareBackups

/-- key_ceremony_s4_share_backup_service.py:36-48 `share_backups`. -/
def KCDoc.shareBackups (d : KCDoc) : R (List (String × List Backup)) := do
  let m ← d.announceGuardians
  let m := m.receiveBackups d.backups
  d.joined.mapM (fun id => do
    match ← m.shareBackups (some id) with
    | none => .error .value
    | some bs => return (id, bs))

/-- key_ceremony_s5_verify_backup_service.py:37-46: the loop over the shared backups. -/
def checkSharedLoop (E : Env) (loads : Bytes → R (List Char)) : Guardian → List Backup → R (List Verification)
  | _, [] => .ok []
  | g, b :: bs => do
    let g := g.saveBackup b
    let v ← g.verifyBackup E loads b.ownerId
    return v :: (← checkSharedLoop E loads g bs)

/-- key_ceremony_s5_verify_backup_service.py:29-50 `run`, up to the update. -/
def KCDoc.verifyBackups (E : Env) (loads : Bytes → R (List Char)) (d : KCDoc) (user : String)
    (file : Option PrivateGuardianRecord) : R (List Verification) := do
  let bs ← d.sharedBackupsFor user
  let g ← d.loadGuardian file
  let g ← d.loadOtherKeys user g
  checkSharedLoop E loads g bs

/-- key_ceremony_s6_publish_key_service.py:25-37 `run`, up to the updates. -/
def KCDoc.publish (E : Env) (d : KCDoc) : R ElectionJointKey := do
  let m ← d.announceGuardians
  let m := m.receiveBackups d.backups
  let m := m.receiveVerifications d.verifications
  match m.publishJointKey E with
  | none => .error .value
  | some k => return k

/-- The stages that run when the document changes. -/
inductive KCStage | announce | makeBackups | shareBackups | verifyBackups | publish
  deriving DecidableEq, Repr

/-- The `should_run` of the stages (key_ceremony_s2_announce_service.py:20-25, s3:12-23, s4:21-25, s5:14-27, s6:19-23). -/
def KCStage.shouldRun (d : KCDoc) (user : String) (isAdmin : Bool) : KCStage → Bool
  | .announce => isAdmin && decide (d.state = .pendingAdminAnnounce)
  | .makeBackups => !isAdmin && decide (d.state = .pendingGuardianBackups) && !decide (0 < d.backupCount user)
  | .shareBackups => isAdmin && decide (d.state = .pendingAdminToShareBackups)
  | .verifyBackups =>
    !isAdmin && decide (d.state = .pendingGuardiansVerifyBackups) && !decide (0 < d.verificationCount user)
  | .publish => isAdmin && decide (d.state = .pendingAdminToPublishJointKey)

/-- key_ceremony_details_component.py:58-64, 103-106: the first stage that should run. -/
def KCDoc.stage (d : KCDoc) (user : String) (isAdmin : Bool) : Option KCStage :=
  [.announce, .makeBackups, .shareBackups, .verifyBackups, .publish].find? (KCStage.shouldRun d user isAdmin)

/-- What a stage computes from the document as it was read: the updates that it makes afterwards. -/
def KCStage.compute (E : Env) (loads : Bytes → R (List Char)) (d : KCDoc) (user : String)
    (file : Option PrivateGuardianRecord) (nonces : Nat → Nat) : KCStage → R (List KCUpdate)
  | .announce => do return [.otherKeys (← d.announce)]
  | .makeBackups => do return [.backups (← d.makeBackups E user file nonces)]
  | .shareBackups => do return [.sharedBackups (← d.shareBackups)]
  | .verifyBackups => do return [.verifications (← d.verifyBackups E loads user file)]
  | .publish => do return [.jointKey (← d.publish E), .complete]

/-- The database document and the private files of the guardians, by the id of the guardian. -/
structure KCWorld where
  doc : KCDoc
  files : List (String × PrivateGuardianRecord)
  deriving DecidableEq, Repr

/-- key_ceremony_s1_join_service.py:14-31 `run`, with nothing in between.  An exception leaves what was done before it. -/
def KCWorld.join (E : Env) (w : KCWorld) (user : String) (rands : Nat → Nat × Nat) : R Unit × KCWorld :=
  let doc := w.doc.apply (.joined user)
  match doc.guardianNumber user with
  | .error e => (.error e, { w with doc := doc })
  | .ok number =>
    match makeGuardian E user number doc.guardianCount doc.quorum rands with
    | .error e => (.error e, { w with doc := doc })
    | .ok g => (.ok (), ⟨doc.apply (.key g.shareKey), dset w.files g.id g.exportPrivate⟩)

/-- key_ceremony_details_component.py:93-123 `on_key_ceremony_changed`, with nothing in between.  The result is what the `try`
block raises. -/
def KCWorld.onChanged (E : Env) (loads : Bytes → R (List Char)) (w : KCWorld) (user : String) (isAdmin : Bool)
    (nonces : Nat → Nat) : R Unit × KCWorld :=
  match w.doc.stage user isAdmin with
  | none => (.ok (), w)
  | some st =>
    match st.compute E loads w.doc user (dget w.files user) nonces with
    | .error e => (.error e, w)
    | .ok us => (.ok (), { w with doc := us.foldl KCDoc.apply w.doc })

/-! ### Interleavings

The same calls, cut at every access to the database or to a private file.  -/

/-- A call that is under way. -/
inductive KCProc where
  /-- s1:18 has appended the user; next the document is read again (s1:20). -/
  | joining (user : String)
  /-- s1:20-21 has read the number; next the guardian is made and saved (s1:25-26). -/
  | numbered (user : String) (number guardianCount quorum : Int)
  /-- s1:26 has saved the private record; next the key is appended (s1:28). -/
  | saved (key : ElectionPublicKey)
  /-- The document was read and the stage chosen; next the stage computes its updates, with the private file as it is then. -/
  | running (user : String) (stage : KCStage) (doc : KCDoc)
  /-- Updates to be made, one at a time. -/
  | writing (updates : List KCUpdate)

/-- The world with the calls that are under way. -/
structure KCSystem where
  doc : KCDoc
  files : List (String × PrivateGuardianRecord)
  procs : List KCProc

/-- What happens: a user starts to join, a browser reads the document, or the `i`-th call under way takes its next step. -/
inductive KCEvent where
  | join (user : String)
  | poll (user : String) (isAdmin : Bool)
  | step (i : Nat) (rands : Nat → Nat × Nat) (nonces : Nat → Nat)

/-- The next step of a call: the document, the files and what is left of the call; an exception ends the call. -/
def KCProc.advance (E : Env) (loads : Bytes → R (List Char)) (doc : KCDoc) (files : List (String × PrivateGuardianRecord))
    (rands : Nat → Nat × Nat) (nonces : Nat → Nat) :
    KCProc → KCDoc × List (String × PrivateGuardianRecord) × Option KCProc
  | .joining user =>
    match doc.guardianNumber user with
    | .error _ => (doc, files, none)
    | .ok number => (doc, files, some (.numbered user number doc.guardianCount doc.quorum))
  | .numbered user number n quorum =>
    match makeGuardian E user number n quorum rands with
    | .error _ => (doc, files, none)
    | .ok g => (doc, dset files g.id g.exportPrivate, some (.saved g.shareKey))
  | .saved key => (doc.apply (.key key), files, none)
  | .running user stage read =>
    match stage.compute E loads read user (dget files user) nonces with
    | .error _ => (doc, files, none)
    | .ok us => (doc, files, some (.writing us))
  | .writing [] => (doc, files, none)
  | .writing (u :: us) => (doc.apply u, files, some (.writing us))

/-- One event. -/
def KCSystem.event (E : Env) (loads : Bytes → R (List Char)) (s : KCSystem) : KCEvent → KCSystem
  | .join user => { s with doc := s.doc.apply (.joined user), procs := s.procs ++ [.joining user] }
  | .poll user isAdmin =>
    match s.doc.stage user isAdmin with
    | none => s
    | some st => { s with procs := s.procs ++ [.running user st s.doc] }
  | .step i rands nonces =>
    match s.procs[i]? with
    | none => s
    | some p =>
      let (doc, files, p') := p.advance E loads s.doc s.files rands nonces
      ⟨doc, files, s.procs.eraseIdx i ++ p'.toList⟩

/-- The system before anything happened. -/
def KCSystem.init (guardianCount quorum : Int) : KCSystem := ⟨KCDoc.create guardianCount quorum, [], []⟩

/-- The system after a sequence of events. -/
def KCSystem.run (E : Env) (loads : Bytes → R (List Char)) (s : KCSystem) (evs : List KCEvent) : KCSystem :=
  evs.foldl (KCSystem.event E loads) s

end EG
