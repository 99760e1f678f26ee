import Verif.Model.GuiElection
import Verif.Model.Serialize

/-!
# electionguard_gui: the key ceremony with the documents and files as they are stored

`Model/GuiKeyCeremony` keeps keys, backups and verifications as values.  Here the database holds the dictionaries that the code writes
(db_serialization_service.py), every reader takes them apart again (key_ceremony_dto.py), and the private records of the guardians are texts.
Dictionaries of the database are JSON objects.
-/

namespace EG

/-! ### Dictionaries -/

/-- db_serialization_service.py:17-23: `str` of an element is its text, `str` of the usage is the name of the member of the enumeration
instead of its value. -/
def SchnorrProof.toDict (p : SchnorrProof) : Json :=
  .obj [("public_key", elemJson p.k), ("commitment", elemJson p.h), ("challenge", elemJson p.c), ("response", elemJson p.u),
    ("usage", .str "ProofUsage.SecretValue")]

/-- db_serialization_service.py:10-26 `public_key_to_dict`. -/
def ElectionPublicKey.toDict (k : ElectionPublicKey) : Json :=
  .obj [("owner_id", .str k.ownerId), ("sequence_order", .int k.sequenceOrder), ("key", elemJson k.key),
    ("coefficient_commitments", listJson elemJson k.commitments), ("coefficient_proofs", listJson SchnorrProof.toDict k.proofs)]

/-- db_serialization_service.py:29-40 `backup_to_dict`. -/
def Backup.toDict (b : Backup) : Json :=
  .obj [("owner_id", .str b.ownerId), ("designated_id", .str b.designatedId), ("designated_sequence_order", .int b.designatedOrder),
    ("encrypted_coordinate", .obj [("pad", elemJson b.encrypted.pad), ("data", .str (String.ofList b.encrypted.data)),
      ("mac", .str (String.ofList b.encrypted.mac))])]

/-- db_serialization_service.py:43-51 `verification_to_dict`. -/
def Verification.toDict (v : Verification) : Json :=
  .obj [("owner_id", .str v.ownerId), ("designated_id", .str v.designatedId), ("verifier_id", .str v.verifierId),
    ("verified", .bool v.verified)]

/-- db_serialization_service.py:54-60 `joint_key_to_dict`. -/
def ElectionJointKey.toDict (k : ElectionJointKey) : Json :=
  .obj [("joint_public_key", elemJson k.jointPublicKey), ("commitment_hash", elemJson k.commitmentHash)]

/-- A part of a proof that was read from a dictionary: the code keeps the text, here it is the number that the text stands for.  (No stage
writes a text that is not a number.) -/
def proofNumber (j : Json) : R Nat :=
  match bigOf j with
  | .ok n => .ok n.toNat
  | .error _ => .ok 0

/-- key_ceremony_dto.py:174-183: the parts of a proof are not made elements, and the usage is not checked. -/
def SchnorrProof.ofDict (j : Json) : R SchnorrProof := do
  let o ← asObj j
  let k ← need o "public_key" proofNumber
  let h ← need o "commitment" proofNumber
  let c ← need o "challenge" proofNumber
  let u ← need o "response" proofNumber
  let _ ← need o "usage" (fun _ => .ok ())
  return ⟨k, h, c, u⟩

/-- key_ceremony_dto.py:165-186 `_dict_to_election_public_key`. -/
def ElectionPublicKey.ofDict (P : Params) (j : Json) : R ElectionPublicKey := do
  let o ← asObj j
  let commitments ← need o "coefficient_commitments" (listOf (elemPOf P))
  let proofs ← need o "coefficient_proofs" (listOf SchnorrProof.ofDict)
  let ownerId ← need o "owner_id" strOf
  let sequenceOrder ← need o "sequence_order" intOf
  let key ← need o "key" (elemPOf P)
  return ⟨ownerId, sequenceOrder, key, commitments, proofs⟩

/-- key_ceremony_dto.py:152-162 `_dict_to_backup`. -/
def Backup.ofDict (P : Params) (j : Json) : R Backup := do
  let o ← asObj j
  let c ← need o "encrypted_coordinate" asObj
  let pad ← need c "pad" (elemPOf P)
  let data ← need c "data" charsOf
  let mac ← need c "mac" charsOf
  let ownerId ← need o "owner_id" strOf
  let designatedId ← need o "designated_id" strOf
  let designatedOrder ← need o "designated_sequence_order" intOf
  return ⟨ownerId, designatedId, designatedOrder, ⟨pad, data, mac⟩⟩

/-- key_ceremony_dto.py:143-149 `_dict_to_verification`. -/
def Verification.ofDict (j : Json) : R Verification := do
  let o ← asObj j
  let ownerId ← need o "owner_id" strOf
  let designatedId ← need o "designated_id" strOf
  let verifierId ← need o "verifier_id" strOf
  let verified ← need o "verified" boolOf
  return ⟨ownerId, designatedId, verifierId, verified⟩

/-- key_ceremony_dto.py:130-134 `get_joint_key`. -/
def ElectionJointKey.ofDict (P : Params) (j : Json) : R ElectionJointKey := do
  let o ← asObj j
  let k ← need o "joint_public_key" (elemPOf P)
  let h ← need o "commitment_hash" (elemQOf P)
  return ⟨k, h⟩

/-! ### Documents -/

/-- key_ceremony_service.py:42-63: a key ceremony as the database holds it. -/
structure KCTextDoc where
  guardianCount : Int
  quorum : Int
  joined : List String
  keys : List Json
  otherKeys : List Json
  backups : List Json
  sharedBackups : List Json
  verifications : List Json
  jointKey : Option Json
  completed : Bool

/-- key_ceremony_service.py:42-63 `create`. -/
def KCTextDoc.create (guardianCount quorum : Int) : KCTextDoc := ⟨guardianCount, quorum, [], [], [], [], [], [], none, false⟩

/-- key_ceremony_service.py:77-156: the updates. -/
inductive KCTextUpdate where
  | joined (id : String)
  | key (k : Json)
  | otherKeys (ks : List Json)
  | backups (bs : List Json)
  | sharedBackups (bs : List Json)
  | verifications (vs : List Json)
  | jointKey (k : Json)
  | complete

/-- See `KCDoc.apply`. -/
def KCTextDoc.apply (d : KCTextDoc) : KCTextUpdate → KCTextDoc
  | .joined id => { d with joined := d.joined ++ [id] }
  | .key k => { d with keys := d.keys ++ [k] }
  | .otherKeys ks => { d with otherKeys := d.otherKeys ++ ks }
  | .backups bs => { d with backups := d.backups ++ bs }
  | .sharedBackups bs => { d with sharedBackups := d.sharedBackups ++ bs }
  | .verifications vs => { d with verifications := d.verifications ++ vs }
  | .jointKey k => { d with jointKey := some k }
  | .complete => { d with completed := true }

/-- key_ceremony_dto.py:18-36 `KeyCeremonyDto`: the keys are taken apart when the document is read, the rest when it is used. -/
structure KCDto where
  text : KCTextDoc
  keys : List ElectionPublicKey

/-- key_ceremony_dto.py:21-36 `__init__`. -/
def KCTextDoc.dto (P : Params) (d : KCTextDoc) : R KCDto := do return ⟨d, ← d.keys.mapM (ElectionPublicKey.ofDict P)⟩

/-- The parts of a ceremony that the mediator of the GUI needs. -/
def KCDto.announced (d : KCDto) : KCDoc := ⟨d.text.guardianCount, d.text.quorum, d.text.joined, d.keys, [], [], [], [], none, false⟩

/-- key_ceremony_state_service.py:16-44 `get_key_ceremony_state`. -/
def KCTextDoc.state (d : KCTextDoc) : CeremonyState :=
  ceremonyState ⟨d.guardianCount, d.joined.length, d.otherKeys.length, d.backups.length, d.sharedBackups.length, d.verifications.length,
    d.jointKey.isSome⟩

/-- key_ceremony_dto.py:85-96: how many dictionaries have the user in the field. -/
def countFor (field : String) (l : List Json) (user : String) : R Nat := do
  let ids ← l.mapM (fun j => do need (← asObj j) field strOf)
  return (ids.filter (fun id => id == user)).length

/-- key_ceremony_dto.py:106-111, 118-124: the part of the first dictionary that has the user as its owner; `next` raises. -/
def wrappedFor (field user : String) : List Json → R (List Json)
  | [] => .error .value
  | j :: js => do
    let o ← asObj j
    let id ← need o "owner_id" strOf
    if id == user then need o field (listOf .ok) else wrappedFor field user js

/-- key_ceremony_details_component.py:103-106: the first stage that should run, with the `should_run` of the stages. -/
def KCTextDoc.stage (d : KCTextDoc) (user : String) (isAdmin : Bool) : R (Option KCStage) := do
  if isAdmin && decide (d.state = .pendingAdminAnnounce) then return some .announce
  let b ← countFor "owner_id" d.backups user
  if !isAdmin && decide (d.state = .pendingGuardianBackups) && !decide (0 < b) then return some .makeBackups
  if isAdmin && decide (d.state = .pendingAdminToShareBackups) then return some .shareBackups
  let v ← countFor "designated_id" d.verifications user
  if !isAdmin && decide (d.state = .pendingGuardiansVerifyBackups) && !decide (0 < v) then return some .verifyBackups
  if isAdmin && decide (d.state = .pendingAdminToPublishJointKey) then return some .publish
  return none

/-- guardian_service.py:31-46, 60-68 `load_guardian_from_key_ceremony`, with the text of the private file. -/
def KCDto.loadGuardian (P : Params) (d : KCDto) : Option (List Char) → R Guardian
  | none => .error .value
  | some raw => do
    let r ← fromRaw (PrivateGuardianRecord.ofJson P) raw
    return Guardian.fromPrivateRecord r d.text.guardianCount d.text.quorum

/-- guardian_service.py:70-77 `load_other_keys`. -/
def KCDto.loadOtherKeys (P : Params) (d : KCDto) (user : String) (g : Guardian) : R Guardian := do
  let ks ← (← wrappedFor "other_keys" user d.text.otherKeys).mapM (ElectionPublicKey.ofDict P)
  return ks.foldl Guardian.saveKey g

/-- key_ceremony_s3_make_backup_service.py:25-37 `run`, up to the update. -/
def KCDto.makeBackups (E : Env) (d : KCDto) (user : String) (file : Option (List Char)) (nonces : Nat → Nat) : R (List Backup) := do
  let g ← d.loadGuardian E.P file
  let g ← d.loadOtherKeys E.P user g
  let (r, g) := g.generateBackups E nonces
  let _ ← r
  return g.shareBackups

/-- key_ceremony_s4_share_backup_service.py:36-48 `share_backups`. -/
def KCDto.shareBackups (P : Params) (d : KCDto) : R (List (String × List Backup)) := do
  let m ← d.announced.announceGuardians
  let m := m.receiveBackups (← d.text.backups.mapM (Backup.ofDict P))
  d.text.joined.mapM (fun id => do
    match ← m.shareBackups (some id) with
    | none => .error .value
    | some bs => return (id, bs))

/-- key_ceremony_s5_verify_backup_service.py:29-50 `run`, up to the update. -/
def KCDto.verifyBackups (E : Env) (loads : Bytes → R (List Char)) (d : KCDto) (user : String) (file : Option (List Char)) :
    R (List Verification) := do
  let bs ← (← wrappedFor "backups" user d.text.sharedBackups).mapM (Backup.ofDict E.P)
  let g ← d.loadGuardian E.P file
  let g ← d.loadOtherKeys E.P user g
  checkSharedLoop E loads g bs

/-- key_ceremony_s6_publish_key_service.py:25-37 `run`, up to the updates. -/
def KCDto.publish (E : Env) (d : KCDto) : R ElectionJointKey := do
  let m ← d.announced.announceGuardians
  let m := m.receiveBackups (← d.text.backups.mapM (Backup.ofDict E.P))
  let m := m.receiveVerifications (← d.text.verifications.mapM Verification.ofDict)
  match m.publishJointKey E with
  | none => .error .value
  | some k => return k

/-- key_ceremony_s2_announce_service.py:45-51: the other keys of a guardian. -/
def otherKeysDict (e : String × List ElectionPublicKey) : Json :=
  .obj [("owner_id", .str e.1), ("other_keys", listJson ElectionPublicKey.toDict e.2)]

/-- key_ceremony_s4_share_backup_service.py:46-47: the backups for a guardian. -/
def sharedBackupsDict (e : String × List Backup) : Json := .obj [("owner_id", .str e.1), ("backups", listJson Backup.toDict e.2)]

/-- What a stage computes from the document as it was read: the updates that it makes afterwards. -/
def KCStage.computeText (E : Env) (loads : Bytes → R (List Char)) (d : KCDto) (user : String) (file : Option (List Char))
    (nonces : Nat → Nat) : KCStage → R (List KCTextUpdate)
  | .announce => do return [.otherKeys ((← d.announced.announce).map otherKeysDict)]
  | .makeBackups => do return [.backups ((← d.makeBackups E user file nonces).map Backup.toDict)]
  | .shareBackups => do return [.sharedBackups ((← d.shareBackups E.P).map sharedBackupsDict)]
  | .verifyBackups => do return [.verifications ((← d.verifyBackups E loads user file).map Verification.toDict)]
  | .publish => do return [.jointKey (← d.publish E).toDict, .complete]

/-! ### Interleavings -/

/-- A call that is under way; see `KCProc`. -/
inductive KCTextProc where
  | joining (user : String)
  | numbered (user : String) (number guardianCount quorum : Int)
  | saved (key : ElectionPublicKey)
  | running (user : String) (stage : KCStage) (doc : KCDto)
  | writing (updates : List KCTextUpdate)

/-- The document, the texts of the private files, and the calls that are under way. -/
structure KCTextSystem where
  doc : KCTextDoc
  files : List (String × List Char)
  procs : List KCTextProc

/-- The next step of a call; see `KCProc.advance`.  An exception ends the call. -/
def KCTextProc.advance (E : Env) (loads : Bytes → R (List Char)) (doc : KCTextDoc) (files : List (String × List Char))
    (rands : Nat → Nat × Nat) (nonces : Nat → Nat) :
    KCTextProc → KCTextDoc × List (String × List Char) × Option KCTextProc
  | .joining user =>
    match doc.dto E.P with
    | .error _ => (doc, files, none)
    | .ok d => match d.announced.guardianNumber user with
      | .error _ => (doc, files, none)
      | .ok number => (doc, files, some (.numbered user number doc.guardianCount doc.quorum))
  | .numbered user number n quorum =>
    match makeGuardian E user number n quorum rands with
    | .error _ => (doc, files, none)
    | .ok g => (doc, dset files g.id (toRaw PrivateGuardianRecord.toJson g.exportPrivate), some (.saved g.shareKey))
  | .saved key => (doc.apply (.key key.toDict), files, none)
  | .running user stage read =>
    match stage.computeText E loads read user (dget files user) nonces with
    | .error _ => (doc, files, none)
    | .ok us => (doc, files, some (.writing us))
  | .writing [] => (doc, files, none)
  | .writing (u :: us) => (doc.apply u, files, some (.writing us))

/-- One event; see `KCSystem.event`. -/
def KCTextSystem.event (E : Env) (loads : Bytes → R (List Char)) (s : KCTextSystem) : KCEvent → KCTextSystem
  | .join user => { s with doc := s.doc.apply (.joined user), procs := s.procs ++ [.joining user] }
  | .poll user isAdmin =>
    match s.doc.dto E.P with
    | .error _ => s
    | .ok d => match s.doc.stage user isAdmin with
      | .error _ => s
      | .ok none => s
      | .ok (some st) => { s with procs := s.procs ++ [.running user st d] }
  | .step i rands nonces =>
    match s.procs[i]? with
    | none => s
    | some p =>
      let (doc, files, p') := p.advance E loads s.doc s.files rands nonces
      ⟨doc, files, s.procs.eraseIdx i ++ p'.toList⟩

/-- The system before anything happened. -/
def KCTextSystem.init (guardianCount quorum : Int) : KCTextSystem := ⟨KCTextDoc.create guardianCount quorum, [], []⟩

/-- The system after a sequence of events. -/
def KCTextSystem.run (E : Env) (loads : Bytes → R (List Char)) (s : KCTextSystem) (evs : List KCEvent) : KCTextSystem :=
  evs.foldl (KCTextSystem.event E loads) s

/-! ### Elections -/

/-- create_election_component.py:70-124: the part of `create_election` that computes the election from the key ceremony as it was read. -/
def computeElectionText (E : Env) (parseManifest : List Char → Option Manifest) (kcId : String) (doc : KCTextDoc) (name : String)
    (manifestRaw : List Char) (url : Option String) : R (GuiElection × EncryptionPackage) := do
  let d ← doc.dto E.P
  let guardians := d.keys.map (Guardian.fromPublicKey doc.guardianCount doc.quorum)
  let m ← getManifestRaw parseManifest manifestRaw
  let jk ← match doc.jointKey with
    | none => .error .type
    | some j => ElectionJointKey.ofDict E.P j
  let (_, ctx, ext) ← buildElection E doc.guardianCount doc.quorum m jk.jointPublicKey jk.commitmentHash url
  let records := guardians.map Guardian.publish
  return (⟨name, kcId, ctx.numberOfGuardians, ctx.quorum, url, m, ctx, ext, records, kcId⟩, outputSetupFiles ctx ext m records)

end EG
