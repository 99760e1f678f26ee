import Verif.Model.GuiKeyCeremony
import Verif.Model.GuiDecryption
import Verif.Model.ElectionBuilder
import Verif.Model.Names

/-!
# electionguard_gui: creating an election from a completed key ceremony

The databases and the directory of the encryption packages are values.  The id of a new election is the one that the database
gives.  The parser of the manifest is a parameter (`none` if it raises); the stored manifest, context and guardian records are read
back as they were written.  Left out: the file of the constants, the numbers about the manifest that the front end shows, dates,
and failures of the disk.
-/

namespace EG

/-- output_setup_files_step.py:20-66: the files of an encryption package, with the guardian records by the guardian id that is in the
name of their file. -/
structure EncryptionPackage where
  context : Context
  extendedData : Option (List (String × String))
  manifest : Manifest
  guardians : List (String × GuardianRecord)
  deriving DecidableEq, Repr

/-- election_service.py:28-72: what `create_election` stores; `packageFile` is the path of the package. -/
structure GuiElection where
  name : String
  keyCeremonyId : String
  guardians : Int
  quorum : Int
  url : Option String
  manifest : Manifest
  context : Context
  extendedData : Option (List (String × String))
  guardianRecords : List GuardianRecord
  packageFile : String
  deriving DecidableEq, Repr

/-- election_dto.py:33-49, 96-104, 117-120: the election as the uploads and the decryption read it, before the first upload. -/
def GuiElection.doc (e : GuiElection) : ElectionDoc :=
  ⟨e.manifest, e.context, e.guardianRecords.map (fun r => (r.guardianId, r.sequenceOrder)), []⟩

/-- The collections `key_ceremonies` and `elections`, and the encryption packages by their path. -/
structure SetupWorld where
  ceremonies : List (String × KCDoc)
  elections : List (String × GuiElection)
  packages : List (String × EncryptionPackage)

/-- key_ceremony_dto.py:130-134 `get_joint_key`: subscripting `None` raises `TypeError`. -/
def KCDoc.getJointKey (d : KCDoc) : R ElectionJointKey :=
  match d.jointKey with
  | none => .error .type
  | some k => .ok k

/-- create_election_component.py:58-64 `get_keys`, key_ceremony_service.py:160-162: the ids of the key ceremonies on offer. -/
def SetupWorld.getKeys (w : SetupWorld) : List String := (w.ceremonies.filter (fun c => c.2.completed)).map (·.1)

/-- input_retrieval_step_base.py:29-34 `_get_manifest_raw`; `__print_manifest` asks for the name (36-37). -/
def getManifestRaw (parseManifest : List Char → Option Manifest) (raw : List Char) : R Manifest :=
  match parseManifest raw with
  | none => .error .value
  | some m => if m.isValid then do
      let _ ← m.getName
      return m
    else .error .value

/-- election_builder_step.py:14-39 `_build_election`. -/
def buildElection (E : Env) (guardianCount quorum : Int) (m : Manifest) (key commitmentHash : Nat) (url : Option String) :
    R (InternalManifest × Context × Option (List (String × String))) := do
  let b ← ElectionBuilder.new E guardianCount quorum m
  let b := b.setPublicKey key
  let b := b.setCommitmentHash commitmentHash
  let b := match url with
    | none => b
    | some u => b.addExtendedDataField "verification_url" u
  getOptional (← b.build E)

/-- output_setup_files_step.py:23-66 `output` without the private keys; a record with the same id overwrites a file. -/
def outputSetupFiles (ctx : Context) (ext : Option (List (String × String))) (m : Manifest) (records : List GuardianRecord) :
    EncryptionPackage :=
  ⟨ctx, ext, m, records.foldl (fun d r => dset d r.guardianId r) []⟩

/-- create_election_component.py:70-124: the part of `create_election` that computes the election from the key ceremony as it was
read. -/
def computeElection (E : Env) (parseManifest : List Char → Option Manifest) (kcId : String) (kc : KCDoc) (name : String)
    (manifestRaw : List Char) (url : Option String) : R (GuiElection × EncryptionPackage) := do
  let guardians := kc.keys.map (Guardian.fromPublicKey kc.guardianCount kc.quorum)
  let m ← getManifestRaw parseManifest manifestRaw
  let jk ← kc.getJointKey
  let (_, ctx, ext) ← buildElection E kc.guardianCount kc.quorum m jk.jointPublicKey jk.commitmentHash url
  let records := guardians.map Guardian.publish
  return (⟨name, kcId, ctx.numberOfGuardians, ctx.quorum, url, m, ctx, ext, records, kcId⟩, outputSetupFiles ctx ext m records)

/-- create_election_component.py:66-127 `create_election`: the id of the election, or an error for a failure.  The package is at a
path that depends on the key ceremony only (create_election_component.py:101-106), so it overwrites an older one. -/
def SetupWorld.createElection (E : Env) (parseManifest : List Char → Option Manifest) (w : SetupWorld) (newId kcId name : String)
    (manifestRaw : List Char) (url : Option String) : R String × SetupWorld :=
  if w.elections.any (fun e => e.2.name == name) then (.error .value, w)
  else match dget w.ceremonies kcId with
    | none => (.error .value, w)
    | some kc =>
      match computeElection E parseManifest kcId kc name manifestRaw url with
      | .error e => (.error e, w)
      | .ok (e, pkg) =>
        (.ok newId, { w with elections := w.elections ++ [(newId, e)], packages := dset w.packages e.packageFile pkg })

/-- export_encryption_package_component.py:31-40 `export_encryption_package`. -/
def SetupWorld.exportPackage (w : SetupWorld) (electionId : String) : R EncryptionPackage :=
  match dget w.elections electionId with
  | none => .error .value
  | some e => match dget w.packages e.packageFile with
    | none => .error .value
    | some p => .ok p

/-- guardian_service.py:31-58 `load_guardian_from_decryption`: the guardian of a user, from the private files of the key ceremony. -/
def loadFromDecryption (files : List (String × PrivateGuardianRecord)) (guardians quorum : Int) (user : String) : Option Guardian :=
  (dget files user).map (fun r => Guardian.fromPrivateRecord r guardians quorum)

end EG
