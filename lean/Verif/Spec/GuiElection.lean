import Verif.Model.GuiElection
import Verif.Spec.GuiDecryption
import Verif.Spec.GuiKeyCeremony

/-!
# Vocabulary for the elections that the GUI creates
-/

namespace EG

/-- A call of `create_election`: the id that the database gives, the key ceremony, the name, the manifest file and the URL. -/
structure CreateCall where
  newId : String
  kcId : String
  name : String
  manifest : List Char
  url : Option String

/-- The world after a call. -/
def SetupWorld.step (E : Env) (parseManifest : List Char → Option Manifest) (w : SetupWorld) (c : CreateCall) : SetupWorld :=
  (w.createElection E parseManifest c.newId c.kcId c.name c.manifest c.url).2

/-- The world after some calls. -/
def SetupWorld.run (E : Env) (parseManifest : List Char → Option Manifest) (w : SetupWorld) (cs : List CreateCall) : SetupWorld :=
  cs.foldl (SetupWorld.step E parseManifest) w

/-- What an election has to do with the key ceremony, the joint key and the manifest it was made from. -/
structure MadeFrom (E : Env) (kc : KCDoc) (jk : ElectionJointKey) (m : Manifest) (url : Option String) (e : GuiElection) : Prop where
  guardians : e.guardians = kc.guardianCount
  quorum : e.quorum = kc.quorum
  contextGuardians : e.context.numberOfGuardians = kc.guardianCount
  contextQuorum : e.context.quorum = kc.quorum
  key : e.context.elgamalPublicKey = jk.jointPublicKey
  commitmentHash : e.context.commitmentHash = jk.commitmentHash
  manifest : e.manifest = m
  manifestHash : e.context.manifestHash = m.cryptoHash E
  baseHash : e.context.cryptoBaseHash = hashElems E [.elem E.P.p, .elem E.P.q, .elem E.P.g, .int kc.guardianCount, .int kc.quorum,
    .elem (m.cryptoHash E)]
  extendedBaseHash : e.context.cryptoExtendedBaseHash = hashElems E [.elem e.context.cryptoBaseHash, .elem jk.commitmentHash]
  url : e.url = url ∧ dget (e.extendedData.getD []) "verification_url" = url
  records : e.guardianRecords.map (fun r => (r.guardianId, r.sequenceOrder, r.publicKey))
    = kc.keys.map (fun k => (k.ownerId, k.sequenceOrder, k.key))

/-- The package of an election holds its context, its manifest and its guardian records. -/
structure PackageOf (e : GuiElection) (p : EncryptionPackage) : Prop where
  context : p.context = e.context
  extendedData : p.extendedData = e.extendedData
  manifest : p.manifest = e.manifest
  guardians : ∀ id r, dget p.guardians id = some r → r ∈ e.guardianRecords ∧ r.guardianId = id
  all : ∀ r ∈ e.guardianRecords, r.guardianId ∈ dkeys p.guardians

end EG
