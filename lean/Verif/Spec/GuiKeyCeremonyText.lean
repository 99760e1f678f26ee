import Verif.Model.GuiKeyCeremonyText
import Verif.Spec.Serialize

/-!
# The key ceremony with its documents and files: what they stand for
-/

namespace EG

/-- The dictionaries of a key ceremony. -/
def KCDoc.toText (d : KCDoc) : KCTextDoc :=
  ⟨d.guardianCount, d.quorum, d.joined, d.keys.map ElectionPublicKey.toDict, d.otherKeys.map otherKeysDict, d.backups.map Backup.toDict,
    d.sharedBackups.map sharedBackupsDict, d.verifications.map Verification.toDict, d.jointKey.map ElectionJointKey.toDict, d.completed⟩

/-- The dictionaries of an update. -/
def KCUpdate.toText : KCUpdate → KCTextUpdate
  | .joined id => .joined id
  | .key k => .key k.toDict
  | .otherKeys ks => .otherKeys (ks.map otherKeysDict)
  | .backups bs => .backups (bs.map Backup.toDict)
  | .sharedBackups bs => .sharedBackups (bs.map sharedBackupsDict)
  | .verifications vs => .verifications (vs.map Verification.toDict)
  | .jointKey k => .jointKey k.toDict
  | .complete => .complete

/-- A call that is under way, with what it has read and has to write as dictionaries. -/
def KCProc.toText : KCProc → KCTextProc
  | .joining user => .joining user
  | .numbered user number n quorum => .numbered user number n quorum
  | .saved key => .saved key
  | .running user stage doc => .running user stage ⟨doc.toText, doc.keys⟩
  | .writing us => .writing (us.map KCUpdate.toText)

/-- The texts of the private files. -/
def filesText (files : List (String × PrivateGuardianRecord)) : List (String × List Char) :=
  files.map (fun e => (e.1, toRaw PrivateGuardianRecord.toJson e.2))

/-- The dictionaries and texts of a key ceremony with its files and calls. -/
def KCSystem.toText (s : KCSystem) : KCTextSystem := ⟨s.doc.toText, filesText s.files, s.procs.map KCProc.toText⟩

/-- The random numbers that are drawn for coefficients are elements. -/
def KCEvent.InRange (P : Params) : KCEvent → Prop
  | .step _ rands _ => ∀ i, (rands i).1 < P.q ∧ (rands i).2 < P.q
  | _ => True

end EG
