import Verif.Model.KeyCeremony
import Verif.Model.ObjectBase

/-!
# key_ceremony_mediator.py

`GuardianPair` (lines 16-21) is a pair of ids (owner, designated).  `_election_partial_key_challenges` is never
written and left out.
-/

namespace EG

/-- key_ceremony_mediator.py:33-64 `KeyCeremonyMediator`. -/
structure KCM where
  id : String
  details : CeremonyDetails
  keys : List (String × ElectionPublicKey)
  backups : List ((String × String) × Backup)
  verifications : List ((String × String) × Verification)
  deriving DecidableEq, Repr

/-- key_ceremony_mediator.py:24-30 `BackupVerificationState`. -/
structure VerificationState where
  allSent : Bool
  allVerified : Bool
  failed : List (String × String)
  deriving DecidableEq, Repr

/-- key_ceremony_mediator.py:53-64 `__init__`. -/
def KCM.init (id : String) (details : CeremonyDetails) : KCM := ⟨id, details, [], [], []⟩

/-- key_ceremony_mediator.py:68-73 `announce` and 191-196 `_receive_election_public_key`. -/
def KCM.announce (s : KCM) (key : ElectionPublicKey) : KCM := { s with keys := dset s.keys key.ownerId key }

/-- key_ceremony_mediator.py:75-82 `all_guardians_announced`. -/
def KCM.allAnnounced (s : KCM) : Bool := (s.keys.length : Int) == s.details.numberOfGuardians

/-- key_ceremony_mediator.py:84-97 `share_announced`. -/
def KCM.shareAnnounced (s : KCM) (requesting : Option String) : R (Option (List ElectionPublicKey)) :=
  if !s.allAnnounced then .ok none
  else do
    let wanted := (dkeys s.keys).filter (fun id => decide (some id ≠ requesting))
    return some (← wanted.mapM (fun id => dgetR s.keys id))

/-- key_ceremony_mediator.py:202-214 `_receive_election_partial_key_backup`. -/
def KCM.receiveBackup (s : KCM) (b : Backup) : KCM :=
  if b.ownerId = b.designatedId then s
  else { s with backups := dset s.backups (b.ownerId, b.designatedId) b }

/-- key_ceremony_mediator.py:100-107 `receive_backups`. -/
def KCM.receiveBackups (s : KCM) (bs : List Backup) : KCM :=
  if !s.allAnnounced then s else bs.foldl KCM.receiveBackup s

/-- key_ceremony_mediator.py:216-225 `_all_election_partial_key_backups_available`. -/
def KCM.enoughBackups (s : KCM) : Bool :=
  (s.backups.length : Int) == (s.details.numberOfGuardians - 1) * s.details.numberOfGuardians

/-- key_ceremony_mediator.py:109-117 `all_backups_available`. -/
def KCM.allBackupsAvailable (s : KCM) : Bool := s.allAnnounced && s.enoughBackups

/-- key_ceremony_mediator.py:227-243 `_share_election_partial_key_backups_to_guardian`: a missing backup is a
`KeyError`. -/
def KCM.shareBackupsTo (s : KCM) (id : String) : R (List Backup) :=
  ((dkeys s.keys).filter (fun other => decide (id ≠ other))).mapM (fun other => dgetR s.backups (other, id))

/-- key_ceremony_mediator.py:119-131 `share_backups`.  The condition names the bound method
`self.all_backups_available` without calling it, so `not self.all_backups_available` is always false. -/
def KCM.shareBackups (s : KCM) (requesting : Option String) : R (Option (List Backup)) :=
  if !s.allAnnounced then .ok none
  else match requesting with
    | none => .ok (some (s.backups.map (·.2)))
    | some id =>
      if id = "" then .ok (some (s.backups.map (·.2)))
      else (s.shareBackupsTo id).map some

/-- key_ceremony_mediator.py:246-257 `_receive_election_partial_key_verification`. -/
def KCM.receiveVerification (s : KCM) (v : Verification) : KCM :=
  if v.ownerId = v.designatedId then s
  else { s with verifications := dset s.verifications (v.ownerId, v.designatedId) v }

/-- key_ceremony_mediator.py:134-143 `receive_backup_verifications`. -/
def KCM.receiveVerifications (s : KCM) (vs : List Verification) : KCM :=
  if !s.allBackupsAvailable then s else vs.foldl KCM.receiveVerification s

/-- key_ceremony_mediator.py:259-271 `_all_election_partial_key_verifications_received`. -/
def KCM.enoughVerifications (s : KCM) : Bool :=
  (s.verifications.length : Int) == (s.details.numberOfGuardians - 1) * s.details.numberOfGuardians

/-- key_ceremony_mediator.py:273-291 `_check_verification_of_election_partial_key_backups`. -/
def KCM.checkVerification (s : KCM) : VerificationState :=
  if !s.enoughVerifications then ⟨false, false, []⟩
  else
    let failed := (s.verifications.filter (fun e => !e.2.verified)).map
      (fun e => (e.2.ownerId, e.2.designatedId))
    ⟨true, failed.length == 0, failed⟩

/-- key_ceremony_mediator.py:145-151 `get_verification_state`. -/
def KCM.verificationState (s : KCM) : VerificationState :=
  if !s.allBackupsAvailable || !s.enoughVerifications then ⟨false, false, []⟩ else s.checkVerification

/-- key_ceremony_mediator.py:153-154 `all_backups_verified`. -/
def KCM.allBackupsVerified (s : KCM) : Bool := s.verificationState.allVerified

/-- key_ceremony_mediator.py:157-166 `verify_challenge`. -/
def KCM.verifyChallenge (P : Params) (s : KCM) (c : BackupChallenge) : R Verification × KCM :=
  match EG.verifyChallenge P s.id c with
  | .error e => (.error e, s)
  | .ok v => (.ok v, if v.verified then s.receiveVerification v else s)

/-- key_ceremony_mediator.py:169-177 `publish_joint_key`. -/
def KCM.publishJointKey (E : Env) (s : KCM) : Option ElectionJointKey :=
  if !s.allBackupsVerified then none else some (combineElectionKeys E (s.keys.map (·.2)))

/-- key_ceremony_mediator.py:179-188 `reset`. -/
def KCM.reset (s : KCM) (details : CeremonyDetails) : KCM :=
  { s with details := details, keys := [], backups := [], verifications := [] }

/-- The calls that change the mediator. -/
inductive KCMOp
  | announce (key : ElectionPublicKey)
  | receiveBackups (bs : List Backup)
  | receiveVerifications (vs : List Verification)
  | verifyChallenge (c : BackupChallenge)
  | reset (details : CeremonyDetails)

/-- The effect of one call. -/
def KCM.step (P : Params) (s : KCM) : KCMOp → KCM
  | .announce k => s.announce k
  | .receiveBackups bs => s.receiveBackups bs
  | .receiveVerifications vs => s.receiveVerifications vs
  | .verifyChallenge c => (s.verifyChallenge P c).2
  | .reset d => s.reset d

/-- The state after a sequence of calls on a new mediator. -/
def KCM.run (P : Params) (id : String) (details : CeremonyDetails) (ops : List KCMOp) : KCM :=
  ops.foldl (KCM.step P) (KCM.init id details)

end EG
