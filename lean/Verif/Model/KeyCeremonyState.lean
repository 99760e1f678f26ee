/-!
# electionguard_gui/services/key_ceremony_state_service.py
-/

namespace EG

/-- key_ceremony_dto.py:18-36: the parts of `KeyCeremonyDto` that decide its state; a list stands for its length. -/
structure CeremonyCounts where
  guardianCount : Int
  guardiansJoined : Nat
  otherKeys : Nat
  backups : Nat
  sharedBackups : Nat
  verifications : Nat
  jointKey : Bool
  deriving DecidableEq, Repr

/-- key_ceremony_states.py:4-13 `KeyCeremonyStates`. -/
inductive CeremonyState
  | pendingGuardiansJoin | pendingAdminAnnounce | pendingGuardianBackups | pendingAdminToShareBackups
  | pendingGuardiansVerifyBackups | pendingAdminToPublishJointKey | complete
  deriving DecidableEq, Repr

/-- key_ceremony_states.py:7-13: the value of the enumeration. -/
def CeremonyState.value : CeremonyState → Nat
  | .pendingGuardiansJoin => 1
  | .pendingAdminAnnounce => 2
  | .pendingGuardianBackups => 3
  | .pendingAdminToShareBackups => 4
  | .pendingGuardiansVerifyBackups => 5
  | .pendingAdminToPublishJointKey => 6
  | .complete => 7

/-- key_ceremony_state_service.py:16-44 `get_key_ceremony_state`. -/
def ceremonyState (c : CeremonyCounts) : CeremonyState :=
  let expectedBackups := c.guardianCount ^ 2
  let expectedVerifications := c.guardianCount ^ 2 - c.guardianCount
  if (c.guardiansJoined : Int) < c.guardianCount then .pendingGuardiansJoin
  else if c.otherKeys = 0 then .pendingAdminAnnounce
  else if (c.backups : Int) < expectedBackups then .pendingGuardianBackups
  else if c.sharedBackups = 0 then .pendingAdminToShareBackups
  else if (c.verifications : Int) < expectedVerifications then .pendingGuardiansVerifyBackups
  else if c.jointKey = false then .pendingAdminToPublishJointKey
  else .complete

end EG
