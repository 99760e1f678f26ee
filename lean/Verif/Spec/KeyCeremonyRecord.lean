import Verif.Spec.KeyCeremony
import Verif.Spec.Record

/-!
# What the mediator of the key ceremony has on record

A call puts a message on record; a later call for the same pair of guardians replaces it, a reset removes it.
-/

namespace EG

/-- A call on a mediator in state `s` that puts the backup of a pair on record (`some b`) or removes it (`none`). -/
def PutsBackup (s : KCM) (pair : String × String) (op : KCMOp) (r : Option Backup) : Prop :=
  (∃ d, op = .reset d ∧ r = none) ∨
  ∃ b before after, op = .receiveBackups (before ++ b :: after) ∧ r = some b ∧ s.allAnnounced = true ∧
    (b.ownerId, b.designatedId) = pair ∧ ∀ x ∈ after, (x.ownerId, x.designatedId) ≠ pair

/-- A call on a mediator in state `s` that puts the verdict about a pair on record or removes it.  A challenge counts when it is met. -/
def PutsVerdict (P : Params) (s : KCM) (pair : String × String) (op : KCMOp) (r : Option Verification) : Prop :=
  (∃ d, op = .reset d ∧ r = none) ∨
  (∃ v before after, op = .receiveVerifications (before ++ v :: after) ∧ r = some v ∧ s.allBackupsAvailable = true ∧
    (v.ownerId, v.designatedId) = pair ∧ ∀ x ∈ after, (x.ownerId, x.designatedId) ≠ pair) ∨
  ∃ c, op = .verifyChallenge c ∧ (c.ownerId, c.designatedId) = pair ∧
    verifyCoordinate P c.value c.designatedOrder c.commitments = .ok true ∧ r = some ⟨c.ownerId, c.designatedId, s.id, true⟩

end EG
