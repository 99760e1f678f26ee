import Verif.Model.DecryptionMediator
import Verif.Spec.Record

/-!
# What the decryption mediator has on record

Shares come from announcements, compensations from the calls that deliver them, and reconstruction fills the places of missing guardians
that have no share yet.
-/

namespace EG

/-- A call that puts the compensation of a pair (who computed it, for whom) for the tally on record. -/
def PutsTallyComp (pair : String × String) (op : DMOp) (r : Option CompShare) : Prop :=
  ∃ c, op = .receiveTallyComp c ∧ (c.guardianId, c.missingId) = pair ∧ r = some c

/-- A call that puts the compensation of a pair for a ballot on record. -/
def PutsBallotComp (ballot : String) (pair : String × String) (op : DMOp) (r : Option CompShare) : Prop :=
  ∃ c before after, op = .receiveBallotComp (before ++ (ballot, c) :: after) ∧ (c.guardianId, c.missingId) = pair ∧ r = some c ∧
    ∀ e ∈ after, (e.1, e.2.guardianId, e.2.missingId) ≠ (ballot, pair)

/-- Every guardian of a list has a share or can be given one by `rec`. -/
def AllReached (rec : String → ElectionPublicKey → R DecShare) (missing : List (String × ElectionPublicKey))
    (shares : List (String × DecShare)) : Prop :=
  ∀ e ∈ missing, e.1 ∈ dkeys shares ∨ ∃ sh, rec e.1 e.2 = .ok sh

/-- Going through the missing guardians in order, the turn comes to `i`, who has no share, and `rec` gives it `sh`. -/
def Reaches (rec : String → ElectionPublicKey → R DecShare) (missing : List (String × ElectionPublicKey))
    (shares : List (String × DecShare)) (i : String) (sh : DecShare) : Prop :=
  i ∉ dkeys shares ∧ ∃ k before after, missing = before ++ (i, k) :: after ∧ rec i k = .ok sh ∧ AllReached rec before shares

/-- The share of the tally that is reconstructed for a missing guardian from the compensations on record. -/
def DM.tallyRec (P : Params) (s : DM) (lagrange : List (String × Nat)) (t : Tally) (id : String) (k : ElectionPublicKey) : R DecShare :=
  reconstructShare P k t.objectId t.toCts (filterByMissing id s.compTally) lagrange

/-- The same for a ballot. -/
def DM.ballotRec (P : Params) (s : DM) (lagrange : List (String × Nat)) (b : SBallot) (id : String) (k : ElectionPublicKey) :
    R DecShare :=
  match dget s.compBallot b.objectId with
  | none => .error .key
  | some comps => reconstructShare P k b.objectId b.toCts (filterByMissing id comps) lagrange

/-- A call that puts a share of the tally under the name of guardian `i` on record: its first announcement, or a reconstruction. -/
def PutsTallyShare (P : Params) (s : DM) (i : String) (op : DMOp) (r : Option DecShare) : Prop :=
  (∃ k sh bs, op = .announce k sh bs ∧ k.ownerId = i ∧ i ∉ dkeys s.available ∧ r = some sh) ∨
  ∃ t lagrange sh, op = .reconstructTally t ∧ lagrangeForGuardians P (s.available.map (·.2)) = .ok lagrange ∧ r = some sh ∧
    Reaches (s.tallyRec P lagrange t) s.missing s.tallyShares i sh

/-- A call that puts a share of a ballot under the name of guardian `i` on record.  Reconstruction takes the first ballot of the list with
this id, and comes to it if no ballot before it raises. -/
def PutsBallotShare (P : Params) (s : DM) (ballot i : String) (op : DMOp) (r : Option DecShare) : Prop :=
  (∃ k t sh before after, op = .announce k t (some (before ++ (ballot, some sh) :: after)) ∧ k.ownerId = i ∧ i ∉ dkeys s.available ∧
    r = some sh ∧ ∀ e ∈ after, e.1 = ballot → e.2 = none) ∨
  ∃ b before after lagrange shares sh, op = .reconstructBallots (before ++ b :: after) ∧ b.objectId = ballot ∧
    lagrangeForGuardians P (s.available.map (·.2)) = .ok lagrange ∧ r = some sh ∧ (∀ b' ∈ before, b'.objectId ≠ ballot) ∧
    (∀ pre b' post, before = pre ++ b' :: post → (∀ x ∈ pre, x.objectId ≠ b'.objectId) →
      ∃ shares', dget s.ballotShares b'.objectId = some shares' ∧ AllReached (s.ballotRec P lagrange b') s.missing shares') ∧
    dget s.ballotShares ballot = some shares ∧ Reaches (s.ballotRec P lagrange b) s.missing shares i sh

end EG
