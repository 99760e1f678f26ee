import Mathlib.Data.List.Forall2
import Verif.Model.Ballot

/-!
# What it means for ballots and manifests to be the same

Independent of the equality functions of the code.
-/

namespace EG

/-- The votes on a ballot for the selection `sid`, in whichever contest. -/
def PlaintextBallot.totalFor (b : PlaintextBallot) (sid : String) : Int :=
  (((b.contests.flatMap (·.ballotSelections)).filter (fun s => decide (s.objectId = sid))).map (·.vote)).sum

/-- The votes on a ballot for the selection `sid` in the contest `cid`. -/
def PlaintextBallot.totalIn (b : PlaintextBallot) (cid sid : String) : Int :=
  ((((b.contests.filter (fun c => decide (c.objectId = cid))).flatMap (·.ballotSelections)).filter
    (fun s => decide (s.objectId = sid))).map (·.vote)).sum

/-- The lists have the same elements up to `R`, in any order. -/
def SameUpTo {α : Type} (R : α → α → Prop) (l l' : List α) : Prop := ∃ m : List α, m.Perm l' ∧ List.Forall₂ R l m

/-- Two encrypted contests that carry the same encryptions, hash, nonce and proof. -/
def CContest.SameVotes (a b : CContest) : Prop :=
  a.objectId = b.objectId ∧ a.ballotSelections.Perm b.ballotSelections ∧ a.descriptionHash = b.descriptionHash ∧
    a.cryptoHash = b.cryptoHash ∧ a.nonce = b.nonce ∧ a.proof = b.proof

/-- Two encrypted ballots with the same identity, code and time, whose contests carry the same encryptions. -/
def CBallot.SameVotes (a b : CBallot) : Prop :=
  a.objectId = b.objectId ∧ a.styleId = b.styleId ∧ a.manifestHash = b.manifestHash ∧ a.codeSeed = b.codeSeed ∧
    a.code = b.code ∧ a.timestamp = b.timestamp ∧ a.cryptoHash = b.cryptoHash ∧ a.nonce = b.nonce ∧
    SameUpTo CContest.SameVotes a.contests b.contests

/-- Two contests of a manifest that differ at most in their ids, their primary parties and the order of their
selections. -/
def ContestDescription.SameQuestion (a b : ContestDescription) : Prop :=
  a.electoralDistrictId = b.electoralDistrictId ∧ a.sequenceOrder = b.sequenceOrder ∧
    a.voteVariation = b.voteVariation ∧ a.numberElected = b.numberElected ∧ a.votesAllowed = b.votesAllowed ∧
    a.name = b.name ∧ a.ballotSelections.Perm b.ballotSelections ∧ a.ballotTitle = b.ballotTitle ∧
    a.ballotSubtitle = b.ballotSubtitle

/-- The ids of everything hashed in a manifest, in the order of the lists. -/
def Manifest.listing (m : Manifest) : List String × List String × List String × List (String × List String) :=
  (m.geopoliticalUnits.map (·.objectId), m.parties.map (·.objectId), m.ballotStyles.map (·.objectId),
    m.contests.map (fun c => (c.objectId, c.ballotSelections.map (·.objectId))))

/-- No id is used twice in any list of the manifest. -/
def Manifest.DistinctIds (m : Manifest) : Prop :=
  (m.geopoliticalUnits.map (·.objectId)).Nodup ∧ (m.parties.map (·.objectId)).Nodup ∧
    (m.ballotStyles.map (·.objectId)).Nodup ∧ (m.contests.map (·.objectId)).Nodup ∧
    ∀ c ∈ m.contests, (c.ballotSelections.map (·.objectId)).Nodup

end EG
