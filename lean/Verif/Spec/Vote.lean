import Verif.Model.Ballot

/-!
# Specification vocabulary for votes
-/

namespace EG

/-- The number of selections with a positive vote. -/
def PlaintextContest.chosen (c : PlaintextContest) : Int :=
  ((c.ballotSelections.filter (fun s => decide (0 < s.vote))).length : Int)

/-- The sum of the votes. -/
def PlaintextContest.voteSum (c : PlaintextContest) : Int := (c.ballotSelections.map PlaintextSelection.vote).sum

/-- The plaintext contest belongs to the description: same id, a valid description, no more selections than
described, and only described selections. -/
structure PlaintextContest.Belongs (c : PlaintextContest) (d : ContestWithPlaceholders) : Prop where
  id : c.objectId = d.objectId
  count : c.ballotSelections.length ≤ d.ballotSelections.length
  valid : d.isValid = true
  known : ∀ s ∈ c.ballotSelections, ∃ sd ∈ d.ballotSelections, sd.objectId = s.objectId

end EG
