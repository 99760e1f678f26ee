import Verif.Model.Ballot
import Verif.Model.ObjectBase

/-!
# The tally of plaintext ballots

`accumulate_plaintext_ballots` of the tools, which the tests take as the expected result.
-/

namespace EG

/-- tally_accumulate.py:20-27: the body of the innermost loop. -/
def plainTallySelection (t : List (String × Int)) (s : PlaintextSelection) : R (List (String × Int)) := do
  if s.isPlaceholder then .error .assertion
  else
    let t := if s.objectId ∈ dkeys t then t else dset t s.objectId 0
    let v ← dgetR t s.objectId
    return dset t s.objectId (v + s.vote)

/-- tally_accumulate.py:19: the loop over the selections of a contest. -/
def plainTallyContest (t : List (String × Int)) (c : PlaintextContest) : R (List (String × Int)) :=
  c.ballotSelections.foldlM plainTallySelection t

/-- tally_accumulate.py:18: the loop over the contests of a ballot. -/
def plainTallyBallot (t : List (String × Int)) (b : PlaintextBallot) : R (List (String × Int)) :=
  b.contests.foldlM plainTallyContest t

/-- tally_accumulate.py:5-28 `accumulate_plaintext_ballots`. -/
def accumulatePlaintext (bs : List PlaintextBallot) : R (List (String × Int)) := bs.foldlM plainTallyBallot []

end EG
