import Verif.Model.Tally
import Verif.Model.BallotBox

/-!
# The numbers of cast and spoiled ballots of a tally, and the wrappers of `submit_ballot`
-/

namespace EG

/-- tally.py:304-308 `cast`. -/
def Tally.castCount (t : Tally) : Nat := t.castIds.length

/-- tally.py:310-314 `spoiled`. -/
def Tally.spoiledCount (t : Tally) : Nat := t.spoiledIds.length

/-- ballot_box.py:110-118 `cast_ballot`. -/
def castBallot (E : Env) (b : CBallot) : SBallot := submitBallot E b .cast

/-- ballot_box.py:121-129 `spoil_ballot`. -/
def spoilBallot (E : Env) (b : CBallot) : SBallot := submitBallot E b .spoiled

/-- A call that adds to a tally: `append` and `batch_append`, with the ballots that a second pass over the batch yields; `up` says whether the pool of the
scheduler is open. -/
inductive TallyCall
  | append (up : Bool) (b : SBallot) (validate : Bool)
  | batch (up : Bool) (bs again : List SBallot) (validate : Bool)

/-- The answer to a call, and the tally afterwards. -/
def TallyCall.step (E : Env) (m : InternalManifest) (ctx : Context) (t : Tally) : TallyCall → R Bool × Tally
  | .append up b validate => t.append E m ctx up b validate
  | .batch up bs again validate => t.batchAppendIter E m ctx up bs again validate

/-- The tally after a sequence of calls; a call that raises leaves what it did. -/
def TallyCall.run (E : Env) (m : InternalManifest) (ctx : Context) : Tally → List TallyCall → Tally
  | t, [] => t
  | t, c :: cs => TallyCall.run E m ctx (c.step E m ctx t).2 cs

end EG
