import Verif.Model.DataStore
import Verif.Model.Validator

/-!
# ballot_box.py

A mutating call returns its result together with the new store.
-/

namespace EG

/-- ballot_box.py:91-107 `submit_ballot`.  The ballot's code and timestamp are passed on, so the clock is not
used. -/
def submitBallot (E : Env) (b : CBallot) (state : BallotBoxState) : SBallot :=
  makeSubmittedBallot E b.objectId b.styleId b.manifestHash (some b.codeSeed) b.contests (some b.code)
    (some b.timestamp) state 0

/-- ballot_box.py:47-77 `submit_ballot_to_box`. -/
def submitBallotToBox (E : Env) (b : CBallot) (state : BallotBoxState) (m : InternalManifest) (ctx : Context)
    (store : Store SBallot) : R (Option SBallot) × Store SBallot :=
  match ballotIsValidForElection E b m ctx true with
  | .error e => (.error e, store)
  | .ok false => (.ok none, store)
  | .ok true =>
    match store.get b.objectId with
    | some _ => (.ok none, store)
    | none =>
      let sb := submitBallot E b state
      let store' := store.set sb.objectId sb
      (.ok (store'.get sb.objectId), store')

/-- ballot_box.py:26-34 `BallotBox.cast`. -/
def boxCast (E : Env) (m : InternalManifest) (ctx : Context) (store : Store SBallot) (b : CBallot) :
    R (Option SBallot) × Store SBallot := submitBallotToBox E b .cast m ctx store

/-- ballot_box.py:36-44 `BallotBox.spoil`. -/
def boxSpoil (E : Env) (m : InternalManifest) (ctx : Context) (store : Store SBallot) (b : CBallot) :
    R (Option SBallot) × Store SBallot := submitBallotToBox E b .spoiled m ctx store

/-- ballot_box.py:80-88 `get_ballots`. -/
def getBallots (store : Store SBallot) (state : Option BallotBoxState) : List (String × SBallot) :=
  List.filter (fun e => match state with
    | none => true
    | some st => decide (e.2.state = st)) store

end EG
