import Verif.Model.TallyCounts
import Verif.Spec.Tally
import Mathlib.Data.List.Dedup

/-!
# Ballots that were accepted
-/

namespace EG

/-- The ballots that are spoiled. -/
def spoiledBallotsOf (bs : List SBallot) : List SBallot := bs.filter (fun b => decide (b.state = .spoiled))

/-- An `append` with its settings. -/
structure AppendCall where
  up : Bool
  ballot : SBallot
  validate : Bool

/-- The call. -/
def AppendCall.call (a : AppendCall) : TallyCall := .append a.up a.ballot a.validate

/-- The ballots for which `append` answers True, in a sequence of appends. -/
def acceptedBy (E : Env) (m : InternalManifest) (ctx : Context) : Tally → List AppendCall → List SBallot
  | _, [] => []
  | t, a :: as =>
    let r := t.append E m ctx a.up a.ballot a.validate
    (if r.1 = .ok true then [a.ballot] else []) ++ acceptedBy E m ctx r.2 as

/-- The number of different texts of a list. -/
def distinctCount (l : List String) : Nat := l.dedup.length

end EG
