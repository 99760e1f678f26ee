import Verif.Model.DbWatcher

/-!
# Vocabulary for the watching of the database
-/

namespace EG

/-- What one watch has reported, in order. -/
def WatchState.reportsOf (s : WatchState) (i : Nat) : List (String × String) :=
  s.reports.filterMap (fun r => if r.1 = i then some r.2 else none)

/-- The changes among deltas that concern an id (all if there is none). -/
def changesFor (target : Option String) (l : List Delta) : List (String × String) :=
  (l.filterMap id).filter (fun c => decide (target = none ∨ target = some c.2))

end EG
