import Verif.Model.Verify
import Verif.Spec.Tally

/-!
# Specification of the verifiers
-/

namespace EG

/-- Two tallies hold the same selections with the same data. -/
def SameSelections (a b : List (String × TallySelection)) : Prop := ∀ sid, dget a sid = dget b sid

/-- Two tally contests have the same data. -/
structure SameContest (a b : TallyContest) : Prop where
  id : a.objectId = b.objectId
  order : a.sequenceOrder = b.sequenceOrder
  hash : a.descriptionHash = b.descriptionHash
  selections : SameSelections a.selections b.selections

/-- Two tallies have the same cast ids, spoiled ids, and the same data for every contest; the order in which they are
stored does not matter. -/
structure SameTally (a b : Tally) : Prop where
  cast : ∀ x, x ∈ a.castIds ↔ x ∈ b.castIds
  spoiled : ∀ x, x ∈ a.spoiledIds ↔ x ∈ b.spoiledIds
  contests : ∀ cid, (dget a.contests cid = none ∧ dget b.contests cid = none) ∨
    ∃ x y, dget a.contests cid = some x ∧ dget b.contests cid = some y ∧ SameContest x y

/-- A tally as Python can hold it: no id twice in a set and no key twice in a dict. -/
structure Tally.WF (t : Tally) : Prop where
  cast : t.castIds.Nodup
  spoiled : t.spoiledIds.Nodup
  contests : WFContests t.contests

end EG
