import Verif.Spec.Names
import Verif.Spec.Election

/-!
# What a page with results has to show
-/

namespace EG

/-- The selection is for a write-in candidate. -/
def Manifest.IsWriteIn (m : Manifest) (s : SelectionDescription) : Prop :=
  ∃ k ∈ m.candidates, k.objectId = s.candidateId ∧ k.isWriteIn = some true

/-- A row for a selection with `votes` votes, of `total`: the candidate's name and party, the number, and its part of the total. -/
structure Manifest.Row (m : Manifest) (total : Nat) (votes : String → Nat) (s : SelectionDescription) (row : ReportSelection) : Prop where
  candidate : ∃ k ∈ m.candidates, k.objectId = s.candidateId ∧ k.Shown "en" row.name ∧ m.ShowsParty k row.party
  votes : row.tally = votes s.objectId
  percent : row.percent.1 * total = row.tally * row.percent.2 ∧ 0 < row.percent.2

/-- What has to be shown for a contest: its name, a row for every selection that is no write-in, and the sums. -/
def Manifest.ShowsContest (m : Manifest) (c : ContestWithPlaceholders) (votes : String → Nat) (r : ReportContest) : Prop :=
  r.name = c.name ∧ ∃ regular written : List SelectionDescription, (regular ++ written).Perm c.ballotSelections ∧
    (∀ s ∈ regular, ¬ m.IsWriteIn s) ∧ (∀ s ∈ written, m.IsWriteIn s) ∧
    List.Forall₂ (m.Row r.nonWriteInTotal votes) regular r.selections ∧
    r.nonWriteInTotal = (regular.map (fun s => votes s.objectId)).sum ∧
    r.writeInTotal = if written = [] then none else some (written.map (fun s => votes s.objectId)).sum

/-- What has to be shown for some contests: each of them once. -/
def Manifest.ShowsVotes (m : Manifest) (cs : List ContestWithPlaceholders) (votes : ContestWithPlaceholders → String → Nat)
    (out : List ReportContest) : Prop :=
  ∃ l : List ContestWithPlaceholders, l.Perm cs ∧ List.Forall₂ (fun c r => m.ShowsContest c (votes c) r) l out

end EG
