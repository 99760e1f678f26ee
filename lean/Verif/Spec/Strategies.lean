import Verif.Model.Strategies
import Verif.Spec.Marking

/-!
# What the drawn elections and ballots are meant to be
-/

namespace EG

/-- The number of candidates drawn for a contest: one to three for a referendum, else up to three more than seats. -/
def ContestDraw.count (r : ContestDraw) : Nat := if r.referendum then 1 + r.n % 3 else 1 + r.n % 3 + r.more % 4

/-- The number of parties drawn. -/
def ElectionDraws.partyCount (r : ElectionDraws) (most : Nat) : Nat := 1 + r.parties % most

/-- The number of contests drawn. -/
def ElectionDraws.contestCount (r : ElectionDraws) (most : Nat) : Nat := 1 + r.contests % most

/-- The texts of the uuids of each kind differ: of the parties, of the contests, and of the candidates of all contests together. -/
structure ElectionDraws.Distinct (r : ElectionDraws) (maxParties maxContests : Nat) : Prop where
  party : ∀ i < r.partyCount maxParties, ∀ j < r.partyCount maxParties, (r.party i).1 = (r.party j).1 → i = j
  contest : ∀ i < r.contestCount maxContests, ∀ j < r.contestCount maxContests, (r.contest i).uuid = (r.contest j).uuid → i = j
  candidate : ∀ i < r.contestCount maxContests, ∀ j < r.contestCount maxContests,
    ∀ k < (r.contest i).count, ∀ l < (r.contest j).count,
      ((r.contest i).candidates k).uuid = ((r.contest j).candidates l).uuid → i = j ∧ k = l

/-- The uuids have all the same length (36). -/
def ElectionDraws.SameLength (r : ElectionDraws) (maxContests : Nat) : Prop :=
  ∀ i < r.contestCount maxContests, ∀ k < (r.contest i).count,
    ((r.contest i).candidates k).uuid.length = (r.contest i).uuid.length

/-- A contest as the tests want it: one to three seats, as many votes as seats, at least as many selections as seats and at most three more,
and orders that are not negative. -/
structure ContestDescription.Typical (c : ContestDescription) : Prop where
  seats : 1 ≤ c.numberElected ∧ c.numberElected ≤ 3
  votes : c.votesAllowed = some c.numberElected
  selections : c.numberElected ≤ c.ballotSelections.length ∧ (c.ballotSelections.length : Int) ≤ c.numberElected + 3
  order : 0 ≤ c.sequenceOrder
  orders : ∀ s ∈ c.ballotSelections, 0 ≤ s.sequenceOrder

/-- A contest in which every selection is listed once, with a vote for at most as many as there are seats, these first. -/
structure PlaintextContest.VotedIn (c : PlaintextContest) (d : ContestWithPlaceholders) : Prop where
  id : c.objectId = d.objectId
  split : ∃ yes no : List SelectionDescription, (yes ++ no).Perm d.ballotSelections ∧ (yes.length : Int) ≤ d.numberElected ∧
    c.ballotSelections = yes.map (fun s => ⟨s.objectId, 1, false, none⟩) ++ no.map (fun s => ⟨s.objectId, 0, false, none⟩)

/-- A voter can vote for more selections than there are seats. -/
def ContestDescription.RoomForOvervoting (d : ContestDescription) : Prop :=
  ∃ s : List SelectionDescription, s.Sublist d.ballotSelections ∧ d.numberElected < s.length

end EG
