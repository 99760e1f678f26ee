import Verif.Model.Strategies

/-!
# electionguard_tools/factories: the selections, contests and ballots that the tests are given

What hypothesis draws is an argument, as in `Model/Strategies.lean`.
-/

namespace EG

/-- What is drawn for a selection; `vote` is the strategy of the same name, by default `integers(0, 1)`. -/
structure SelectionDraw where
  useNone : Bool
  text : String
  uuid : String
  vote : Nat
  placeholder : Bool

/-- ballot_factory.py:175-192 `get_selection_well_formed`. -/
def selectionWellFormed (r : SelectionDraw) : String × PlaintextSelection :=
  let writeIn := if r.useNone then none else some r.text
  let objectId := "selection-" ++ r.uuid
  (objectId, ⟨objectId, (drawInteger r.vote 0 1 : Nat), r.placeholder, writeIn⟩)

/-- ballot_factory.py:196-213 `get_selection_poorly_formed`. -/
def selectionPoorlyFormed (r : SelectionDraw) : String × PlaintextSelection :=
  let writeIn := if r.useNone then none else some r.text
  let objectId := "selection-" ++ r.uuid
  (objectId, ⟨objectId, (drawInteger r.vote 0 1 : Nat), r.placeholder, writeIn⟩)

/-- ballot_factory.py:41-49 `get_random_selection_from`; `bit` is what `randint(0, 1)` gives. -/
def getRandomSelection (d : SelectionDescription) (bit : Bool) (isPlaceholder : Bool := false) : PlaintextSelection :=
  selectionFrom d isPlaceholder bit

/-- What is drawn for the description of a selection. -/
structure DescriptionDraw where
  email : String
  order : Nat
  uuid : String

/-- election_factory.py:279-297 `get_selection_description_well_formed`. -/
def descriptionWellFormed (candidateId : Option String) (sequenceOrder : Option Int) (r : DescriptionDraw) : String × SelectionDescription :=
  let candidateId := candidateId.getD r.email
  let objectId := candidateId ++ "-selection-" ++ r.uuid
  (objectId, ⟨objectId, sequenceOrder.getD (drawInteger r.order 1 20 : Nat), candidateId⟩)

/-- What is drawn for the description of a contest. -/
structure DescriptionContestDraw where
  email : String
  order : Nat
  district : String
  first : Nat
  second : Nat
  selection : Nat → DescriptionDraw
  name : String

/-- election_factory.py:300-353 `get_contest_description_well_formed`. -/
def contestWellFormed (sequenceOrder : Option Int) (districtId : Option String) (r : DescriptionContestDraw) : R (String × ContestWithPlaceholders) := do
  let objectId := r.email ++ "-contest"
  let first := drawInteger r.first 1 20
  let second := drawInteger r.second 1 20
  let numberElected := min first second
  let contest : ContestDescription :=
    { objectId := objectId
      sequenceOrder := sequenceOrder.getD (drawInteger r.order 1 20 : Nat)
      electoralDistrictId := districtId.getD (r.district ++ "-gp-unit")
      voteVariation := .n_of_m
      numberElected := numberElected
      votesAllowed := some numberElected
      name := r.name
      ballotSelections := (List.range (max first second)).map (fun i =>
        { (descriptionWellFormed none none (r.selection i)).2 with sequenceOrder := (i : Int) })
      ballotTitle := none
      ballotSubtitle := none
      primaryPartyIds := none }
  let placeholders ← generatePlaceholders contest numberElected
  return (objectId, contestWithPlaceholdersFrom contest placeholders)

/-- election_factory.py:246-262 `get_fake_ballot` with a manifest: the first style and the first two contests, or `IndexError`. -/
def electionFakeBallot (m : Manifest) (ballotId : Option String) : R PlaintextBallot :=
  match m.ballotStyles, m.contests with
  | style :: _, c :: c' :: _ => .ok ⟨ballotId.getD "some-unique-ballot-id-123", style.objectId, [contestFrom c, contestFrom c']⟩
  | _, _ => .error .index

/-- election_factory.py:155-232 `get_fake_manifest`, at a given date. -/
def fakeManifest (date : String) : Manifest where
  electionScopeId := "some-scope-id"
  specVersion := "v0.95"
  type := "unknown"
  startDate := date
  endDate := date
  geopoliticalUnits := [⟨"some-geopoltical-unit-id", "some-gp-unit-name", "unknown", none⟩]
  parties := [⟨"some-party-id-1", ⟨[]⟩, none, none, none⟩, ⟨"some-party-id-2", ⟨[]⟩, none, none, none⟩]
  candidates := [⟨"some-candidate-id-1", ⟨[]⟩, none, none, none⟩, ⟨"some-candidate-id-2", ⟨[]⟩, none, none, none⟩,
    ⟨"some-candidate-id-3", ⟨[]⟩, none, none, none⟩]
  contests := [
    ⟨"some-referendum-contest-object-id", 0, "some-geopoltical-unit-id", .one_of_m, 1, some 1, "some-referendum-contest-name",
      [⟨"some-object-id-affirmative", 0, "some-candidate-id-1"⟩, ⟨"some-object-id-negative", 1, "some-candidate-id-2"⟩], none, none, none⟩,
    ⟨"some-candidate-contest-object-id", 1, "some-geopoltical-unit-id", .one_of_m, 2, some 2, "some-candidate-contest-name",
      [⟨"some-object-id-candidate-1", 0, "some-candidate-id-1"⟩, ⟨"some-object-id-candidate-2", 1, "some-candidate-id-2"⟩,
        ⟨"some-object-id-candidate-3", 2, "some-candidate-id-3"⟩], none, none, none⟩]
  ballotStyles := [⟨"some-ballot-style-id", some ["some-geopoltical-unit-id"], none, none⟩]
  name := none
  contactInformation := none

end EG
