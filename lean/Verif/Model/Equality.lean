import Verif.Model.Ballot

/-!
# The equality of ballots and manifests

The `__eq__` methods of ballot.py and manifest.py.  Both sides have the class of the method, so the `isinstance`
tests succeed; objects of other classes are not modelled.  `__ne__` is the negation.  The equality of
`CiphertextBallotSelection` (ballot.py:126), `SelectionDescription` (manifest.py:322), `Candidate`, `Party`,
`GeopoliticalUnit`, `BallotStyle` and the texts is generated by `dataclass(eq=True)` and compares all fields in
order, which is `=` of the structures here.
-/

namespace EG

/-- Equality of Python lists: the same length and equal elements in order. -/
def eqLists {α : Type} (eq : α → α → Bool) : List α → List α → Bool
  | [], [] => true
  | x :: xs, y :: ys => eq x y && eqLists eq xs ys
  | _, _ => false

/-- election_object_base.py:35-44 `list_eq` for objects with their own equality `eq`; `k` is the `object_id`
attribute.  `listEq` is the same function for structural equality. -/
def listEqWith {α : Type} (eq : α → α → Bool) (k : α → String) (l l' : List α) : Bool :=
  eqLists eq (sortByStr k l) (sortByStr k l')

/-- ballot.py:95-102 `PlaintextBallotSelection.__eq__`. -/
def PlaintextSelection.pyEq (a b : PlaintextSelection) : Bool :=
  a.objectId == b.objectId && a.vote == b.vote && a.isPlaceholder == b.isPlaceholder && a.writeIn == b.writeIn

/-- ballot.py:439-442 `PlaintextBallotContest.__eq__`: the id is not compared. -/
def PlaintextContest.pyEq (a b : PlaintextContest) : Bool :=
  listEqWith PlaintextSelection.pyEq (·.objectId) a.ballotSelections b.ballotSelections

/-- ballot.py:725-730 `PlaintextBallot.__eq__`: the id is not compared. -/
def PlaintextBallot.pyEq (a b : PlaintextBallot) : Bool :=
  a.styleId == b.styleId && listEqWith PlaintextContest.pyEq (·.objectId) a.contests b.contests

/-- ballot.py:502-511 `CiphertextBallotContest.__eq__`: sequence order, accumulation and extended data are not
compared. -/
def CContest.pyEq (a b : CContest) : Bool :=
  a.objectId == b.objectId && listEqWith (fun x y => decide (x = y)) (·.objectId) a.ballotSelections b.ballotSelections
    && a.descriptionHash == b.descriptionHash && a.cryptoHash == b.cryptoHash && a.nonce == b.nonce
    && decide (a.proof = b.proof)

/-- ballot.py:774-786 `CiphertextBallot.__eq__`. -/
def CBallot.pyEq (a b : CBallot) : Bool :=
  a.objectId == b.objectId && a.styleId == b.styleId && a.manifestHash == b.manifestHash
    && a.codeSeed == b.codeSeed && listEqWith CContest.pyEq (·.objectId) a.contests b.contests
    && a.code == b.code && a.timestamp == b.timestamp && a.cryptoHash == b.cryptoHash && a.nonce == b.nonce

/-- ballot.py:926-931 `SubmittedBallot.__eq__`. -/
def SBallot.pyEq (a b : SBallot) : Bool :=
  a.toCBallot.pyEq b.toCBallot && decide (a.state = b.state)

/-- manifest.py:386-398 `ContestDescription.__eq__`: the id is not compared.  Only for contests of this class; the
subclasses have a generated equality of all fields. -/
def ContestDescription.pyEq (a b : ContestDescription) : Bool :=
  a.electoralDistrictId == b.electoralDistrictId && a.sequenceOrder == b.sequenceOrder
    && decide (a.voteVariation = b.voteVariation) && a.numberElected == b.numberElected
    && a.votesAllowed == b.votesAllowed && a.name == b.name
    && listEqWith (fun x y => decide (x = y)) (·.objectId) a.ballotSelections b.ballotSelections
    && decide (a.ballotTitle = b.ballotTitle) && decide (a.ballotSubtitle = b.ballotSubtitle)

/-- manifest.py:635-649 `Manifest.__eq__`: the version of the specification is not compared. -/
def Manifest.pyEq (a b : Manifest) : Bool :=
  a.electionScopeId == b.electionScopeId && a.type == b.type && a.startDate == b.startDate
    && a.endDate == b.endDate
    && listEqWith (fun x y => decide (x = y)) (·.objectId) a.geopoliticalUnits b.geopoliticalUnits
    && listEqWith (fun x y => decide (x = y)) (·.objectId) a.parties b.parties
    && listEqWith (fun x y => decide (x = y)) (·.objectId) a.candidates b.candidates
    && listEqWith ContestDescription.pyEq (·.objectId) a.contests b.contests
    && listEqWith (fun x y => decide (x = y)) (·.objectId) a.ballotStyles b.ballotStyles
    && decide (a.name = b.name) && decide (a.contactInformation = b.contactInformation)

end EG
