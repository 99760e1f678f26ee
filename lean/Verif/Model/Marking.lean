import Verif.Model.CliText

/-!
# electionguard_tools/factories/ballot_factory.py and the command `mark-ballots`: ballots marked at random

The numbers that Python's `random` draws are arguments; `shuffle` and `randint` are those of CPython's `random.py`.  Left out: the
ballots from sample files, `get_random_selection_from`, and the hypothesis strategies.
-/

namespace EG

/-- `x[i], x[j] = x[j], x[i]`. -/
def swapAt {α : Type} (l : List α) (i j : Nat) : List α :=
  match l[i]?, l[j]? with
  | some a, some b => (l.set i b).set j a
  | _, _ => l

/-- The loop of `random.shuffle` from position `i` down to 1; `draw i` is the number drawn for position `i`. -/
def shuffleFrom {α : Type} (draw : Nat → Nat) : Nat → List α → List α
  | 0, l => l
  | i + 1, l => shuffleFrom draw i (swapAt l (i + 1) (draw (i + 1) % (i + 2)))

/-- `random.shuffle`. -/
def shuffle {α : Type} (draw : Nat → Nat) (l : List α) : List α := shuffleFrom draw (l.length - 1) l

/-- `random.randint`: `ValueError` for an empty range. -/
def randint (draw : Nat) (lo hi : Int) : R Int :=
  if hi < lo then .error .value else .ok (lo + (draw : Int) % (hi - lo + 1))

/-- What is drawn for a contest. -/
structure ContestDraws where
  first : Nat → Nat
  cut : Nat
  explicit : Nat → Bool
  last : Nat → Nat

/-- ballot_factory.py:71-79: how many selections get a vote. -/
def cutPoint (draw : Nat) (numberElected : Int) (allowNull allowUnder : Bool) : R Int :=
  if allowNull && !allowUnder then .ok (if draw % 2 = 0 then 0 else numberElected)
  else randint draw (if allowNull then 0 else if allowUnder then 1 else numberElected) numberElected

/-- ballot_factory.py:86-92: explicit votes against some selections. -/
def explicitNoes (explicit : Nat → Bool) : Nat → List SelectionDescription → List PlaintextSelection
  | _, [] => []
  | i, d :: ds => (if explicit i then [selectionFrom d false false] else []) ++ explicitNoes explicit (i + 1) ds

/-- ballot_factory.py:51-95 `get_random_contest_from`, with the validity check.  The contests of an internal manifest have placeholders,
so `is_valid` is that of manifest.py:529-538; a valid contest has no negative number elected, and the slices are `take` and `drop`. -/
def getRandomContest (r : ContestDraws) (d : ContestWithPlaceholders) (allowNull allowUnder : Bool) : R PlaintextContest :=
  if d.isValid = false then .error .assertion
  else do
    let shuffled := shuffle r.first d.ballotSelections
    let cut ← cutPoint r.cut d.numberElected allowNull allowUnder
    let selections := (shuffled.take cut.toNat).map (fun s => selectionFrom s false true)
      ++ explicitNoes r.explicit 0 (shuffled.drop cut.toNat)
    return ⟨d.objectId, shuffle r.last selections⟩

/-- What is drawn for a ballot: its style, its id (a `uuid1` with a prefix), and what is drawn for its contests. -/
structure BallotDraws where
  style : Nat
  id : String
  contests : Nat → ContestDraws

/-- ballot_factory.py:144-153: the contests, from the `i`-th on. -/
def getRandomContests (r : Nat → ContestDraws) (allowNull allowUnder : Bool) : Nat → List ContestWithPlaceholders → R (List PlaintextContest)
  | _, [] => .ok []
  | i, d :: ds => do
    let c ← getRandomContest (r i) d allowNull allowUnder
    let cs ← getRandomContests r allowNull allowUnder (i + 1) ds
    return c :: cs

/-- ballot_factory.py:136-155: one ballot. -/
def fakeBallot (im : InternalManifest) (styleId : Option String) (allowNull allowUnder : Bool) (r : BallotDraws) : R PlaintextBallot := do
  let style ← match styleId with
    | some id => im.getBallotStyle id
    | none => do
      let i ← randint r.style 0 ((im.ballotStyles.length : Int) - 1)
      match im.ballotStyles[i.toNat]? with
      | some s => pure s
      | none => .error .index
  let ds ← im.getContestsFor style.objectId
  let cs ← getRandomContests r.contests allowNull allowUnder 0 ds
  return ⟨r.id, style.objectId, cs⟩

/-- ballot_factory.py:126-157 `generate_fake_plaintext_ballots_for_election`, for as many ballots as there are draws. -/
def generateFakeBallots (im : InternalManifest) (draws : List BallotDraws) (styleId : Option String) (allowNull allowUnder : Bool) :
    R (List PlaintextBallot) := draws.mapM (fakeBallot im styleId allowNull allowUnder)

/-- ballot_factory.py:97-124 `get_fake_ballot`. -/
def getFakeBallot (im : InternalManifest) (id : Option String) (allowNull : Bool) (r : Nat → ContestDraws) : R PlaintextBallot :=
  match im.ballotStyles with
  | [] => .error .index
  | style :: _ => do
    let ds ← im.getContestsFor style.objectId
    let cs ← getRandomContests r allowNull true 0 ds
    return ⟨id.getD "some-unique-ballot-id-123", style.objectId, cs⟩

/-- mark_command.py:32-53, mark_ballots_input_retrieval_step.py:14-28, mark_ballots_step.py:13-29 and mark_ballots_publish_step.py:12-20:
the ballots, and the directory afterwards, if one is given. -/
def markCommandText (E : Env) (manifest context : List Char) (draws : List BallotDraws) (styleId : Option String) (out : Option TextDir) :
    R (List PlaintextBallot × Option TextDir) := do
  let m ← cliReadManifest manifest
  let c ← fromRaw (ContextFile.ofJson E.P) context
  let (im, _, _) ← buildWithContext E m c.context c.extendedData
  let bs ← generateFakeBallots im draws styleId false false
  return (bs, out.map (fun dir => bs.foldl (fun dir b => dset dir (b.objectId ++ ".json") (toRaw PlaintextBallot.toJson b)) dir))

end EG
