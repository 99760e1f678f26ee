import Verif.Model.Marking

/-!
# electionguard_tools/strategies/election.py: the elections and ballots that the property tests draw

What hypothesis draws is an argument; an integer between two bounds is any number, reduced to the range.  Left out: how names, addresses,
dates and links are put together (they are drawn as a whole), and the shrinking of failing cases.
-/

namespace EG

/-- `draw(integers(lo, hi))`, for `lo ≤ hi`. -/
def drawInteger (draw lo hi : Nat) : Nat := lo + draw % (hi - lo + 1)

/-- `l[draw(integers(0, len(l) - 1))]`: nothing can be drawn for an empty list. -/
def drawFrom {α : Type} (draw : Nat) (l : List α) : Option α := l[drawInteger draw 0 (l.length - 1)]?

/-- What is drawn for a candidate. -/
structure CandidateDraw where
  uuid : String
  name : InternationalizedText
  party : Nat
  image : Option String

/-- strategies/election.py:342-362 `candidates`; no parties (`None`) are an empty list, with the same result. -/
def strategyCandidate (parties : List Party) (r : CandidateDraw) : Candidate :=
  ⟨r.uuid, r.name, (drawFrom r.party parties).map Party.objectId, r.image, none⟩

/-- strategies/election.py:365-376 `_candidate_to_selection_description`. -/
def candidateToSelection (c : Candidate) (order : Nat) : SelectionDescription := ⟨"c-" ++ c.objectId, order, c.objectId⟩

/-- What is drawn for a contest. -/
structure ContestDraw where
  referendum : Bool
  n : Nat
  more : Nat
  candidates : Nat → CandidateDraw
  uuid : String
  unit : Nat
  name : String
  title : InternationalizedText
  subtitle : InternationalizedText

/-- The first `m` candidates drawn for a contest. -/
def ContestDraw.drawn (r : ContestDraw) (parties : List Party) (m : Nat) : List Candidate :=
  (List.range m).map (fun i => strategyCandidate parties (r.candidates i))

/-- Their selections: strategies/election.py:410-412 and 479-481. -/
def ContestDraw.selections (r : ContestDraw) (parties : List Party) (m : Nat) : List SelectionDescription :=
  (r.drawn parties m).zipIdx.map (fun e => candidateToSelection e.1 e.2)

/-- strategies/election.py:379-433 `candidate_contest_descriptions`, with given or drawn `n` and `m`; with more selections than
candidates nothing is different, as there are `m` of both. -/
def candidateContest (seq : Nat) (parties : List Party) (units : List GeopoliticalUnit) (n m : Option Nat) (r : ContestDraw) :
    R (List Candidate × ContestDescription) :=
  let n := n.getD (drawInteger r.n 1 3)
  let m := m.getD (n + drawInteger r.more 0 3)
  match drawFrom r.unit units with
  | none => .error .value
  | some u => .ok (r.drawn parties m,
      { objectId := r.uuid
        sequenceOrder := seq
        electoralDistrictId := u.objectId
        voteVariation := if n = 1 then .one_of_m else .n_of_m
        numberElected := n
        votesAllowed := some n
        name := r.name
        ballotSelections := r.selections parties m
        ballotTitle := some r.title
        ballotSubtitle := some r.subtitle
        primaryPartyIds := some (parties.map Party.objectId) })

/-- strategies/election.py:436-462 `contest_descriptions_room_for_overvoting`. -/
def overvotingContest (seq : Nat) (parties : List Party) (units : List GeopoliticalUnit) (r : ContestDraw) :
    R (List Candidate × ContestDescription) :=
  let n := drawInteger r.n 1 3
  candidateContest seq parties units (some n) (some (n + drawInteger r.more 1 3)) r

/-- strategies/election.py:465-499 `referendum_contest_descriptions`. -/
def referendumContest (seq : Nat) (units : List GeopoliticalUnit) (r : ContestDraw) : R (List Candidate × ContestDescription) :=
  let n := drawInteger r.n 1 3
  match drawFrom r.unit units with
  | none => .error .value
  | some u => .ok (r.drawn [] n,
      { objectId := r.uuid
        sequenceOrder := seq
        electoralDistrictId := u.objectId
        voteVariation := .one_of_m
        numberElected := 1
        votesAllowed := some 1
        name := r.name
        ballotSelections := r.selections [] n
        ballotTitle := some r.title
        ballotSubtitle := some r.subtitle
        primaryPartyIds := none })

/-- strategies/election.py:502-523 `contest_descriptions`. -/
def strategyContest (parties : List Party) (units : List GeopoliticalUnit) (seq : Nat) (r : ContestDraw) :
    R (List Candidate × ContestDescription) :=
  if r.referendum then referendumContest seq units r else candidateContest seq parties units none none r

/-- What is drawn for an election. -/
structure ElectionDraws where
  unit : GeopoliticalUnit
  parties : Nat
  party : Nat → String × String
  contests : Nat
  contest : Nat → ContestDraw
  style : String
  styleImage : String
  date : String
  scope : String
  name : InternationalizedText
  contact : ContactInformation

/-- strategies/election.py:304-325 `party_lists`: for each party an id and a logo are drawn. -/
def strategyParties (r : ElectionDraws) (count : Nat) : List Party :=
  (List.range count).map (fun i =>
    ⟨(r.party i).1, ⟨[⟨"Party" ++ decStr i, "en"⟩]⟩, some ("P" ++ decStr i), none, some (r.party i).2⟩)

/-- strategies/election.py:277-301 `ballot_styles`. -/
def strategyStyle (r : ElectionDraws) (parties : List Party) (units : List GeopoliticalUnit) : BallotStyle :=
  ⟨r.style, some (units.map GeopoliticalUnit.objectId), some (parties.map Party.objectId), some r.styleImage⟩

/-- strategies/election.py:526-577 `election_descriptions`. -/
def strategyManifest (maxParties maxContests : Nat) (r : ElectionDraws) : R Manifest :=
  if maxParties = 0 ∨ maxContests = 0 then .error .assertion
  else do
    let units := [r.unit]
    let parties := strategyParties r (drawInteger r.parties 1 maxParties)
    let cs ← (List.range (drawInteger r.contests 1 maxContests)).mapM (fun i => strategyContest parties units i (r.contest i))
    return {
      electionScopeId := r.scope
      specVersion := "v0.95"
      type := "general"
      startDate := r.date
      endDate := r.date
      geopoliticalUnits := units
      parties := parties
      candidates := (cs.map Prod.fst).flatten
      contests := cs.map Prod.snd
      ballotStyles := [strategyStyle r parties units]
      name := some r.name
      contactInformation := some r.contact }

/-- What is drawn for a contest of a ballot: the seed of the shuffle, here its numbers, and where the votes end. -/
structure VoteDraws where
  shuffle : Nat → Nat
  cut : Nat

/-- strategies/election.py:618-640: one contest of `plaintext_voted_ballot`.  A valid contest has no negative number of seats, and the
slices are `take` and `drop`. -/
def votedContest (r : VoteDraws) (d : ContestWithPlaceholders) : R PlaintextContest :=
  if d.isValid = false then .error .assertion
  else if (d.ballotSelections.length : Int) < d.numberElected then .error .assertion
  else
    let shuffled := shuffle r.shuffle d.ballotSelections
    let cut := drawInteger r.cut 0 d.numberElected.toNat
    .ok ⟨d.objectId, (shuffled.take cut).map (fun s => selectionFrom s false true)
      ++ (shuffled.drop cut).map (fun s => selectionFrom s false false)⟩

/-- What is drawn for a ballot. -/
structure VotedDraws where
  style : Nat
  contests : Nat → VoteDraws
  uuid : String

/-- The contests of a ballot, from the `i`-th on. -/
def votedContests (r : Nat → VoteDraws) : Nat → List ContestWithPlaceholders → R (List PlaintextContest)
  | _, [] => .ok []
  | i, d :: ds => do
    let c ← votedContest (r i) d
    let cs ← votedContests r (i + 1) ds
    return c :: cs

/-- strategies/election.py:595-642 `plaintext_voted_ballot`. -/
def votedBallot (im : InternalManifest) (r : VotedDraws) : R PlaintextBallot :=
  match drawFrom r.style im.ballotStyles with
  | none => .error .assertion
  | some style => do
    let ds ← im.getContestsFor style.objectId
    if ds.isEmpty then .error .assertion
    else do
      let cs ← votedContests r.contests 0 ds
      return ⟨r.uuid, style.objectId, cs⟩

/-- strategies/election.py:648-676 `ciphertext_elections` with strategies/elgamal.py:12-20 `elgamal_keypairs`: the secret drawn is not 0, and
1 is replaced by 2. -/
def strategyContext (E : Env) (m : Manifest) (secret commitment : Nat) : Nat × Context :=
  let s := if secret = 1 then 2 else secret
  (s, makeContext E 1 1 (gPowP E.P s) commitment (m.cryptoHash E))

/-- strategies/election.py:688-719 `elections_and_ballots`, for as many ballots as there are draws. -/
def electionsAndBallots (E : Env) (r : ElectionDraws) (votes : List VotedDraws) (secret commitment : Nat) :
    R (Manifest × InternalManifest × List PlaintextBallot × Nat × Context) := do
  let m ← strategyManifest 3 3 r
  let im ← mkInternalManifest E m
  let bs ← votes.mapM (votedBallot im)
  let (s, ctx) := strategyContext E m secret commitment
  return (m, im, bs, s, ctx)

end EG
