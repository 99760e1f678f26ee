import Verif.Model.Manifest
import Verif.Model.DecryptShares

/-!
# manifest.py: names of the election, the contests and the selections; the reports that show them

The report of the GUI (plaintext_ballot_service.py) and the printed results of the command line (print_results_step.py).  The
percentages of the GUI's report are pairs of a numerator and a denominator instead of floating point numbers.
-/

namespace EG

/-- manifest.py:855-859 `get_name`: the first text; an `IndexError` if there is none. -/
def Manifest.getName (m : Manifest) : R String :=
  match m.name with
  | none => .ok ""
  | some t => match t.text with
    | [] => .error .index
    | l :: _ => .ok l.value

/-- manifest.py:1027-1030 `get_i8n_value`. -/
def getI8nValue (name : InternationalizedText) (lang default : String) : String :=
  let result := match name.text.find? (fun t => t.language == lang) with
    | none => ""
    | some t => t.value
  if result == "" then default else result

/-- manifest.py:811-814 `_get_candidate_name`. -/
def Candidate.getName (c : Candidate) (lang : String) : String :=
  if c.isWriteIn == some true then "Write-In" else getI8nValue c.name lang c.objectId

/-- manifest.py:816-820 `_get_candidate_names`: a dict. -/
def Manifest.getCandidateNames (m : Manifest) (lang : String) : List (String × String) :=
  m.candidates.foldl (fun d c => dset d c.objectId (c.getName lang)) []

/-- manifest.py:822-827 `_get_selections_with_candidate_id`: a dict. -/
def Manifest.getSelectionsWithCandidateId (m : Manifest) : List (String × String) :=
  m.contests.foldl (fun d c => c.ballotSelections.foldl (fun d s => dset d s.objectId s.candidateId) d) []

/-- manifest.py:829-835 `_replace_candidate_ids_with_names`. -/
def replaceCandidateIds (selections candidates : List (String × String)) : List (String × String) :=
  selections.map (fun e => match dget candidates e.2 with
    | none => e
    | some n => (e.1, n))

/-- manifest.py:837-845 `get_selection_names`. -/
def Manifest.getSelectionNames (m : Manifest) (lang : String) : List (String × String) :=
  replaceCandidateIds m.getSelectionsWithCandidateId (m.getCandidateNames lang)

/-- manifest.py:847-853 `get_contest_names`: a dict. -/
def Manifest.getContestNames (m : Manifest) : List (String × String) :=
  m.contests.foldl (fun d c => dset d c.objectId c.name) []

/-! ### The printed results of the command line -/

/-- What is printed for a contest: its name, and a line with name and tally for every selection. -/
structure PrintedContest where
  name : Option String
  lines : List (String × Nat)
  deriving DecidableEq, Repr

/-- print_results_step.py:15-28 `_print_tally` and 37-45: the contests of one plaintext tally; an unknown selection is a
`KeyError`. -/
def printContests (contestNames selectionNames : List (String × String)) (pt : PlaintextTally) : R (List PrintedContest) :=
  pt.contests.mapM (fun e => do
    let lines ← e.2.selections.mapM (fun s => do
      let name ← dgetR selectionNames s.2.objectId
      return (name, s.2.tally))
    return ⟨dget contestNames e.2.objectId, lines⟩)

/-- print_results_step.py:47-58 `print_election_results`: the tally, and every spoiled ballot under its id. -/
def printElectionResults (m : Manifest) (pt : PlaintextTally) (spoiled : List (String × PlaintextTally)) :
    R (List PrintedContest × List (String × List PrintedContest)) := do
  let selectionNames := m.getSelectionNames "en"
  let contestNames := m.getContestNames
  let tally ← printContests contestNames selectionNames pt
  let ballots ← spoiled.mapM (fun e => do
    let cs ← printContests contestNames selectionNames e.2
    return (e.1, cs))
  return (tally, ballots)

/-! ### The report of the GUI -/

/-- plaintext_ballot_service.py:128-135: what is shown for a selection. -/
structure ReportSelection where
  name : String
  tally : Nat
  party : String
  percent : Nat × Nat
  deriving DecidableEq, Repr

/-- plaintext_ballot_service.py:73-77 and 37-42: what is shown for a contest. -/
structure ReportContest where
  name : String
  selections : List ReportSelection
  nonWriteInTotal : Nat
  writeInTotal : Option Nat
  deriving DecidableEq, Repr

/-- plaintext_ballot_service.py:85-89: one step of the dictionary of the candidates' parties. -/
def addCandidateParty (parties d : List (String × String)) (c : Candidate) : R (List (String × String)) :=
  match c.partyId with
  | none => .ok d
  | some p => do return dset d c.objectId (← dgetR parties p)

/-- plaintext_ballot_service.py:80-95 `_get_selection_parties`; a candidate of an unknown party is a `KeyError`. -/
def getSelectionParties (m : Manifest) : R (List (String × String)) := do
  let parties := m.parties.foldl (fun d p => dset d p.objectId (getI8nValue p.name "en" "")) []
  let candidates ← m.candidates.foldlM (addCandidateParty parties) []
  return m.contests.foldl (fun d c => c.ballotSelections.foldl (fun d s =>
    dset d s.objectId ((dget candidates s.candidateId).getD "")) d) []

/-- plaintext_ballot_service.py:98-112 `_get_candidate_write_ins`; a selection of an unknown candidate is a `KeyError`. -/
def getCandidateWriteIns (m : Manifest) : R (List (String × Bool)) :=
  let candidates := m.candidates.foldl (fun d c => dset d c.objectId (c.isWriteIn == some true)) []
  m.contests.foldlM (fun d c => c.ballotSelections.foldlM (fun d s => do
    return dset d s.objectId (← dgetR candidates s.candidateId)) d) []

/-- plaintext_ballot_service.py:115-136 `_get_selections_report`: `percent` is `(0, 1)` if the tally is 0. -/
def getSelectionsReport (names parties : List (String × String)) (total : Nat) (ss : List PTSelection) :
    R (List ReportSelection) :=
  ss.mapM (fun s => do
    let name ← dgetR names s.objectId
    return ⟨name, s.tally, (dget parties s.objectId).getD "", if s.tally = 0 then (0, 1) else (s.tally, total)⟩)

/-- plaintext_ballot_service.py:46-77 `_get_contest_details`, with the name of the contest. -/
def getContestDetails (name : String) (names : List (String × String)) (writeIns : List (String × Bool))
    (parties : List (String × String)) (ss : List PTSelection) : R ReportContest := do
  let flagged ← ss.mapM (fun s => do return (s, ← dgetR writeIns s.objectId))
  let regular := (flagged.filter (fun e => !e.2)).map (·.1)
  let total := (regular.map (fun s => s.tally)).sum
  let report ← getSelectionsReport names parties total regular
  let written := (flagged.filter (fun e => e.2)).map (fun e => e.1.tally)
  return ⟨name, report, total, if written.length > 0 then some written.sum else none⟩

/-- plaintext_ballot_service.py:8-43 `get_plaintext_ballot_report` and `_get_tally_report`. -/
def getPlaintextBallotReport (m : Manifest) (pt : PlaintextTally) : R (List ReportContest) := do
  let names := m.getSelectionNames "en"
  let contestNames := m.getContestNames
  let writeIns ← getCandidateWriteIns m
  let parties ← getSelectionParties m
  pt.contests.mapM (fun e =>
    getContestDetails ((dget contestNames e.2.objectId).getD "n/a") names writeIns parties (e.2.selections.map (·.2)))

end EG
