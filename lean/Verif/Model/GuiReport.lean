import Verif.Model.GuiDecryption
import Verif.Model.Names

/-!
# electionguard_gui: the pages that show a tally and a spoiled ballot

The names of the election and of the decryption, which the pages show as well, are left out.
-/

namespace EG

/-- decryption_dto.py:114-116: the spoiled ballots that the page of a decryption lists. -/
def GuiDecryption.spoiledIds (d : GuiDecryption) : List String :=
  match d.completed with
  | none => []
  | some r => dkeys r.ballots

/-- view_tally_component.py:29-46 `get_tally`; `decryption` is what the database has for the decryption id.
decryption_dto.py:137-140: a decryption that is not completed has no tally. -/
def guiGetTally (db : GuiDb) (decryption : Option GuiDecryption) : R (String × List ReportContest) :=
  match decryption with
  | none => .error .value
  | some d => do
    let election ← db.getElection d.electionId
    match d.completed with
    | none => .error .value
    | some r => do
      let report ← getPlaintextBallotReport election.manifest r.tally
      return (d.electionId, report)

/-- view_spoiled_ballot_component.py:56-62 `get_spoiled_ballot_by_id`: the first with the id; without one, `next` raises
`StopIteration`. -/
def getSpoiledBallotById (ballots : List PlaintextTally) (id : String) : R PlaintextTally :=
  match ballots.filter (fun b => b.objectId == id) with
  | [] => .error .value
  | b :: _ => .ok b

/-- view_spoiled_ballot_component.py:29-53 `get_spoiled_ballot`.  decryption_dto.py:142-146: a decryption that is not completed has no
spoiled ballots. -/
def guiGetSpoiledBallot (db : GuiDb) (decryption : Option GuiDecryption) (id : String) : R (String × List ReportContest) :=
  match decryption with
  | none => .error .value
  | some d => do
    let election ← db.getElection d.electionId
    let ballots := match d.completed with
      | none => []
      | some r => r.ballots.map (·.2)
    let pt ← getSpoiledBallotById ballots id
    let report ← getPlaintextBallotReport election.manifest pt
    return (d.electionId, report)

end EG
