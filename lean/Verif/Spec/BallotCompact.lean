import Verif.Model.BallotCompact

/-!
# Vocabulary for compact ballots
-/

namespace EG

/-- The selections of a ballot, one after the other. -/
def PlaintextBallot.flat (b : PlaintextBallot) : List PlaintextSelection := b.contests.flatMap (fun c => c.ballotSelections)

/-- The ids of the contests of a ballot with the ids of their selections. -/
def PlaintextBallot.layout (b : PlaintextBallot) : List (String × List String) :=
  b.contests.map (fun c => (c.objectId, c.ballotSelections.map (fun s => s.objectId)))

/-- The ids of the contests of a manifest with the ids of their selections, all in sequence order. -/
def InternalManifest.layout (m : InternalManifest) : List (String × List String) :=
  (sequenceOrderSort (fun c : ContestWithPlaceholders => c.sequenceOrder) m.contests).map (fun c => (c.objectId,
    (sequenceOrderSort SelectionDescription.sequenceOrder c.ballotSelections).map (fun s => s.objectId)))

/-- The number of selections of a manifest. -/
def InternalManifest.size (m : InternalManifest) : Nat := (m.layout.map (fun e => e.2.length)).sum

/-- The votes of a ballot, one after the other. -/
def PlaintextBallot.votes (b : PlaintextBallot) : List Int := b.flat.map (fun s => s.vote)

/-- The write-in texts of a ballot, one after the other; an empty text counts as none. -/
def PlaintextBallot.texts (b : PlaintextBallot) : List (Option String) :=
  b.flat.map (fun s => s.writeIn.filter (fun t => decide (t ≠ "")))

/-- The submitted ballot without its encrypted contest data. -/
def SBallot.eraseData (b : SBallot) : SBallot :=
  { b with contests := b.contests.map (fun c => { c with extendedData := none }) }

end EG
