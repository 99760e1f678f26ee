import Verif.Model.Cli
import Verif.Spec.Election
import Verif.Spec.Decryption
import Verif.Spec.Names

/-!
# Vocabulary for the commands of the CLI
-/

namespace EG

/-- The tally reports, for every selection of the manifest and for nothing else, the votes on the given ballots. -/
def PlaintextTally.Counts (pt : PlaintextTally) (im : InternalManifest) (ballots : List PlaintextBallot) : Prop :=
  ∀ cid sid n, pt.Reports cid sid n ↔ ∃ d ∈ im.contests, d.objectId = cid ∧
    sid ∈ d.ballotSelections.map SelectionDescription.objectId ∧ n = (ballots.map (fun b => b.votesFor im d sid)).sum

/-- The decryption of a ballot reports, for every selection of the contests on the ballot and for nothing else, the voter's vote. -/
def PlaintextTally.Opens (pt : PlaintextTally) (im : InternalManifest) (b : PlaintextBallot) : Prop :=
  pt.objectId = b.objectId ∧
  ∀ cid sid n, pt.Reports cid sid n ↔ ∃ d ∈ im.contests, d.objectId = cid ∧ im.onStyle b.styleId d = true ∧
    sid ∈ d.ballotSelections.map SelectionDescription.objectId ∧ n = b.votesFor im d sid

/-- What the results of an election must be, given the ballots that were cast and those that were spoiled. -/
structure DecryptResults.Right (r : DecryptResults) (im : InternalManifest) (cast spoiled : List PlaintextBallot) : Prop where
  tally : r.tally.Counts im cast
  spoiled : List.Forall₂ (fun (b : PlaintextBallot) (e : String × PlaintextTally) => e.1 = b.objectId ∧ e.2.Opens im b)
    spoiled r.spoiled

/-- What must be printed for some results. -/
def DecryptResults.Printed (r : DecryptResults) (m : Manifest) (out : List PrintedContest × List (String × List PrintedContest)) :
    Prop :=
  m.Prints r.tally out.1 ∧
  List.Forall₂ (fun (e : String × PlaintextTally) (p : String × List PrintedContest) => p.1 = e.1 ∧ m.Prints e.2 p.2)
    r.spoiled out.2

/-- The ballots that `e2e` casts: all but the one to spoil. -/
def castIn (spoilId : Option String) (ballots : List PlaintextBallot) : List PlaintextBallot :=
  ballots.filter (fun b => decide (some b.objectId ≠ spoilId))

/-- The ballot that `e2e` spoils. -/
def spoiledIn (spoilId : Option String) (ballots : List PlaintextBallot) : List PlaintextBallot :=
  ballots.filter (fun b => decide (some b.objectId = spoilId))

/-- The files of a directory. -/
def Dir.files (d : Dir) : List CliFile := List.map (fun e => e.2) d

/-- The id of the ballot in a file. -/
def CliFile.ballotId : CliFile → Option String
  | .encrypted b => some b.objectId
  | .submitted b => some b.objectId
  | _ => none

/-- The encrypted ballot in a file, whether it was submitted or not. -/
def CliFile.ballot : CliFile → Option CBallot
  | .encrypted b => some b
  | .submitted b => some b.toCBallot
  | _ => none

/-- A file, or the file of the same ballot after it was cast or spoiled. -/
def CliFile.SameBallot (E : Env) (f f' : CliFile) : Prop :=
  f = f' ∨ ∃ b st, f' = .encrypted b ∧ f = .submitted (submitBallot E b st)

/-- The guardian that a file belongs to. -/
def CliFile.owner : CliFile → Option String
  | .key r => some r.electionKeys.ownerId
  | _ => none

/-- The ballots that have a file among the given ones. -/
def ballotsIn (files : List CliFile) (ballots : List PlaintextBallot) : List PlaintextBallot :=
  ballots.filter (fun b => decide (some b.objectId ∈ files.map CliFile.ballotId))

/-- A submission that is accepted: the ballot is valid, and no ballot with the same id was accepted before it. -/
def AcceptedFirst (valid : CBallot → Prop) (subs : List (CBallot × BallotBoxState)) (b : CBallot) (st : BallotBoxState) : Prop :=
  ∃ before after, subs = before ++ (b, st) :: after ∧ valid b ∧ ∀ o ∈ before, o.1.objectId = b.objectId → ¬ valid o.1

end EG
