import Verif.Model.UploadWizard
import Verif.Spec.GuiBallots

/-!
# Vocabulary for the upload wizard
-/

namespace EG

/-- A file with a ballot that carries this manifest hash. -/
def BallotFor (parse : List Char → Option SBallot) (hash : Nat) (file : String × List Char) : Prop :=
  ∃ b, parse file.2 = some b ∧ b.manifestHash = hash

/-- The same as a test. -/
def isBallotFor (parse : List Char → Option SBallot) (hash : Nat) (file : String × List Char) : Bool :=
  match parse file.2 with
  | some b => b.manifestHash == hash
  | none => false

theorem isBallotFor_iff (parse : List Char → Option SBallot) (hash : Nat) (file : String × List Char) :
    isBallotFor parse hash file = true ↔ BallotFor parse hash file := by
  unfold isBallotFor BallotFor
  cases parse file.2 <;> simp

/-- The files before the first that is not a ballot of the election. -/
def goodFiles (parse : List Char → Option SBallot) (hash : Nat) (files : List (String × List Char)) : List (String × List Char) :=
  files.takeWhile (isBallotFor parse hash)

/-- The text of the first file with the ballot of this id. -/
def firstText (parse : List Char → Option SBallot) (files : List (String × List Char)) (objectId : String) : Option (List Char) :=
  (files.find? (fun f => match parse f.2 with
    | some b => b.objectId == objectId
    | none => false)).map (fun f => f.2)

/-- No two different texts among the files are ballots with the same id. -/
def OneTextEach (parse : List Char → Option SBallot) (files : List (String × List Char)) : Prop :=
  ∀ f ∈ files, ∀ g ∈ files, ∀ b b', parse f.2 = some b → parse g.2 = some b' → b.objectId = b'.objectId → f.2 = g.2

/-- The election holds this ballot: under its id, with this text. -/
def GuiDb.Has (db : GuiDb) (electionId objectId : String) (contents : List Char) : Prop :=
  ∃ d ∈ db.ballots, d.electionId = electionId ∧ d.objectId = objectId ∧ d.contents = contents

/-- A drive with both directories is under the letter. -/
def HasBallots (plugged : Char → Option Drive) (c : Char) : Prop :=
  'D' ≤ c ∧ c ≤ 'Z' ∧ ∃ d, plugged c = some d ∧ d.ballots.isSome = true ∧ d.devices.isSome = true

/-- Its (first) device file can be read. -/
def DeviceReadable (location : List Char → Option String) (plugged : Char → Option Drive) (c : Char) : Prop :=
  ∃ d f fs l, plugged c = some d ∧ d.devices = some (f :: fs) ∧ location f.2 = some l

/-- Runs of the wizard, one after the other, each with what is plugged in and the id that the database gives. -/
def GuiDb.wizardRuns (parse : List Char → Option SBallot) (location : List Char → Option String) (fields : List Char → Bool) (db : GuiDb)
    (electionId : String) (runs : List ((Char → Option Drive) × String)) : GuiDb :=
  runs.foldl (fun db r => (db.uploadWizard parse location fields r.1 electionId r.2).2) db

/-- The files of a run that are read as ballots of the election. -/
def wizardFiles (parse : List Char → Option SBallot) (location : List Char → Option String) (fields : List Char → Bool) (hash : Nat)
    (plugged : Char → Option Drive) : List (String × List Char) :=
  match scanDrives location plugged with
  | .ok (some i) => if fields i.deviceFile = true then goodFiles parse hash i.ballotFiles else []
  | _ => []

end EG
