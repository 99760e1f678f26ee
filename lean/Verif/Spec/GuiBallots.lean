import Verif.Model.GuiBallots

/-!
# Vocabulary for the ballot uploads of the GUI
-/

namespace EG

/-- A call of the upload component. -/
inductive UploadOp where
  | create (electionId newId : String) (device : Bool)
  | upload (uploadId electionId fileName : String) (contents : List Char)

/-- The database after a call. -/
def GuiDb.step (parse : List Char → Option SBallot) (db : GuiDb) : UploadOp → GuiDb
  | .create electionId newId device => (db.createUpload electionId newId device).2
  | .upload uploadId electionId fileName contents => (db.uploadBallot parse uploadId electionId fileName contents).2

/-- The database after a sequence of calls. -/
def GuiDb.run (parse : List Char → Option SBallot) (db : GuiDb) (ops : List UploadOp) : GuiDb := ops.foldl (GuiDb.step parse) db

/-- The documents of one election. -/
def GuiDb.docsOf (db : GuiDb) (electionId : String) : List BallotDoc :=
  db.ballots.filter (fun d => d.electionId == electionId)

/-- No election holds two ballots with the same id. -/
def GuiDb.DistinctBallots (db : GuiDb) : Prop := (db.ballots.map (fun d => (d.electionId, d.objectId))).Nodup

/-- A document holds a ballot, under its id, for an election whose manifest hash the ballot carries. -/
def GuiDb.Holds (parse : List Char → Option SBallot) (db : GuiDb) (d : BallotDoc) : Prop :=
  ∃ b e, parse d.contents = some b ∧ b.objectId = d.objectId ∧ dget db.elections d.electionId = some e ∧
    e.context.manifestHash = b.manifestHash

/-- A call as the front end makes it: a new upload has an id that was not used before, and ballots go to an upload that
was created for the election. -/
def UploadOp.Proper (db : GuiDb) : UploadOp → Prop
  | .create electionId newId _ => (∀ e, dget db.elections electionId = some e → ∀ u ∈ e.uploads, u.uploadId ≠ newId) ∧
      ∀ d ∈ db.ballots, d.uploadId ≠ newId
  | .upload uploadId electionId _ _ => ∀ e, dget db.elections electionId = some e → ∃ u ∈ e.uploads, u.uploadId = uploadId

/-- All calls of a sequence are made so. -/
def ProperRun (parse : List Char → Option SBallot) : GuiDb → List UploadOp → Prop
  | _, [] => True
  | db, op :: ops => op.Proper db ∧ ProperRun parse (db.step parse op) ops

/-- The counters of the uploads of the election are right: each upload is listed once, counts its ballots, and every
ballot of the election belongs to a listed upload. -/
structure GuiDb.CountsRight (db : GuiDb) (electionId : String) (e : ElectionDoc) : Prop where
  distinct : (e.uploads.map (fun u => u.uploadId)).Nodup
  count : ∀ u ∈ e.uploads, u.ballotCount = ((db.docsOf electionId).filter (fun d => d.uploadId == u.uploadId)).length
  listed : ∀ d ∈ db.docsOf electionId, ∃ u ∈ e.uploads, u.uploadId = d.uploadId

end EG
