import Verif.Model.GuiLists

/-!
# Vocabulary for the lists of the GUI
-/

namespace EG

/-- The decryptions of an election in the database: ids and names. -/
def decryptionsIn (db : ListsDb) (electionId : String) : List (String × String) :=
  (db.decryptions.filter (fun d => d.2.doc.electionId == electionId)).map (fun d => (d.1, d.2.name))

/-- No two documents of a collection have the same name. -/
structure DistinctNames (db : ListsDb) : Prop where
  ceremonies : (db.ceremonies.map (fun c => c.2.name)).Nodup
  elections : (db.elections.map (fun e => e.2.name)).Nodup
  decryptions : (db.decryptions.map (fun d => d.2.name)).Nodup

/-- The call of no front end is on its way. -/
def ListsState.Quiet (s : ListsState) : Prop := ∀ client p, dget s.calls client = some p → ∃ a, p = .done a

/-- What happens when calls do not overlap: a whole call, or other work. -/
inductive WholeEvent where
  | call (newId : String) (c : Call)
  | work (w : Work)

/-- A whole call or other work. -/
def ListsDb.whole (db : ListsDb) : WholeEvent → ListsDb
  | .call newId c => (db.run newId c).1
  | .work w => db.work w

/-- All of them. -/
def ListsDb.wholes (db : ListsDb) (es : List WholeEvent) : ListsDb := es.foldl ListsDb.whole db

/-- The database after a sequence of calls that do not overlap, in which every decryption gets the name that the GUI suggests for it at
that time. -/
inductive Suggesting : ListsDb → Prop where
  | start : Suggesting .empty
  | ceremony {db} (h : Suggesting db) (newId name : String) (guardianCount quorum : Int) :
      Suggesting (db.run newId (.ceremony name guardianCount quorum)).1
  | election {db} (h : Suggesting db) (newId kc name : String) (build : KCDoc → R (Int × Int)) :
      Suggesting (db.run newId (.election kc name build)).1
  | decryption {db} (h : Suggesting db) (newId electionId name : String) (hn : db.suggest electionId = .ok name) :
      Suggesting (db.run newId (.decryption electionId name)).1
  | work {db} (h : Suggesting db) (w : Work) : Suggesting (db.work w)

end EG
