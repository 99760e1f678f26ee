import Verif.Spec.SerializeShares
import Verif.Model.GuiText

/-!
# The texts of a decryption, and what they stand for
-/

namespace EG

/-- The texts that the database holds for a decryption. -/
def GuiDecryption.toText (d : GuiDecryption) : TextDecryption :=
  ⟨d.electionId, d.guardians, d.joined, d.shares.map JoinedShare.toDoc, d.completed.map GuiResult.toDoc⟩

/-- The texts that the database holds, and what the users have in hand. -/
def GuiWorld.toText (w : GuiWorld) : TextWorld := ⟨w.db, w.dec.toText, w.made, w.reads.map GuiDecryption.toText, w.results⟩

/-- The texts of an election are those of `e` and `x`. -/
structure ElectionTexts.Of (P : Params) (t : ElectionTexts) (e : ElectionDoc) (x : ElectionExtras) (allow : Bool) (votes : Int) : Prop where
  manifest : fromRaw Manifest.ofJson t.manifest = .ok e.manifest
  context : fromRaw (ContextFile.ofJson P) t.context = .ok ⟨e.context, x.extendedData, allow, votes⟩
  records : fromListRaw (GuardianRecord.ofJson P) t.records = .ok x.records
  devices : t.devices = x.devices

/-- Guardians join one after the other, and the database keeps texts; see `joinAll`. -/
def joinAllText (E : Env) (parse : List Char → Option SBallot) (db : GuiDb) (guardianOf : String → Option Guardian)
    (joins : List (String × (Nat → Nat → Bool) × JoinSeeds)) (d : TextDecryption) : R TextDecryption :=
  joins.foldlM (fun d j => s1JoinText E parse j.2.1 db d j.1 (guardianOf j.1) j.2.2) d

/-- Elements and dicts of a record. -/
structure ElectionRecord.Typed (P : Params) (r : ElectionRecord) : Prop where
  manifest : r.manifest.Typed
  parties : ∀ c ∈ r.manifest.contests, c.primaryPartyIds = none
  context : r.context.Typed P
  extendedData : ∀ d ∈ r.extendedData, Keys d
  coefficients : Keys r.coefficients ∧ ∀ e ∈ r.coefficients, e.2 < P.q
  guardians : ∀ e ∈ r.guardians, e.2.Typed P
  submitted : ∀ e ∈ r.submittedBallots, e.2.toCBallot.Typed P
  spoiled : ∀ e ∈ r.spoiledBallots, e.2.Typed P
  encryptedTally : r.encryptedTally.Typed P
  tally : r.tally.Typed P

end EG
