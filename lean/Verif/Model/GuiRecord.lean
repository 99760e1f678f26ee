import Verif.Model.GuiDecryption
import Verif.Model.Export

/-!
# electionguard_gui: the export of an election record

The record is that of `Model/Export`.  The archive and the choice of its location are left out.
-/

namespace EG

/-- election_service.py:44-69, 102-111: the parts of an election that `ElectionDoc` leaves out: the guardian records, the extended
data of the context, and the devices of the ballot uploads (election_dto.py:106-115 `get_encryption_devices`). -/
structure ElectionExtras where
  records : List GuardianRecord
  extendedData : Option (List (String × String))
  devices : List Device

/-- export_election_record_component.py:52-89 `export_election_record`; `decryption` is what the database has for the decryption id
(decryption_service.py:77-84 `get`).  decryption_dto.py:137-156: what a decryption that is not completed lacks raises `ValueError`.
The ballots are those that are in the database now. -/
def guiExportRecord (constants : Constants) (parse : List Char → Option SBallot) (net : Nat → Nat → Bool) (db : GuiDb)
    (decryption : Option GuiDecryption) (x : ElectionExtras) : R ElectionRecord :=
  match decryption with
  | none => .error .value
  | some d => do
    let election ← db.getElection d.electionId
    let ballots := db.getBallots parse net d.electionId
    match d.completed with
    | none => .error .value
    | some r =>
      .ok (exportRecord election.manifest election.context x.extendedData constants x.devices ballots
        (r.ballots.map (·.2)) r.ciphertextTally.publish r.tally (some x.records) r.lagrange)

end EG
