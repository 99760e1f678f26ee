import Verif.Model.GuiDecryption
import Verif.Spec.Decryption
import Verif.Spec.GuiBallots
import Verif.Spec.Hash

/-!
# Vocabulary for the decryption in the GUI
-/

namespace EG

/-- The guardians of an election: distinct ids, keys that belong to their secrets, the guardian records of the election are
theirs, and the election key is their joint key. -/
structure ElectionTeam (P : Params) (e : ElectionDoc) (team : List Guardian) : Prop where
  ids : (team.map (fun g => g.id)).Nodup
  keys : ∀ g ∈ team, g.electionKeys.keyPair.pub = P.g ^ g.electionKeys.keyPair.secret % P.p
  records : e.guardianRecords = team.map (fun g => (g.id, g.electionKeys.sequenceOrder))
  joint : e.context.elgamalPublicKey = combinePublicKeys P (team.map (fun g => g.electionKeys.keyPair.pub))
  count : e.context.numberOfGuardians = team.length
  hash : e.context.cryptoExtendedBaseHash < P.q

/-- A guardian logs in with its own id, and its private file holds its own keys. -/
def OwnFiles (guardianOf : String → Option Guardian) (team : List Guardian) : Prop :=
  ∀ user g, guardianOf user = some g → g ∈ team ∧ g.id = user

/-- The texts that are hashed when the proofs of a share are checked against encrypted contests. -/
def proofTexts (E : Env) (baseHash : Nat) (sh : DecShare) (cs : List CtContest) : List (List Char) :=
  (ctSelections cs).flatMap (fun s => sh.allSelections.filterMap (fun x =>
    if x.objectId = s.objectId then
      x.proof.map (fun pf => hashText E (cpHashArgs baseHash s.ciphertext pf.a pf.b x.share))
    else none))

/-- The texts hashed for the tally shares that guardians made: when they were made, and when they are checked against the
tally of the administrator. -/
def joinTexts (E : Env) (baseHash : Nat) (made : List (JoinedShare × Tally)) (t : Tally) : List (List Char) :=
  made.flatMap (fun e => proofTexts E baseHash e.1.tallyShare e.2.toCts ++ proofTexts E baseHash e.1.tallyShare t.toCts)

/-- The ballots are stored for the election. -/
def GuiDb.Stores (parse : List Char → Option SBallot) (db : GuiDb) (eid : String) (bs : List SBallot) : Prop :=
  ∀ b ∈ bs, ∃ d ∈ db.docsOf eid, parse d.contents = some b

/-- Guardians join one after the other; each with the answers of the database and with its random numbers. -/
def joinAll (E : Env) (parse : List Char → Option SBallot) (db : GuiDb) (guardianOf : String → Option Guardian)
    (joins : List (String × (Nat → Nat → Bool) × JoinSeeds)) (d : GuiDecryption) : R GuiDecryption :=
  joins.foldlM (fun d j => s1Join E parse j.2.1 db d j.1 (guardianOf j.1) j.2.2) d

end EG
