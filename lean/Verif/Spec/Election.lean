import Verif.Spec.Encrypt
import Verif.Spec.Manifest
import Verif.Spec.Validator
import Verif.Spec.Decryption

/-!
# Vocabulary for a whole election
-/

namespace EG

/-- What happens with one ballot: the plaintext ballot, the arguments of its encryption, the encrypted ballot, and whether
it is cast or spoiled. -/
structure VotedBallot where
  plain : PlaintextBallot
  codeSeed : Nat
  nonce : Nat
  now : Int
  verify : Bool
  enc : CBallot
  state : BallotBoxState

/-- The encrypted ballot is what `encrypt_ballot` returned. -/
def VotedBallot.Encrypted (E : Env) (json : ContestData → Bytes) (im : InternalManifest) (ctx : Context)
    (v : VotedBallot) : Prop :=
  encryptBallot E json v.plain im ctx v.codeSeed v.nonce v.now v.verify = .ok (some v.enc)

/-- The first ballot with each id: a second ballot with the same id is refused. -/
def firsts : List VotedBallot → List VotedBallot
  | [] => []
  | v :: vs => v :: (firsts vs).filter (fun w => decide (w.plain.objectId ≠ v.plain.objectId))

/-- The ballots that count: cast, and the first with their id. -/
def counted (vs : List VotedBallot) : List VotedBallot := (firsts vs).filter (fun v => decide (v.state = .cast))

/-- Whether contest `d` is on ballots of style `sid`. -/
def InternalManifest.onStyle (m : InternalManifest) (sid : String) (d : ContestWithPlaceholders) : Bool :=
  match m.ballotStyles.find? (fun s => s.objectId == sid) with
  | none => false
  | some s => match s.geopoliticalUnitIds with
    | none => false
    | some us => decide (d.electoralDistrictId ∈ us)

/-- The votes of a plaintext ballot for selection `sid` of contest `d`: the voter's mark if the contest is on the ballot and
not overvoted. -/
def PlaintextBallot.votesFor (b : PlaintextBallot) (m : InternalManifest) (d : ContestWithPlaceholders) (sid : String) :
    Nat :=
  if m.onStyle b.styleId d then (b.voted d.toContestDescription).effective d sid else 0

/-- The result of the election for a selection: the votes on the ballots that count. -/
def electionResult (m : InternalManifest) (vs : List VotedBallot) (d : ContestWithPlaceholders) (sid : String) : Nat :=
  ((counted vs).map (fun v => v.plain.votesFor m d sid)).sum

/-- The ids of selections and placeholders are distinct across all contests. -/
def InternalManifest.DistinctSelections (m : InternalManifest) : Prop :=
  (m.contests.flatMap (fun d => (d.ballotSelections ++ d.placeholders).map SelectionDescription.objectId)).Nodup

end EG
