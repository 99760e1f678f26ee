import Verif.Model.Tally
import Verif.Spec.ElGamal
import Verif.Spec.Validator

/-!
# Specification of the encrypted tally
-/

namespace EG

/-- The total held by a tally for a selection of a contest. -/
def Tally.total (t : Tally) (cid sid : String) : Option Ciphertext :=
  (dget t.contests cid).bind (fun tc => (dget tc.selections sid).map TallySelection.ciphertext)

/-- What the contests `cs` of a ballot hold for a selection of a contest: one ciphertext for every contest with the
id, taken from its first selection with the id. -/
def contribution (cs : List CContest) (cid sid : String) : List Ciphertext :=
  (cs.filter (fun c => c.objectId == cid)).filterMap (fun c =>
    (c.ballotSelections.find? (fun s => s.objectId == sid)).map CSelection.ciphertext)

/-- `c` is the component-wise product, modulo `p`, of the ciphertexts `l`. -/
def IsProduct (P : Params) (c : Ciphertext) (l : List Ciphertext) : Prop :=
  c.pad = (l.map Ciphertext.pad).prod % P.p ∧ c.data = (l.map Ciphertext.data).prod % P.p

/-- The conditions on an internal manifest for building a tally: contest ids are unique and every contest has a
selection. -/
structure TallyManifest (m : InternalManifest) : Prop where
  ids : (m.contests.map (fun d => d.objectId)).Nodup
  nonempty : ∀ d ∈ m.contests, d.ballotSelections ≠ []

/-- The dicts of the tally have distinct keys. -/
structure WFContests (tcs : List (String × TallyContest)) : Prop where
  keys : (dkeys tcs).Nodup
  sels : ∀ e ∈ tcs, (dkeys e.2.selections).Nodup

/-- The dicts of the tally are those of the manifest. -/
structure Shape (m : InternalManifest) (tcs : List (String × TallyContest)) : Prop where
  contests : ∀ d ∈ m.contests, ∃ tc, dget tcs d.objectId = some tc
  sels : ∀ cid tc, dget tcs cid = some tc → ∃ d ∈ m.contests, d.objectId = cid ∧
    ∀ k ∈ dkeys tc.selections, ∃ sd ∈ d.ballotSelections, sd.objectId = k

/-- No contest occurs twice on the ballot, every contest on it belongs to its style, and no real selection is
marked as placeholder.  Ballots made by `encrypt_ballot` are of this kind; the ballot validator does not check
it. -/
structure CBallot.Regular (b : CBallot) (m : InternalManifest) : Prop where
  ids : (b.contests.map (fun c => c.objectId)).Nodup
  style : ∀ c ∈ b.contests, ∃ d, m.StyleHas b.styleId d ∧ d.objectId = c.objectId
  flags : ∀ c ∈ b.contests, ∀ d ∈ m.contests, d.objectId = c.objectId → ∀ s ∈ c.ballotSelections,
    s.isPlaceholder = true → ∀ sd ∈ d.ballotSelections, sd.objectId ≠ s.objectId

/-- No two selections of the ballot have the same id, and a selection with the id of a selection of the manifest
is in the contest of that selection. -/
structure CBallot.Separate (b : CBallot) (m : InternalManifest) : Prop where
  ids : (b.contests.flatMap (fun c => c.ballotSelections.map (fun s => s.objectId))).Nodup
  contest : ∀ c ∈ b.contests, ∀ s ∈ c.ballotSelections, ∀ d ∈ m.contests, ∀ sd ∈ d.ballotSelections,
    sd.objectId = s.objectId → d.objectId = c.objectId

/-- Appending ballots one after the other: the accepted ballots and the tally. -/
def runAppends (E : Env) (m : InternalManifest) (ctx : Context) (up : Bool) (validate : Bool) :
    Tally → List SBallot → List SBallot × Tally
  | t, [] => ([], t)
  | t, b :: bs =>
    let r := t.append E m ctx up b validate
    let rest := runAppends E m ctx up validate r.2 bs
    (if r.1 = .ok true then b :: rest.1 else rest.1, rest.2)

/-- The ballots that are cast. -/
def castOf (bs : List SBallot) : List SBallot := bs.filter (fun b => decide (b.state = .cast))

end EG
