import Verif.Model.BallotBox

/-!
# ballot_compact.py
-/

namespace EG

/-- ballot_compact.py:27-35 `CompactPlaintextBallot`; `writeIns` is a dict. -/
structure CompactBallot where
  objectId : String
  styleId : String
  selections : List Bool
  writeIns : List (Nat × String)
  deriving DecidableEq, Repr

/-- ballot_compact.py:38-47 `CompactSubmittedBallot`. -/
structure CompactSubmitted where
  plaintext : CompactBallot
  timestamp : Int
  ballotNonce : Nat
  codeSeed : Nat
  code : Nat
  state : BallotBoxState
  deriving DecidableEq, Repr

/-- ballot_compact.py:123-128 `_get_compact_selections`. -/
def compactSelections (b : PlaintextBallot) : List Bool :=
  b.contests.foldl (fun acc c => c.ballotSelections.foldl (fun acc s => acc ++ [decide (s.vote = 1)]) acc) []

/-- ballot_compact.py:136-138: one selection of the loop of `_get_compact_write_ins`; a text that is `None` or empty
is falsy. -/
def compactWriteInStep (d : List (Nat × String) × Nat) (s : PlaintextSelection) : List (Nat × String) × Nat :=
  let index := d.2 + 1
  match s.writeIn with
  | none => (d.1, index)
  | some t => if t = "" then (d.1, index) else (dset d.1 index t, index)

/-- ballot_compact.py:131-139 `_get_compact_write_ins`. -/
def compactWriteIns (b : PlaintextBallot) : List (Nat × String) :=
  (b.contests.foldl (fun d c => c.ballotSelections.foldl compactWriteInStep d) ([], 0)).1

/-- ballot_compact.py:50-57 `compress_plaintext_ballot`. -/
def compressPlaintext (b : PlaintextBallot) : CompactBallot :=
  ⟨b.objectId, b.styleId, compactSelections b, compactWriteIns b⟩

/-- ballot_compact.py:60-73 `compress_submitted_ballot`. -/
def compressSubmitted (b : SBallot) (p : PlaintextBallot) (ballotNonce : Nat) : CompactSubmitted :=
  ⟨compressPlaintext p, b.timestamp, ballotNonce, b.codeSeed, b.code, b.state⟩

/-- ballot_compact.py:159-168: the loop over the selections of one contest; returns the selections and the new index.
Reading past the end of the list raises. -/
def expandSelections (cb : CompactBallot) (inStyle : Bool) :
    List SelectionDescription → Nat → List PlaintextSelection → R (List PlaintextSelection × Nat)
  | [], index, acc => .ok (acc, index)
  | d :: ds, index, acc =>
    match cb.selections[index]? with
    | none => .error .index
    | some v => expandSelections cb inStyle ds (index + 1)
        (acc ++ [⟨d.objectId, if v then 1 else 0, !inStyle, dget cb.writeIns index⟩])

/-- ballot_compact.py:152-171: the loop over the contests of the manifest. -/
def expandContests (cb : CompactBallot) (styleIds : List String) :
    List ContestWithPlaceholders → Nat → List PlaintextContest → R (List PlaintextContest)
  | [], _, acc => .ok acc
  | c :: cs, index, acc => do
    let r ← expandSelections cb (decide (c.objectId ∈ styleIds))
      (sequenceOrderSort SelectionDescription.sequenceOrder c.ballotSelections) index []
    expandContests cb styleIds cs r.2 (acc ++ [⟨c.objectId, r.1⟩])

/-- ballot_compact.py:142-171 `_get_plaintext_contests` and `_get_ballot_style_contests`; of the dict of the contests
of the style only the keys are used. -/
def plaintextContests (cb : CompactBallot) (m : InternalManifest) : R (List PlaintextContest) := do
  let ds ← m.getContestsFor cb.styleId
  expandContests cb (ds.map (fun c => c.objectId))
    (sequenceOrderSort (fun c : ContestWithPlaceholders => c.sequenceOrder) m.contests) 0 []

/-- ballot_compact.py:112-120 `expand_compact_plaintext_ballot`. -/
def expandPlaintext (cb : CompactBallot) (m : InternalManifest) : R PlaintextBallot := do
  let cs ← plaintextContests cb m
  return ⟨cb.objectId, cb.styleId, cs⟩

/-- ballot_compact.py:76-109 `expand_compact_submitted_ballot`.  The compact ballot carries a code and a timestamp, so
the clock is not used. -/
def expandSubmitted (E : Env) (json : ContestData → Bytes) (cb : CompactSubmitted) (m : InternalManifest)
    (ctx : Context) : R SBallot := do
  let b ← expandPlaintext cb.plaintext m
  let seed := nonceSeed E m.manifestHash cb.plaintext.objectId cb.ballotNonce
  let ds ← m.getContestsFor b.styleId
  let cs ← getOptional
    (← encryptContests E json b ctx.elgamalPublicKey ctx.cryptoExtendedBaseHash seed false ds)
  return makeSubmittedBallot E b.objectId b.styleId m.manifestHash (some cb.codeSeed) cs (some cb.code)
    (some cb.timestamp) cb.state 0

end EG
