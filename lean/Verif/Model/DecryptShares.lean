import Verif.Model.Decryption
import Verif.Model.DiscreteLog

/-!
# decrypt_with_shares.py

`maxE` is the exponent limit of the discrete logarithm.
-/

namespace EG

/-- tally.py:25-37 `PlaintextTallySelection`. -/
structure PTSelection where
  objectId : String
  tally : Nat
  value : Nat
  message : Ciphertext
  shares : List DecSelection
  deriving DecidableEq, Repr

/-- tally.py:73-79 `PlaintextTallyContest`. -/
structure PTContest where
  objectId : String
  selections : List (String × PTSelection)
  deriving DecidableEq, Repr

/-- tally.py:171-177 `PlaintextTally`. -/
structure PlaintextTally where
  objectId : String
  contests : List (String × PTContest)
  deriving DecidableEq, Repr

/-- decrypt_with_shares.py:158-201 `decrypt_selection_with_decryption_shares`. -/
def decryptSelectionWithShares (E : Env) (maxE : Nat) (s : CtSelection)
    (shares : List (String × (Nat × DecSelection))) (baseHash : Nat) (suppress : Bool := false) :
    R (Option PTSelection) :=
  if suppress = false ∧ shares.all (fun e => e.2.2.isValid E s.ciphertext e.2.1 baseHash) = false then .ok none
  else do
    let product := multPs E.P (shares.map (fun e => e.2.2.share))
    let value ← divP E.P s.ciphertext.data product
    let tally ← dlog E.P maxE value
    return some ⟨s.objectId, tally, value, s.ciphertext, shares.map (fun e => e.2.2)⟩

/-- decrypt_with_shares.py:137-155: the loop over the selections. -/
def decryptSelectionsLoop (E : Env) (maxE : Nat) (shares : List (String × DecShare)) (baseHash : Nat)
    (descriptionIds : List String) (removePlaceholders : Bool) :
    List CtSelection → List (String × PTSelection) → R (Option (List (String × PTSelection)))
  | [], d => .ok (some d)
  | s :: ss, d =>
    if s.objectId ∉ descriptionIds ∧ removePlaceholders = true then
      decryptSelectionsLoop E maxE shares baseHash descriptionIds removePlaceholders ss d
    else do
      let p ← decryptSelectionWithShares E maxE s (getSharesForSelection s.objectId shares) baseHash
      match p with
      | none => return none
      | some p =>
        decryptSelectionsLoop E maxE shares baseHash descriptionIds removePlaceholders ss (dset d p.objectId p)

/-- decrypt_with_shares.py:117-155 `decrypt_contest_with_decryption_shares`. -/
def decryptContestWithShares (E : Env) (maxE : Nat) (c : CtContest) (shares : List (String × DecShare))
    (baseHash : Nat) (d : ContestDescription) (removePlaceholders : Bool) : R (Option PTContest) := do
  let r ← decryptSelectionsLoop E maxE shares baseHash (d.ballotSelections.map (fun s => s.objectId))
    removePlaceholders c.selections []
  return r.map (fun ss => ⟨c.objectId, ss⟩)

/-- decrypt_with_shares.py:45-47: the dict of the contest descriptions. -/
def contestDescriptions (m : Manifest) : List (String × ContestDescription) :=
  m.contests.foldl (fun d c => dset d c.objectId c) []

/-- decrypt_with_shares.py:49-68 and 93-111: the loop over the contests. -/
def decryptContestsLoop (E : Env) (maxE : Nat) (shares : List (String × DecShare)) (baseHash : Nat) (m : Manifest)
    (removePlaceholders : Bool) : List CtContest → List (String × PTContest) → R (Option (List (String × PTContest)))
  | [], d => .ok (some d)
  | c :: cs, d =>
    match dget (contestDescriptions m) c.objectId with
    | none => decryptContestsLoop E maxE shares baseHash m removePlaceholders cs d
    | some description => do
      let p ← decryptContestWithShares E maxE c shares baseHash description removePlaceholders
      match p with
      | none => return none
      | some p => decryptContestsLoop E maxE shares baseHash m removePlaceholders cs (dset d c.objectId p)

/-- decrypt_with_shares.py:29-70 `decrypt_tally`. -/
def decryptTally (E : Env) (maxE : Nat) (t : Tally) (shares : List (String × DecShare)) (baseHash : Nat)
    (m : Manifest) (removePlaceholders : Bool := true) : R (Option PlaintextTally) := do
  let r ← decryptContestsLoop E maxE shares baseHash m removePlaceholders t.toCts []
  return r.map (fun cs => ⟨t.objectId, cs⟩)

/-- decrypt_with_shares.py:73-114 `decrypt_ballot`. -/
def decryptBallotWithShares (E : Env) (maxE : Nat) (b : SBallot) (shares : List (String × DecShare)) (baseHash : Nat)
    (m : Manifest) (removePlaceholders : Bool := true) : R (Option PlaintextTally) := do
  let r ← decryptContestsLoop E maxE shares baseHash m removePlaceholders b.toCts []
  return r.map (fun cs => ⟨b.objectId, cs⟩)

end EG
