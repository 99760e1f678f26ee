import Verif.Model.Encrypt

/-!
# ballot_validator.py
-/

namespace EG

/-- ballot_validator.py:38-56 `selection_is_valid_for_style`. -/
def selectionIsValidForStyle (E : Env) (s : CSelection) (d : SelectionDescription) : Bool :=
  if s.descriptionHash ≠ d.cryptoHash E then false else true

/-- ballot_validator.py:59-87 `contest_is_valid_for_style`. -/
def contestIsValidForStyle (E : Env) (c : CContest) (d : ContestWithPlaceholders) : Bool :=
  if c.descriptionHash ≠ d.cryptoHash E then false
  else if c.ballotSelections.length ≠ d.ballotSelections.length + d.placeholders.length then false
  else true

/-- ballot_validator.py:118-133: the loop over the selection descriptions. -/
def selectionsLoop (E : Env) (ss : List CSelection) : List SelectionDescription → Bool
  | [] => true
  | d :: ds =>
    match ss.find? (fun s => d.objectId == s.objectId) with
    | none => false
    | some s => if selectionIsValidForStyle E s d = false then false else selectionsLoop E ss ds

/-- ballot_validator.py:101-135: the loop over the contest descriptions. -/
def contestsLoop (E : Env) (cs : List CContest) : List ContestWithPlaceholders → Bool
  | [] => true
  | d :: ds =>
    match cs.find? (fun c => d.objectId == c.objectId) with
    | none => false
    | some c =>
      if contestIsValidForStyle E c d = false then false
      else if selectionsLoop E c.ballotSelections d.ballotSelections = false then false
      else contestsLoop E cs ds

/-- ballot_validator.py:90-135 `ballot_is_valid_for_style`. -/
def ballotIsValidForStyle (E : Env) (b : CBallot) (m : InternalManifest) : R Bool := do
  let ds ← m.getContestsFor b.styleId
  return contestsLoop E b.contests ds

/-- ballot_validator.py:11-35 `ballot_is_valid_for_election`. -/
def ballotIsValidForElection (E : Env) (b : CBallot) (m : InternalManifest) (ctx : Context)
    (validate : Bool) : R Bool := do
  let ok ← ballotIsValidForStyle E b m
  if ok = false then return false
  else if validate then
    let ok ← b.isValidEncryption E m.manifestHash ctx.elgamalPublicKey ctx.cryptoExtendedBaseHash
    if ok = false then return false else return true
  else return true

end EG
