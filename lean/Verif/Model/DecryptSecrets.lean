import Verif.Model.Encrypt

/-!
# decrypt_with_secrets.py

`maxE` is the exponent limit of the discrete logarithm.
-/

namespace EG

/-- decrypt_with_secrets.py:26-59 `decrypt_selection_with_secret`. -/
def decryptSelectionWithSecret (E : Env) (maxE : Nat) (s : CSelection) (d : SelectionDescription)
    (key secret baseHash : Nat) (suppress : Bool) : R (Option PlaintextSelection) :=
  if suppress = false ∧ s.isValidEncryption E (d.cryptoHash E) key baseHash = false then .ok none
  else do
    let v ← s.ciphertext.decrypt E.P maxE secret
    return some ⟨s.objectId, (v : Int), s.isPlaceholder, none⟩

/-- decrypt_with_secrets.py:87-91: the nonce of a selection. -/
def selectionNonce (E : Env) (s : CSelection) (d : SelectionDescription) (seed : Option Nat) : R (Option Nat) :=
  match seed with
  | none => .ok s.nonce
  | some sd => do
    let n ← nonceAt E (d.cryptoHash E) [.elem sd] d.sequenceOrder
    return some n

/-- decrypt_with_secrets.py:62-114 `decrypt_selection_with_nonce`. -/
def decryptSelectionWithNonce (E : Env) (maxE : Nat) (s : CSelection) (d : SelectionDescription)
    (key baseHash : Nat) (seed : Option Nat) (suppress : Bool) : R (Option PlaintextSelection) :=
  if suppress = false ∧ s.isValidEncryption E (d.cryptoHash E) key baseHash = false then .ok none
  else do
    let nonce ← selectionNonce E s d seed
    match nonce with
    | none => return none
    | some n =>
      if s.nonce ≠ none ∧ s.nonce ≠ some n then return none
      else
        let v ← s.ciphertext.decryptKnownNonce E.P maxE key n
        return some ⟨s.objectId, (v : Int), s.isPlaceholder, none⟩

/-- decrypt_with_secrets.py:147-167 and 215-236: the loop over the selections, given how one selection is
decrypted. -/
def decryptSelections (d : ContestWithPlaceholders)
    (dec : CSelection → SelectionDescription → R (Option PlaintextSelection)) (removePlaceholders : Bool) :
    List CSelection → List PlaintextSelection → R (Option (List PlaintextSelection))
  | [], acc => .ok (some acc)
  | s :: ss, acc => do
    let sd ← getOptional (d.selectionFor s.objectId)
    let p ← dec s sd
    match p with
    | none => return none
    | some p =>
      if removePlaceholders = false ∨ p.isPlaceholder = false then
        decryptSelections d dec removePlaceholders ss (acc ++ [p])
      else decryptSelections d dec removePlaceholders ss acc

/-- decrypt_with_secrets.py:117-167 `decrypt_contest_with_secret`. -/
def decryptContestWithSecret (E : Env) (maxE : Nat) (c : CContest) (d : ContestWithPlaceholders)
    (key secret baseHash : Nat) (suppress removePlaceholders : Bool) : R (Option PlaintextContest) := do
  let ok ← if suppress then pure true else c.isValidEncryption E (d.cryptoHash E) key baseHash
  if ok = false then return none
  else
    let ps ← decryptSelections d
      (fun s sd => decryptSelectionWithSecret E maxE s sd key secret baseHash suppress) removePlaceholders
      c.ballotSelections []
    return ps.map (fun ps => ⟨c.objectId, ps⟩)

/-- decrypt_with_secrets.py:196-201: the nonce of a contest. -/
def contestNonceFor (E : Env) (c : CContest) (d : ContestWithPlaceholders) (seed : Option Nat) :
    R (Option Nat) :=
  match seed with
  | none => .ok c.nonce
  | some sd => do
    let n ← nonceAt E (d.cryptoHash E) [.elem sd] d.sequenceOrder
    return some n

/-- decrypt_with_secrets.py:170-238 `decrypt_contest_with_nonce`. -/
def decryptContestWithNonce (E : Env) (maxE : Nat) (c : CContest) (d : ContestWithPlaceholders)
    (key baseHash : Nat) (seed : Option Nat) (suppress removePlaceholders : Bool) :
    R (Option PlaintextContest) := do
  let ok ← if suppress then pure true else c.isValidEncryption E (d.cryptoHash E) key baseHash
  if ok = false then return none
  else
    let nonce ← contestNonceFor E c d seed
    match nonce with
    | none => return none
    | some n =>
      if c.nonce ≠ none ∧ c.nonce ≠ some n then return none
      else
        let ps ← decryptSelections d
          (fun s sd => decryptSelectionWithNonce E maxE s sd key baseHash (some n) suppress) removePlaceholders
          c.ballotSelections []
        return ps.map (fun ps => ⟨c.objectId, ps⟩)

/-- decrypt_with_secrets.py:268-288 and 331-351: the loop over the contests. -/
def decryptContests (m : InternalManifest)
    (dec : CContest → ContestWithPlaceholders → R (Option PlaintextContest)) :
    List CContest → R (Option (List PlaintextContest))
  | [] => .ok (some [])
  | c :: cs => do
    let d ← getOptional (m.contestFor c.objectId)
    let p ← dec c d
    match p with
    | none => return none
    | some p =>
      let rest ← decryptContests m dec cs
      match rest with
      | none => return none
      | some ps => return some (p :: ps)

/-- decrypt_with_secrets.py:241-288 `decrypt_ballot_with_secret`. -/
def decryptBallotWithSecret (E : Env) (maxE : Nat) (b : CBallot) (m : InternalManifest)
    (baseHash key secret : Nat) (suppress removePlaceholders : Bool) : R (Option PlaintextBallot) := do
  let ok ← if suppress then pure true else b.isValidEncryption E m.manifestHash key baseHash
  if ok = false then return none
  else
    let cs ← decryptContests m
      (fun c d => decryptContestWithSecret E maxE c d key secret baseHash suppress removePlaceholders) b.contests
    return cs.map (fun cs => ⟨b.objectId, b.styleId, cs⟩)

/-- decrypt_with_secrets.py:291-353 `decrypt_ballot_with_nonce`. -/
def decryptBallotWithNonce (E : Env) (maxE : Nat) (b : CBallot) (m : InternalManifest)
    (baseHash key : Nat) (nonce : Option Nat) (suppress removePlaceholders : Bool) :
    R (Option PlaintextBallot) := do
  let ok ← if suppress then pure true else b.isValidEncryption E m.manifestHash key baseHash
  if ok = false then return none
  else
    let seed := match nonce with
      | none => b.hashedBallotNonce E
      | some n => some (nonceSeed E m.manifestHash b.objectId n)
    match seed with
    | none => return none
    | some sd =>
      let cs ← decryptContests m
        (fun c d => decryptContestWithNonce E maxE c d key baseHash (some sd) suppress removePlaceholders)
        b.contests
      return cs.map (fun cs => ⟨b.objectId, b.styleId, cs⟩)

end EG
