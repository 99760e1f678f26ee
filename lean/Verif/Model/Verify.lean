import Verif.Model.DecryptShares

/-!
# electionguard_verify/verify.py

A `Verification` is modelled by its flag `verified`; the messages are left out.
-/

namespace EG

/-- Python's equality of two sets, kept as lists without repetitions: same size, and one contained in the other. -/
def setEq (a b : List String) : Bool := a.length == b.length && a.all (fun x => decide (x ∈ b))

/-- Python's equality of two dicts: same size, and every key of one is in the other with an equal value. -/
def dictEq {β : Type} (eq : β → β → Bool) (a b : List (String × β)) : Bool :=
  a.length == b.length && a.all (fun e => match dget b e.1 with
    | none => false
    | some v => eq e.2 v)

/-- tally.py:40-71: the equality that `@dataclass` makes for `CiphertextTallySelection`, with elgamal.py:52-55. -/
def TallySelection.eq (a b : TallySelection) : Bool :=
  a.objectId == b.objectId && a.sequenceOrder == b.sequenceOrder && a.descriptionHash == b.descriptionHash &&
    (a.ciphertext.pad == b.ciphertext.pad && a.ciphertext.data == b.ciphertext.data)

/-- tally.py:82-97: the equality that `@dataclass` makes for `CiphertextTallyContest`. -/
def TallyContest.eq (a b : TallyContest) : Bool :=
  a.objectId == b.objectId && a.sequenceOrder == b.sequenceOrder && a.descriptionHash == b.descriptionHash &&
    dictEq TallySelection.eq a.selections b.selections

/-- verify.py:26-45 `verify_ballot`. -/
def verifyBallot (E : Env) (b : CBallot) (m : Manifest) (ctx : Context) : R Bool := do
  let valid ← b.isValidEncryption E (m.cryptoHash E) ctx.elgamalPublicKey ctx.cryptoExtendedBaseHash
  if valid = false then return false else return true

/-- A loop that returns `False` at the first item that fails, and `True` at its end. -/
def verifyLoop {α : Type} (f : α → R Bool) : List α → R Bool
  | [] => .ok true
  | a :: l => do
    let r ← f a
    if r = false then return false else verifyLoop f l

/-- verify.py:56-62: the check of one share.  `election_public_keys.get(..)` is `None` for an unknown guardian, and
`share.proof` is `None` for a reconstructed share; using an attribute of `None` raises `AttributeError`. -/
def verifyShare (E : Env) (keys : List (String × ElectionPublicKey)) (baseHash : Nat) (message : Ciphertext)
    (s : DecSelection) : R Bool :=
  match dget keys s.guardianId with
  | none => .error .attribute
  | some k =>
    match s.proof with
    | none => .error .attribute
    | some pf => .ok (pf.isValid E message k.key s.share baseHash)

/-- verify.py:48-68 `verify_decryption`. -/
def verifyDecryption (E : Env) (pt : PlaintextTally) (keys : List (String × ElectionPublicKey)) (ctx : Context) :
    R Bool :=
  verifyLoop (fun c : String × PTContest => verifyLoop (fun s : String × PTSelection =>
    verifyLoop (verifyShare E keys ctx.cryptoExtendedBaseHash s.2.message) s.2.shares) c.2.selections) pt.contests

/-- verify.py:79-80: the ballots are appended; results are ignored, an exception ends the call. -/
def appendAll (E : Env) (m : InternalManifest) (ctx : Context) (up : Bool) : List SBallot → Tally → R Tally
  | [], t => .ok t
  | b :: bs, t =>
    match t.append E m ctx up b true with
    | (.error e, _) => .error e
    | (.ok _, t') => appendAll E m ctx up bs t'

/-- verify.py:71-93 `verify_aggregation`. -/
def verifyAggregation (E : Env) (up : Bool) (bs : List SBallot) (t : Tally) (m : Manifest) (ctx : Context) :
    R Bool := do
  let im ← mkInternalManifest E m
  let new ← appendAll E im ctx up bs (newTally E "verify" im)
  if setEq new.castIds t.castIds && setEq new.spoiledIds t.spoiledIds &&
      dictEq TallyContest.eq new.contests t.contests then return true
  else return false

end EG
