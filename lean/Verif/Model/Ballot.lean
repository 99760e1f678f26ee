import Verif.Model.ChaumPedersen
import Verif.Model.HashedElGamal
import Verif.Model.Manifest

/-!
# ballot.py and ballot_code.py

Warnings are not modelled.  The clock is a parameter (`now`).  The Python classes of the contest exceptions are
`ContestError`; they are always caught by the code that uses them, so `valid` returns an optional error.
-/

namespace EG

/-- ballot.py:50-75 `PlaintextBallotSelection`. -/
structure PlaintextSelection where
  objectId : String
  vote : Int
  isPlaceholder : Bool := false
  writeIn : Option String := none
  deriving DecidableEq, Repr

/-- ballot.py:76-93 `PlaintextBallotSelection.is_valid`. -/
def PlaintextSelection.isValid (s : PlaintextSelection) (expectedId : String) : Bool :=
  if s.objectId ≠ expectedId then false
  else if s.vote < 0 ∨ s.vote > 1 then false
  else true

/-- ballot.py:123-170 `CiphertextBallotSelection`. -/
structure CSelection where
  objectId : String
  sequenceOrder : Int
  descriptionHash : Nat
  ciphertext : Ciphertext
  cryptoHash : Nat
  isPlaceholder : Bool
  nonce : Option Nat
  proof : Option DisjProof
  deriving DecidableEq, Repr

/-- ballot.py:233-236 `_ciphertext_ballot_selection_crypto_hash_with`.  The third argument is
`ciphertext.crypto_hash()`, an element. -/
def selectionCryptoHash (E : Env) (objectId : String) (seed : Nat) (c : Ciphertext) : Nat :=
  hashElems E [.str objectId, .elem seed, .elem (c.cryptoHash E)]

/-- ballot.py:217-230 `CiphertextBallotSelection.crypto_hash_with`. -/
def CSelection.cryptoHashWith (E : Env) (s : CSelection) (seed : Nat) : Nat :=
  selectionCryptoHash E s.objectId seed s.ciphertext

/-- ballot.py:172-215 `CiphertextBallotSelection.is_valid_encryption`. -/
def CSelection.isValidEncryption (E : Env) (s : CSelection) (seed key baseHash : Nat) : Bool :=
  if seed ≠ s.descriptionHash then false
  else if s.cryptoHash ≠ s.cryptoHashWith E seed then false
  else match s.proof with
    | none => false
    | some pf => pf.isValid E s.ciphertext key baseHash

/-- ballot.py:239-286 `make_ciphertext_ballot_selection`. -/
def makeSelection (E : Env) (objectId : String) (sequenceOrder : Int) (descriptionHash : Nat)
    (ciphertext : Ciphertext) (key baseHash proofSeed : Nat) (vote : Int) (isPlaceholder : Bool)
    (nonce : Option Nat) (cryptoHash : Option Nat := none) (proof : Option DisjProof := none) :
    R CSelection := do
  let h := match cryptoHash with
    | none => selectionCryptoHash E objectId descriptionHash ciphertext
    | some h => h
  let pf ← match proof with
    | some pf => pure (some pf)
    | none =>
      match nonce with
      | none => pure none
      | some n => do
        let pf ← makeDisj E ciphertext n key baseHash proofSeed vote
        pure (some pf)
  return ⟨objectId, sequenceOrder, descriptionHash, ciphertext, h, isPlaceholder, nonce, pf⟩

/-- ballot.py:289-309 `PlaintextBallotContest`. -/
structure PlaintextContest where
  objectId : String
  ballotSelections : List PlaintextSelection
  deriving DecidableEq, Repr

/-- ballot.py:310-316 `selected_ids`. -/
def PlaintextContest.selectedIds (c : PlaintextContest) : List String :=
  (c.ballotSelections.filter (fun s => decide (s.vote > 0))).map (·.objectId)

/-- ballot.py:318-325 `total_selected`. -/
def PlaintextContest.totalSelected (c : PlaintextContest) : Int :=
  c.ballotSelections.foldl (fun prev next => prev + (if next.vote > 0 then 1 else 0)) 0

/-- ballot.py:327-330 `total_votes`. -/
def PlaintextContest.totalVotes (c : PlaintextContest) : Int :=
  c.ballotSelections.foldl (fun prev next => prev + next.vote) 0

/-- ballot.py:332-339 `write_ins`: the dict of the write-in texts, `None` if empty. -/
def PlaintextContest.writeIns (c : PlaintextContest) : Option (List (String × String)) :=
  let w := c.ballotSelections.foldl (fun d s => match s.writeIn with
    | none => d
    | some t => dset d s.objectId t) []
  if w.length ≠ 0 then some w else none

/-- utils.py:16-63: the kinds of contest exception; `.default` is a plain `ContestException`, `.overVote`
carries the ids. -/
inductive ContestError
  | default | nullVote | underVote | overVote (ids : List String)
  deriving DecidableEq, Repr

/-- ballot.py:341-385 `PlaintextBallotContest.valid`: the exception raised, if any. -/
def PlaintextContest.valid (c : PlaintextContest) (d : ContestWithPlaceholders) : Option ContestError :=
  if c.objectId ≠ d.objectId ∨ c.ballotSelections.length > d.ballotSelections.length ∨ d.isValid = false then
    some .default
  else if c.ballotSelections.any (fun s => !decide (s.objectId ∈ d.ballotSelections.map (·.objectId))) then
    some .default
  else if c.totalSelected < 1 then some .nullVote
  else if c.totalSelected < d.numberElected then some .underVote
  else if c.totalSelected > d.numberElected then some (.overVote c.selectedIds)
  else match d.votesAllowed with
    | none => none
    | some v =>
      if c.totalVotes > v then some (.overVote c.selectedIds)
      else if c.totalSelected < v then some .default
      else none

/-- ballot.py:387-437 `PlaintextBallotContest.is_valid`. -/
def PlaintextContest.isValid (c : PlaintextContest) (expectedId : String) (expectedSelections : Int)
    (expectedElected : Int) (votesAllowed : Option Int) : Bool :=
  if c.objectId ≠ expectedId then false
  else if (c.ballotSelections.length : Int) > expectedSelections then false
  else
    let votes := c.ballotSelections.foldl (fun v s => v + s.vote) 0
    let elected := c.ballotSelections.foldl (fun n s => if s.vote ≥ 1 then n + 1 else n) (0 : Int)
    if elected > expectedElected then false
    else match votesAllowed with
      | none => true
      | some v => if votes > v then false else true

/-- ballot.py:461-507 `CiphertextBallotContest`. -/
structure CContest where
  objectId : String
  sequenceOrder : Int
  descriptionHash : Nat
  ballotSelections : List CSelection
  ciphertextAccumulation : Ciphertext
  cryptoHash : Nat
  nonce : Option Nat
  proof : Option ConstProof
  extendedData : Option HashedCiphertext
  deriving DecidableEq, Repr

/-- ballot.py:604-607 `_ciphertext_ballot_elgamal_accumulate`. -/
def accumulateSelections (P : Params) (ss : List CSelection) : R Ciphertext :=
  elgamalAdd P (ss.map (·.ciphertext))

/-- ballot.py:610-625 `_ciphertext_ballot_context_crypto_hash`. -/
def contestCryptoHash (E : Env) (objectId : String) (ss : List CSelection) (seed : Nat) : Nat :=
  if ss.length = 0 then 0
  else hashElems E (.str objectId :: .elem seed ::
    (sequenceOrderSort CSelection.sequenceOrder ss).map (fun s => .elem s.cryptoHash))

/-- ballot.py:628-640 `_ciphertext_ballot_contest_aggregate_nonce`. -/
def aggregateNonce (P : Params) (ss : List CSelection) : Option Nat :=
  match ss.mapM (·.nonce) with
  | none => none
  | some ns => some (addQs P ns)

/-- ballot.py:524-537 `CiphertextBallotContest.crypto_hash_with`. -/
def CContest.cryptoHashWith (E : Env) (c : CContest) (seed : Nat) : Nat :=
  contestCryptoHash E c.objectId c.ballotSelections seed

/-- ballot.py:546-601 `CiphertextBallotContest.is_valid_encryption`.  Accumulating an empty list raises. -/
def CContest.isValidEncryption (E : Env) (c : CContest) (seed key baseHash : Nat) : R Bool :=
  if seed ≠ c.descriptionHash then .ok false
  else if c.cryptoHash ≠ c.cryptoHashWith E seed then .ok false
  else match c.proof with
    | none => .ok false
    | some pf => do
      let computed ← accumulateSelections E.P c.ballotSelections
      if c.ciphertextAccumulation ≠ computed then return false
      else return pf.isValid E computed key baseHash

/-- ballot.py:643-692 `make_ciphertext_ballot_contest` without a given hash and proof. -/
def makeContest (E : Env) (objectId : String) (sequenceOrder : Int) (descriptionHash : Nat)
    (ss : List CSelection) (key baseHash proofSeed : Nat) (numberElected : Int) (nonce : Option Nat)
    (extendedData : Option HashedCiphertext) : R CContest := do
  let h := contestCryptoHash E objectId ss descriptionHash
  let aggregate := aggregateNonce E.P ss
  let acc ← accumulateSelections E.P ss
  let pf := aggregate.map (fun ag => makeConst E acc numberElected ag key proofSeed baseHash)
  return ⟨objectId, sequenceOrder, descriptionHash, ss, acc, h, nonce, pf, extendedData⟩

/-- ballot.py:695-706 `PlaintextBallot`. -/
structure PlaintextBallot where
  objectId : String
  styleId : String
  contests : List PlaintextContest
  deriving DecidableEq, Repr

/-- ballot.py:708-723 `PlaintextBallot.is_valid`. -/
def PlaintextBallot.isValid (b : PlaintextBallot) (expectedStyle : String) : Bool :=
  if b.styleId ≠ expectedStyle then false else true

/-- ballot.py:738-775 `CiphertextBallot`. -/
structure CBallot where
  objectId : String
  styleId : String
  manifestHash : Nat
  codeSeed : Nat
  contests : List CContest
  code : Nat
  timestamp : Int
  cryptoHash : Nat
  nonce : Option Nat
  deriving DecidableEq, Repr

/-- ballot.py:791-799 `CiphertextBallot.nonce_seed`. -/
def nonceSeed (E : Env) (manifestHash : Nat) (objectId : String) (nonce : Nat) : Nat :=
  hashElems E [.elem manifestHash, .str objectId, .elem nonce]

/-- ballot.py:801-813 `hashed_ballot_nonce`. -/
def CBallot.hashedBallotNonce (E : Env) (b : CBallot) : Option Nat :=
  b.nonce.map (fun n => nonceSeed E b.manifestHash b.objectId n)

/-- ballot.py:815-831 `CiphertextBallot.crypto_hash_with`: the contests are not sorted. -/
def CBallot.cryptoHashWith (E : Env) (b : CBallot) (seed : Nat) : Nat :=
  if b.contests.length = 0 then 0
  else hashElems E (.str b.objectId :: .elem seed :: b.contests.map (fun c => .elem c.cryptoHash))

/-- ballot.py:868-887: the list `valid_proofs`, in order. -/
def CBallot.validProofs (E : Env) (key baseHash : Nat) : List CContest → R (List Bool)
  | [] => .ok []
  | c :: cs => do
    let sels := c.ballotSelections.map (fun s => s.isValidEncryption E s.descriptionHash key baseHash)
    let cv ← c.isValidEncryption E c.descriptionHash key baseHash
    let rest ← CBallot.validProofs E key baseHash cs
    return sels ++ cv :: rest

/-- ballot.py:833-887 `CiphertextBallot.is_valid_encryption`. -/
def CBallot.isValidEncryption (E : Env) (b : CBallot) (seed key baseHash : Nat) : R Bool :=
  if seed ≠ b.manifestHash then .ok false
  else if b.cryptoHash ≠ b.cryptoHashWith E seed then .ok false
  else do
    let proofs ← CBallot.validProofs E key baseHash b.contests
    return proofs.all id

/-- ballot.py:890-907 `BallotBoxState`. -/
inductive BallotBoxState
  | cast | spoiled | unknown
  deriving DecidableEq, Repr

/-- ballot.py:910-924 `SubmittedBallot`. -/
structure SBallot extends CBallot where
  state : BallotBoxState
  deriving DecidableEq, Repr

/-- ballot_code.py:5-17 `get_hash_for_device`. -/
def hashForDevice (E : Env) (deviceId sessionId launchCode : Int) (location : String) : Nat :=
  hashElems E [.int deviceId, .int sessionId, .int launchCode, .str location]

/-- ballot_code.py:20-30 `get_ballot_code`. -/
def getBallotCode (E : Env) (prev : Nat) (timestamp : Int) (ballotHash : Nat) : Nat :=
  hashElems E [.elem prev, .int timestamp, .elem ballotHash]

/-- ballot.py:982-990 `create_ballot_hash`: the contests are sorted. -/
def createBallotHash (E : Env) (ballotId : String) (descriptionHash : Nat) (cs : List CContest) : Nat :=
  hashElems E (.str ballotId :: .elem descriptionHash ::
    (sequenceOrderSort CContest.sequenceOrder cs).map (fun c => .elem c.cryptoHash))

/-- ballot.py:935-979 `make_ciphertext_ballot`; `now` is the clock, used when no timestamp is given. -/
def makeBallot (E : Env) (objectId styleId : String) (manifestHash : Nat) (codeSeed : Option Nat)
    (cs : List CContest) (nonce : Option Nat) (timestamp : Option Int) (ballotCode : Option Nat) (now : Int) :
    CBallot :=
  let contestHash := createBallotHash E objectId manifestHash cs
  let ts := timestamp.getD now
  let seed := codeSeed.getD manifestHash
  let code := match ballotCode with
    | none => getBallotCode E seed ts contestHash
    | some c => c
  ⟨objectId, styleId, manifestHash, seed, cs, code, ts, contestHash, nonce⟩

/-- ballot.py:1025-1033: the contest without nonces. -/
def CContest.stripNonces (c : CContest) : CContest :=
  { c with nonce := none, ballotSelections := c.ballotSelections.map (fun s => { s with nonce := none }) }

/-- ballot.py:993-1047 `make_ciphertext_submitted_ballot`. -/
def makeSubmittedBallot (E : Env) (objectId styleId : String) (manifestHash : Nat) (codeSeed : Option Nat)
    (cs : List CContest) (ballotCode : Option Nat) (timestamp : Option Int) (state : BallotBoxState)
    (now : Int) : SBallot :=
  let contestHash := hashElems E (.str objectId :: .elem manifestHash ::
    (sequenceOrderSort CContest.sequenceOrder cs).map (fun c => .elem c.cryptoHash))
  let ts := timestamp.getD now
  let seed := codeSeed.getD manifestHash
  let code := match ballotCode with
    | none => getBallotCode E seed ts contestHash
    | some c => c
  { objectId := objectId, styleId := styleId, manifestHash := manifestHash, codeSeed := seed,
    contests := cs.map CContest.stripNonces, code := code, timestamp := ts, cryptoHash := contestHash,
    nonce := none, state := state }

end EG
