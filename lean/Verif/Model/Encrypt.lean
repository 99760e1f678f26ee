import Verif.Model.Ballot
import Verif.Model.BytePadding

/-!
# encrypt.py and election.py

The JSON text of the contest data (`to_raw`, pydantic) is an arbitrary function `json` of the data.  Randomness
(`rand_q`) and the clock are parameters.
-/

namespace EG

/-- utils.py:16-22 `ContestErrorType`, as stored in the contest data. -/
inductive ContestErrorType
  | nullVote | underVote | overVote
  deriving DecidableEq, Repr

/-- encrypt.py:45-60 `ContestData`. -/
structure ContestData where
  error : Option ContestErrorType
  errorData : Option (List String)
  writeIns : Option (List (String × String))
  deriving DecidableEq, Repr

/-- encrypt.py:59-60 `to_bytes` with serialize.py:47-48 `padded_encode`. -/
def ContestData.toBytes (json : ContestData → Bytes) (d : ContestData) : R Bytes :=
  addPadding (json d) 512 false

/-- election.py:30-80 `CiphertextElectionContext`, the fields used by the code. -/
structure Context where
  numberOfGuardians : Int
  quorum : Int
  elgamalPublicKey : Nat
  commitmentHash : Nat
  manifestHash : Nat
  cryptoBaseHash : Nat
  cryptoExtendedBaseHash : Nat
  deriving DecidableEq, Repr

/-- election.py:87-139 `make_ciphertext_election_context`. -/
def makeContext (E : Env) (n k : Int) (key commitmentHash manifestHash : Nat) : Context :=
  let base := hashElems E [.elem E.P.p, .elem E.P.q, .elem E.P.g, .int n, .int k, .elem manifestHash]
  ⟨n, k, key, commitmentHash, manifestHash, base, hashElems E [.elem base, .elem commitmentHash]⟩

/-- encrypt.py:140-160 `selection_from`. -/
def selectionFrom (d : SelectionDescription) (isPlaceholder : Bool := false) (isAffirmative : Bool := false) :
    PlaintextSelection := ⟨d.objectId, if isAffirmative then 1 else 0, isPlaceholder, none⟩

/-- encrypt.py:163-177 `contest_from`. -/
def contestFrom (d : ContestDescription) : PlaintextContest :=
  ⟨d.objectId, d.ballotSelections.map (fun s => selectionFrom s)⟩

/-- encrypt.py:180-259 `encrypt_selection`. -/
def encryptSelection (E : Env) (s : PlaintextSelection) (d : SelectionDescription)
    (key baseHash seed : Nat) (isPlaceholder : Bool := false) (verify : Bool := false) :
    R (Option CSelection) :=
  if s.isValid d.objectId = false then .ok none
  else do
    let dh := d.cryptoHash E
    let nonce ← nonceAt E dh [.elem seed] d.sequenceOrder
    let proofNonce ← nonceAt E dh [.elem seed] 0
    match elgamalEncrypt E.P s.vote.toNat nonce key with
    | none => return none
    | some ct =>
      let enc ← makeSelection E s.objectId d.sequenceOrder dh ct key baseHash proofNonce s.vote isPlaceholder
        (some nonce)
      if enc.proof = none then return none
      else if verify = false then return some enc
      else if enc.isValidEncryption E dh key baseHash then return some enc
      else return none

/-- encrypt.py:331-372: the loop over the selections of the description.  `over` says that the contest is
overvoted.  Returns the encrypted selections and the number of votes used; `none` if a selection could not be
encrypted. -/
def encryptReal (E : Env) (votes : List PlaintextSelection) (over : Bool) (key baseHash seed : Nat)
    (verify : Bool) : List SelectionDescription → Int → List CSelection → R (Option (List CSelection × Int))
  | [], count, acc => .ok (some (acc, count))
  | d :: ds, count, acc => do
    let found := votes.find? (fun s => s.objectId == d.objectId && !over)
    let count' := match found with
      | some s => count + s.vote
      | none => count
    let enc ← match found with
      | some s => encryptSelection E s d key baseHash seed false verify
      | none => encryptSelection E (selectionFrom d) d key baseHash seed false verify
    match enc with
    | none => return none
    | some e => encryptReal E votes over key baseHash seed verify ds count' (acc ++ [e])

/-- encrypt.py:379-403: the loop over the placeholders. -/
def encryptPlaceholders (E : Env) (numberElected : Int) (key baseHash seed : Nat) (verify : Bool) :
    List SelectionDescription → Int → List CSelection → R (Option (List CSelection))
  | [], _, acc => .ok (some acc)
  | d :: ds, count, acc => do
    let select := decide (count < numberElected)
    let count' := if select then count + 1 else count
    let enc ← encryptSelection E (selectionFrom d true select) d key baseHash seed true verify
    match enc with
    | none => return none
    | some e => encryptPlaceholders E numberElected key baseHash seed verify ds count' (acc ++ [e])

/-- encrypt.py:291-301: the contest data error and its data from the outcome of `valid`; `none` if the
contest is refused. -/
def contestDataError : Option ContestError → Option (Option ContestErrorType × Option (List String))
  | none => some (none, none)
  | some .default => none
  | some .nullVote => some (some .nullVote, none)
  | some .underVote => some (some .underVote, none)
  | some (.overVote ids) => some (some .overVote, some ids)

/-- encrypt.py:262-423 `encrypt_contest`. -/
def encryptContest (E : Env) (json : ContestData → Bytes) (c : PlaintextContest) (d : ContestWithPlaceholders)
    (key baseHash seed : Nat) (verify : Bool := false) : R (Option CContest) :=
  match contestDataError (c.valid d) with
  | none => .ok none
  | some (error, errorData) => do
    let dh := d.cryptoHash E
    let contestNonce ← nonceAt E dh [.elem seed] d.sequenceOrder
    let proofNonce ← nonceAt E dh [.elem seed] 0
    let over := decide (error = some ContestErrorType.overVote)
    let real ← encryptReal E c.ballotSelections over key baseHash contestNonce verify d.ballotSelections 0 []
    match real with
    | none => return none
    | some (ss, count) =>
      let all ← encryptPlaceholders E d.numberElected key baseHash contestNonce verify d.placeholders count ss
      match all with
      | none => return none
      | some ss =>
        let bytes ← (ContestData.mk error errorData c.writeIns).toBytes json
        let dataNonce ← nonceAt E contestNonce [.str "constant-extended-data"] 0
        let data ← hashedEncrypt E bytes dataNonce key baseHash
        let enc ← makeContest E c.objectId d.sequenceOrder dh ss key baseHash proofNonce d.numberElected
          (some contestNonce) (some data)
        if verify || decide (enc.proof = none) then
          let ok ← enc.isValidEncryption E dh key baseHash
          if ok then return some enc else return none
        else return some enc

/-- encrypt.py:516-550 `encrypt_ballot_contests`, from the contests of the style. -/
def encryptContests (E : Env) (json : ContestData → Bytes) (b : PlaintextBallot) (key baseHash seed : Nat)
    (verify : Bool) : List ContestWithPlaceholders → R (Option (List CContest))
  | [] => .ok (some [])
  | d :: ds => do
    let use := match b.contests.find? (fun c => c.objectId == d.objectId) with
      | some c => c
      | none => contestFrom d.toContestDescription
    let enc ← encryptContest E json use d key baseHash seed verify
    match enc with
    | none => return none
    | some c =>
      let rest ← encryptContests E json b key baseHash seed verify ds
      match rest with
      | none => return none
      | some cs => return some (c :: cs)

/-- encrypt.py:431-513 `encrypt_ballot`; `nonce` is the given or random master nonce.  The test
`not encrypted_ballot.code` is never true: an element is never an empty string. -/
def encryptBallot (E : Env) (json : ContestData → Bytes) (b : PlaintextBallot) (m : InternalManifest)
    (ctx : Context) (encryptionSeed nonce : Nat) (now : Int) (verify : Bool := false) : R (Option CBallot) := do
  let style ← m.getBallotStyle b.styleId
  if b.isValid style.objectId = false then return none
  else
    let seed := nonceSeed E m.manifestHash b.objectId nonce
    let ds ← m.getContestsFor b.styleId
    let cs ← encryptContests E json b ctx.elgamalPublicKey ctx.cryptoExtendedBaseHash seed verify ds
    match cs with
    | none => return none
    | some cs =>
      let enc := makeBallot E b.objectId b.styleId m.manifestHash (some encryptionSeed) cs (some nonce) none none
        now
      if verify = false then return some enc
      else
        let ok ← enc.isValidEncryption E m.manifestHash ctx.elgamalPublicKey ctx.cryptoExtendedBaseHash
        if ok then return some enc else return none

/-- encrypt.py:118-130 `EncryptionMediator.encrypt`: the result and the new `_encryption_seed`. -/
def mediatorEncrypt (E : Env) (json : ContestData → Bytes) (m : InternalManifest) (ctx : Context) (seed : Nat)
    (b : PlaintextBallot) (nonce : Nat) (now : Int) : R (Option CBallot × Nat) := do
  let enc ← encryptBallot E json b m ctx seed nonce now
  match enc with
  | none => return (none, seed)
  | some e => return (some e, e.code)

/-- A sequence of calls of `encrypt` on one mediator: ballot, master nonce and clock of each call.  A call that
raises leaves `_encryption_seed` as it was (encrypt.py:118-130). -/
def mediatorRun (E : Env) (json : ContestData → Bytes) (m : InternalManifest) (ctx : Context) :
    Nat → List (PlaintextBallot × Nat × Int) → List (R (Option CBallot)) × Nat
  | seed, [] => ([], seed)
  | seed, (b, nonce, now) :: calls =>
    match mediatorEncrypt E json m ctx seed b nonce now with
    | .error e =>
      let r := mediatorRun E json m ctx seed calls
      (.error e :: r.1, r.2)
    | .ok (enc, seed') =>
      let r := mediatorRun E json m ctx seed' calls
      (.ok enc :: r.1, r.2)

/-- encrypt.py:62-78 `EncryptionDevice`. -/
structure Device where
  deviceId : Int
  sessionId : Int
  launchCode : Int
  location : String

/-- encrypt.py:80-87 `EncryptionDevice.get_hash`. -/
def Device.getHash (E : Env) (d : Device) : Nat := hashForDevice E d.deviceId d.sessionId d.launchCode d.location

/-- encrypt.py:108-116 `EncryptionMediator.__init__` followed by a sequence of calls. -/
def mediatorSession (E : Env) (json : ContestData → Bytes) (m : InternalManifest) (ctx : Context) (d : Device)
    (calls : List (PlaintextBallot × Nat × Int)) : List (R (Option CBallot)) × Nat :=
  mediatorRun E json m ctx (d.getHash E) calls

end EG
