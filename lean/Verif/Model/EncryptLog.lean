import Verif.Model.Encrypt

/-!
# What encrypting a ballot writes to the log

The messages that `EncryptionMediator.encrypt` and the functions it calls give to `log_info`, `log_warning` and
`log_error`, in order, up to the point where the call returns or raises.  A message is one constructor for each
format string, with the values that the format string inserts; the text around the values, the time and the place
of the call (logs.py:45-49) are left out.  Simplifications: proofs are not verified (`should_verify_proofs=False`, the
default and what the mediator uses), the dictionary of manifest.py:476-496 (which depends on the description
only) is left out of `badDescription`, and an exception of the contest is one message without its text (it names
the contest or a selection id, ballot.py:341-385).
-/

namespace EG

/-- The messages. -/
inductive EncMsg
  /-- encrypt.py:123 -/
  | encryptId (id : String)
  /-- encrypt.py:477 -/
  | manifestHash (h : Nat)
  /-- encrypt.py:478 -/
  | encryptionSeed (h : Nat)
  /-- encrypt.py:213-215 -/
  | encryptSelection (id : String) (hash : Nat)
  /-- elgamal.py:213 and 257 -/
  | publicKey (k : Nat)
  /-- elgamal.py:214 and 258 -/
  | pad (n : Nat)
  /-- elgamal.py:215 -/
  | data (n : Nat)
  /-- elgamal.py:259 -/
  | hashedData (bs : Bytes)
  /-- elgamal.py:260 -/
  | mac (hex : List Char)
  /-- elgamal.py:261 -/
  | toMac (bs : Bytes)
  /-- elgamal.py:205 -/
  | zeroNonce
  /-- ballot.py:83-85 -/
  | wrongId (expected actual : String)
  /-- ballot.py:90 -/
  | badVote (s : PlaintextSelection)
  /-- encrypt.py:205 -/
  | malformedSelection (s : PlaintextSelection)
  /-- manifest.py:476-496 -/
  | badDescription (id : String)
  /-- encrypt.py:299-301 -/
  | contestError (id : String)
  /-- ballot.py:616-618 -/
  | noSelections (id : String)
  /-- encrypt.py:463 -/
  | malformedBallot (b : PlaintextBallot)
  /-- ballot.py:958-959 -/
  | noContests
  deriving DecidableEq

/-- ballot.py:76-93 `PlaintextBallotSelection.is_valid`: what it logs. -/
def selectionValidLog (s : PlaintextSelection) (expectedId : String) : List EncMsg :=
  if s.objectId ≠ expectedId then [.wrongId expectedId s.objectId]
  else if s.vote < 0 ∨ s.vote > 1 then [.badVote s]
  else []

/-- elgamal.py:193-217 `elgamal_encrypt`: what it logs. -/
def elgamalLog (P : Params) (message nonce pub : Nat) : List EncMsg :=
  match elgamalEncrypt P message nonce pub with
  | none => [.zeroNonce]
  | some ct => [.publicKey pub, .pad ct.pad, .data ct.data]

/-- encrypt.py:180-259 `encrypt_selection`: what it logs.  Both nonces are computed before the first message
(206-211). -/
def selectionLog (E : Env) (s : PlaintextSelection) (d : SelectionDescription) (key seed : Nat) : List EncMsg :=
  if s.isValid d.objectId = false then selectionValidLog s d.objectId ++ [.malformedSelection s]
  else
    let dh := d.cryptoHash E
    match nonceAt E dh [.elem seed] d.sequenceOrder with
    | .error _ => []
    | .ok nonce =>
      match nonceAt E dh [.elem seed] 0 with
      | .error _ => []
      | .ok _ => .encryptSelection d.objectId dh :: elgamalLog E.P s.vote.toNat nonce key

/-- encrypt.py:331-372: the loop over the selections of the description. -/
def realLog (E : Env) (votes : List PlaintextSelection) (over : Bool) (key baseHash seed : Nat) :
    List SelectionDescription → List EncMsg
  | [] => []
  | d :: ds =>
    let s := match votes.find? (fun s => s.objectId == d.objectId && !over) with
      | some s => s
      | none => selectionFrom d
    selectionLog E s d key seed ++
      match encryptSelection E s d key baseHash seed with
      | .ok (some _) => realLog E votes over key baseHash seed ds
      | _ => []

/-- encrypt.py:379-403: the loop over the placeholders, from the votes counted so far. -/
def placeholderLog (E : Env) (numberElected : Int) (key baseHash seed : Nat) :
    List SelectionDescription → Int → List EncMsg
  | [], _ => []
  | d :: ds, count =>
    let select := decide (count < numberElected)
    let count' := if select then count + 1 else count
    let s := selectionFrom d true select
    selectionLog E s d key seed ++
      match encryptSelection E s d key baseHash seed true with
      | .ok (some _) => placeholderLog E numberElected key baseHash seed ds count'
      | _ => []

/-- elgamal.py:220-263 `hashed_elgamal_encrypt`: what it logs, after the last computation (257-261). -/
def hashedLog (E : Env) (message : Bytes) (nonce publicKey seed : Nat) : List EncMsg :=
  let pad := gPowP E.P nonce
  let sessionKey := hashElems E [.elem pad, .elem (powP E.P publicKey nonce)]
  let chunks := getChunks message
  match xorLoop E (toHexBytes sessionKey) (toHexBytes seed) chunks.2 chunks.1 0 with
  | .error _ => []
  | .ok data =>
    match getHmac E (toHexBytes sessionKey) (toHexBytes seed) (some chunks.2) with
    | .error _ => []
    | .ok macKey =>
      let toMac := toHexBytes pad ++ data
      match getHmac E macKey toMac with
      | .error _ => []
      | .ok mac => [.publicKey publicKey, .pad pad, .hashedData data, .mac (bytesToHex mac), .toMac toMac]

/-- ballot.py:341-385 `PlaintextBallotContest.valid`: what it logs (the description is checked last). -/
def contestValidLog (c : PlaintextContest) (d : ContestWithPlaceholders) : List EncMsg :=
  if c.objectId ≠ d.objectId ∨ c.ballotSelections.length > d.ballotSelections.length then []
  else if d.isValid = false then [.badDescription d.objectId]
  else []

/-- encrypt.py:262-423 `encrypt_contest`: what it logs. -/
def contestLog (E : Env) (json : ContestData → Bytes) (c : PlaintextContest) (d : ContestWithPlaceholders)
    (key baseHash seed : Nat) : List EncMsg :=
  contestValidLog c d ++
  match contestDataError (c.valid d) with
  | none => [.contestError c.objectId]
  | some (error, errorData) =>
    match nonceAt E (d.cryptoHash E) [.elem seed] d.sequenceOrder with
    | .error _ => []
    | .ok contestNonce =>
      let over := decide (error = some ContestErrorType.overVote)
      realLog E c.ballotSelections over key baseHash contestNonce d.ballotSelections ++
      match encryptReal E c.ballotSelections over key baseHash contestNonce false d.ballotSelections 0 [] with
      | .ok (some (ss, count)) =>
        placeholderLog E d.numberElected key baseHash contestNonce d.placeholders count ++
        match encryptPlaceholders E d.numberElected key baseHash contestNonce false d.placeholders count ss with
        | .ok (some ss) =>
          match (ContestData.mk error errorData c.writeIns).toBytes json with
          | .error _ => []
          | .ok bytes =>
            match nonceAt E contestNonce [.str "constant-extended-data"] 0 with
            | .error _ => []
            | .ok dataNonce =>
              hashedLog E bytes dataNonce key baseHash ++
              match hashedEncrypt E bytes dataNonce key baseHash with
              | .error _ => []
              | .ok _ => if ss = [] then [.noSelections c.objectId] else []
        | _ => []
      | _ => []

/-- encrypt.py:516-550 `encrypt_ballot_contests`: what it logs, from the contests of the style. -/
def contestsLog (E : Env) (json : ContestData → Bytes) (b : PlaintextBallot) (key baseHash seed : Nat) :
    List ContestWithPlaceholders → List EncMsg
  | [] => []
  | d :: ds =>
    let use := match b.contests.find? (fun c => c.objectId == d.objectId) with
      | some c => c
      | none => contestFrom d.toContestDescription
    contestLog E json use d key baseHash seed ++
      match encryptContest E json use d key baseHash seed false with
      | .ok (some _) => contestsLog E json b key baseHash seed ds
      | _ => []

/-- encrypt.py:431-513 `encrypt_ballot`: what it logs, with `make_ciphertext_ballot` (ballot.py:958-959). -/
def ballotLog (E : Env) (json : ContestData → Bytes) (b : PlaintextBallot) (m : InternalManifest) (ctx : Context)
    (encryptionSeed nonce : Nat) : List EncMsg :=
  match m.getBallotStyle b.styleId with
  | .error _ => []
  | .ok style =>
    if b.isValid style.objectId = false then [.malformedBallot b]
    else
      let seed := nonceSeed E m.manifestHash b.objectId nonce
      [.manifestHash m.manifestHash, .encryptionSeed encryptionSeed] ++
      match m.getContestsFor b.styleId with
      | .error _ => []
      | .ok ds =>
        contestsLog E json b ctx.elgamalPublicKey ctx.cryptoExtendedBaseHash seed ds ++
        match encryptContests E json b ctx.elgamalPublicKey ctx.cryptoExtendedBaseHash seed false ds with
        | .ok (some []) => [.noContests]
        | _ => []

/-- encrypt.py:118-130 `EncryptionMediator.encrypt`, several calls on one mediator: what they log. -/
def mediatorLog (E : Env) (json : ContestData → Bytes) (m : InternalManifest) (ctx : Context) :
    Nat → List (PlaintextBallot × Nat × Int) → List EncMsg
  | _, [] => []
  | seed, (b, nonce, now) :: calls =>
    .encryptId b.objectId :: ballotLog E json b m ctx seed nonce ++
      match mediatorEncrypt E json m ctx seed b nonce now with
      | .error _ => mediatorLog E json m ctx seed calls
      | .ok (_, seed') => mediatorLog E json m ctx seed' calls

end EG
