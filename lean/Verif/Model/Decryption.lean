import Verif.Model.Guardian
import Verif.Model.Tally

/-!
# decryption_share.py and decryption.py

Every call that makes a share draws one `rand_q()` per selection; `seeds i j` is the one drawn for selection `j` of
contest `i`.
-/

namespace EG

/-- ballot.py:108-124 `CiphertextSelection`, the fields used in decryption. -/
structure CtSelection where
  objectId : String
  ciphertext : Ciphertext
  deriving DecidableEq, Repr

/-- ballot.py:448-458 `CiphertextContest`. -/
structure CtContest where
  objectId : String
  sequenceOrder : Int
  descriptionHash : Nat
  selections : List CtSelection
  deriving DecidableEq, Repr

/-- decryption.py:66-75: the contest of a tally as a `CiphertextContest`. -/
def TallyContest.toCt (c : TallyContest) : CtContest :=
  ⟨c.objectId, c.sequenceOrder, c.descriptionHash, c.selections.map (fun e => ⟨e.2.objectId, e.2.ciphertext⟩)⟩

/-- decryption.py:158-167: the contest of a ballot as a `CiphertextContest`. -/
def CContest.toCt (c : CContest) : CtContest :=
  ⟨c.objectId, c.sequenceOrder, c.descriptionHash, c.ballotSelections.map (fun s => ⟨s.objectId, s.ciphertext⟩)⟩

/-- The contests of a tally. -/
def Tally.toCts (t : Tally) : List CtContest := t.contests.map (fun e => e.2.toCt)

/-- The contests of a ballot. -/
def SBallot.toCts (b : SBallot) : List CtContest := b.contests.map CContest.toCt

/-- decryption_share.py:15-44 `CiphertextCompensatedDecryptionSelection`. -/
structure CompSelection where
  objectId : String
  guardianId : String
  missingId : String
  share : Nat
  recoveryKey : Nat
  proof : CPProof
  deriving DecidableEq, Repr

/-- decryption_share.py:52-88 `CiphertextDecryptionSelection`; `recovered` is an optional dict. -/
structure DecSelection where
  objectId : String
  guardianId : String
  share : Nat
  proof : Option CPProof
  recovered : Option (List (String × CompSelection))
  deriving DecidableEq, Repr

/-- decryption_share.py:90-157 `is_valid`. -/
def DecSelection.isValid (E : Env) (s : DecSelection) (message : Ciphertext) (key baseHash : Nat) : Bool :=
  match s.proof, s.recovered with
  | none, none => false
  | some _, some _ => false
  | some pf, none => pf.isValid E message key s.share baseHash
  | none, some parts => parts.all (fun e => e.2.proof.isValid E message e.2.recoveryKey e.2.share baseHash)

/-- decryption_share.py:194-213 `CiphertextDecryptionContest`. -/
structure DecContest where
  objectId : String
  guardianId : String
  descriptionHash : Nat
  selections : List (String × DecSelection)
  deriving DecidableEq, Repr

/-- decryption_share.py:216-240 `CiphertextCompensatedDecryptionContest`. -/
structure CompContest where
  objectId : String
  guardianId : String
  missingId : String
  descriptionHash : Nat
  selections : List (String × CompSelection)
  deriving DecidableEq, Repr

/-- decryption_share.py:243-262 `DecryptionShare`. -/
structure DecShare where
  objectId : String
  guardianId : String
  publicKey : Nat
  contests : List (String × DecContest)
  deriving DecidableEq, Repr

/-- decryption_share.py:265-290 `CompensatedDecryptionShare`. -/
structure CompShare where
  objectId : String
  guardianId : String
  missingId : String
  publicKey : Nat
  contests : List (String × CompContest)
  deriving DecidableEq, Repr

/-- decryption_share.py:299-307: the loops of `get_shares_for_selection` over one share. -/
def sharesFrom (selectionId : String) (share : DecShare) (d : List (String × (Nat × DecSelection))) :
    List (String × (Nat × DecSelection)) :=
  share.contests.foldl (fun d c => c.2.selections.foldl (fun d s =>
    if s.2.objectId = selectionId then dset d share.guardianId (share.publicKey, s.2) else d) d) d

/-- decryption_share.py:293-307 `get_shares_for_selection`. -/
def getSharesForSelection (selectionId : String) (shares : List (String × DecShare)) :
    List (String × (Nat × DecSelection)) :=
  shares.foldl (fun d sh => sharesFrom selectionId sh.2 d) []

/-- The loops that put results into a dict under their own id and give up at the first `None` (decryption.py:65-80,
256-259, 306-309). -/
def collectById {α : Type} (key : α → String) : List (Option α) → List (String × α) → Option (List (String × α))
  | [], d => some d
  | none :: _, _ => none
  | some x :: xs, d => collectById key xs (dset d (key x) x)

/-- decryption.py:424-457 `partially_decrypt`, with the seed that was given or drawn. -/
def partiallyDecrypt (E : Env) (kp : ElectionKeyPair) (c : Ciphertext) (baseHash seed : Nat) : Nat × CPProof :=
  let m := c.partialDecrypt E.P kp.keyPair.secret
  (m, makeCP E c kp.keyPair.secret m seed baseHash)

/-- decryption.py:323-357 `compute_decryption_share_for_selection`. -/
def shareForSelection (E : Env) (kp : ElectionKeyPair) (s : CtSelection) (ctx : Context) (seed : Nat) :
    Option DecSelection :=
  let r := partiallyDecrypt E kp s.ciphertext ctx.cryptoExtendedBaseHash seed
  if r.2.isValid E s.ciphertext kp.keyPair.pub r.1 ctx.cryptoExtendedBaseHash then
    some ⟨s.objectId, kp.ownerId, r.1, some r.2, none⟩
  else none

/-- decryption.py:230-266 `compute_decryption_share_for_contest`; `up` as in `schedule`. -/
def shareForContest (E : Env) (up : Bool) (kp : ElectionKeyPair) (c : CtContest) (ctx : Context)
    (seeds : Nat → Nat) : Option DecContest :=
  let results := schedule up (fun e : CtSelection × Nat => shareForSelection E kp e.1 ctx (seeds e.2))
    c.selections.zipIdx
  (collectById (fun s : DecSelection => s.objectId) results []).map
    (fun d => ⟨c.objectId, kp.ownerId, c.descriptionHash, d⟩)

/-- decryption.py:62-87 and 155-178: the loop over the contests and the share, for a tally or a ballot. -/
def shareForContests (E : Env) (up : Bool) (kp : ElectionKeyPair) (objectId : String) (cs : List CtContest)
    (ctx : Context) (seeds : Nat → Nat → Nat) : Option DecShare :=
  (collectById (fun c : DecContest => c.objectId)
    (cs.zipIdx.map (fun e => shareForContest E up kp e.1 ctx (seeds e.2))) []).map
      (fun d => ⟨objectId, kp.ownerId, kp.keyPair.pub, d⟩)

/-- decryption.py:48-87 `compute_decryption_share`. -/
def computeTallyShare (E : Env) (up : Bool) (kp : ElectionKeyPair) (t : Tally) (ctx : Context)
    (seeds : Nat → Nat → Nat) : Option DecShare :=
  shareForContests E up kp t.objectId t.toCts ctx seeds

/-- decryption.py:140-178 `compute_decryption_share_for_ballot`. -/
def computeBallotShare (E : Env) (up : Bool) (kp : ElectionKeyPair) (b : SBallot) (ctx : Context)
    (seeds : Nat → Nat → Nat) : Option DecShare :=
  shareForContests E up kp b.objectId b.toCts ctx seeds

/-- decryption.py:487-521 `decrypt_with_threshold`; it never returns `None`. -/
def decryptWithThreshold (E : Env) (coordinate : Nat) (c : Ciphertext) (baseHash seed : Nat) : Nat × CPProof :=
  let m := c.partialDecrypt E.P coordinate
  (m, makeCP E c coordinate m seed baseHash)

/-- decryption.py:524-538 `compute_recovery_public_key`; `pow_q` of a negative sequence order is that of its
residue. -/
def computeRecoveryKey (P : Params) (available missing : ElectionPublicKey) : Nat :=
  recoveryPublicKey P (available.sequenceOrder % P.q).toNat missing.commitments

/-- decryption.py:360-421 `compute_compensated_decryption_share_for_selection`. -/
def compForSelection (E : Env) (coordinate : Nat) (available missing : ElectionPublicKey) (s : CtSelection)
    (ctx : Context) (seed : Nat) : Option CompSelection :=
  let r := decryptWithThreshold E coordinate s.ciphertext ctx.cryptoExtendedBaseHash seed
  let key := computeRecoveryKey E.P available missing
  if r.2.isValid E s.ciphertext key r.1 ctx.cryptoExtendedBaseHash then
    some ⟨s.objectId, available.ownerId, missing.ownerId, r.1, key, r.2⟩
  else none

/-- decryption.py:269-320 `compute_compensated_decryption_share_for_contest`. -/
def compForContest (E : Env) (up : Bool) (coordinate : Nat) (available missing : ElectionPublicKey) (c : CtContest)
    (ctx : Context) (seeds : Nat → Nat) : Option CompContest :=
  let results := schedule up
    (fun e : CtSelection × Nat => compForSelection E coordinate available missing e.1 ctx (seeds e.2))
    c.selections.zipIdx
  (collectById (fun s : CompSelection => s.objectId) results []).map
    (fun d => ⟨c.objectId, available.ownerId, missing.ownerId, c.descriptionHash, d⟩)

/-- decryption.py:111-137 and 202-227: the loop over the contests and the share, for a tally or a ballot. -/
def compForContests (E : Env) (up : Bool) (coordinate : Nat) (available missing : ElectionPublicKey)
    (objectId : String) (cs : List CtContest) (ctx : Context) (seeds : Nat → Nat → Nat) : Option CompShare :=
  (collectById (fun c : CompContest => c.objectId)
    (cs.zipIdx.map (fun e => compForContest E up coordinate available missing e.1 ctx (seeds e.2))) []).map
      (fun d => ⟨objectId, available.ownerId, missing.ownerId, available.key, d⟩)

/-- decryption.py:90-137 `compute_compensated_decryption_share`. -/
def computeCompTallyShare (E : Env) (up : Bool) (coordinate : Nat) (present missing : ElectionPublicKey) (t : Tally)
    (ctx : Context) (seeds : Nat → Nat → Nat) : Option CompShare :=
  compForContests E up coordinate present missing t.objectId t.toCts ctx seeds

/-- decryption.py:181-227 `compute_compensated_decryption_share_for_ballot`; the two keys come in the other
order. -/
def computeCompBallotShare (E : Env) (up : Bool) (coordinate : Nat) (missing present : ElectionPublicKey)
    (b : SBallot) (ctx : Context) (seeds : Nat → Nat → Nat) : Option CompShare :=
  compForContests E up coordinate present missing b.objectId b.toCts ctx seeds

/-- decryption.py:674-704: the orders of the other guardians, and the coefficient of one guardian. -/
def lagrangeForGuardian (P : Params) (k : ElectionPublicKey) (others : List ElectionPublicKey) : R Nat :=
  computeLagrange P k.sequenceOrder
    ((others.filter (fun g => decide (g.ownerId ≠ k.ownerId))).map (·.sequenceOrder))

/-- decryption.py:674-687 `compute_lagrange_coefficients_for_guardians`: a dict comprehension. -/
def lagrangeForGuardians (P : Params) (keys : List ElectionPublicKey) : R (List (String × Nat)) :=
  keys.foldlM (fun d k => do
    let l ← lagrangeForGuardian P k keys
    return dset d k.ownerId l) []

/-- decryption.py:647-655: the shares of one selection. -/
def compsForSelection (contestShares : List (String × CompContest)) (sid : String) :
    R (List (String × CompSelection)) :=
  contestShares.mapM (fun e => do return (e.1, ← dgetR e.2.selections sid))

/-- decryption.py:657-663: every share to the power of the coefficient of its guardian. -/
def sharePowers (P : Params) (lagrange : List (String × Nat)) (comps : List (String × CompSelection)) :
    R (List Nat) :=
  comps.mapM (fun e => do return powP P e.2.share (← dgetR lagrange e.1))

/-- decryption.py:643-671: the loop over the selections. -/
def reconstructLoop (P : Params) (missingId : String) (contestShares : List (String × CompContest))
    (lagrange : List (String × Nat)) : List CtSelection → List (String × DecSelection) →
    R (List (String × DecSelection))
  | [], d => .ok d
  | s :: ss, d => do
    let comps ← compsForSelection contestShares s.objectId
    let pows ← sharePowers P lagrange comps
    let share := multPs P pows
    reconstructLoop P missingId contestShares lagrange ss
      (dset d s.objectId ⟨s.objectId, missingId, share, none, some comps⟩)

/-- decryption.py:620-671 `reconstruct_decryption_contest`. -/
def reconstructContest (P : Params) (missingId : String) (c : CtContest) (shares : List (String × CompShare))
    (lagrange : List (String × Nat)) : R DecContest := do
  let contestShares ← shares.mapM (fun e => do return (e.1, ← dgetR e.2.contests c.objectId))
  let selections ← reconstructLoop P missingId contestShares lagrange c.selections []
  return ⟨c.objectId, missingId, c.descriptionHash, selections⟩

/-- decryption.py:541-577 and 580-617 `reconstruct_decryption_share`, for a tally or a ballot. -/
def reconstructShare (P : Params) (missing : ElectionPublicKey) (objectId : String) (cs : List CtContest)
    (shares : List (String × CompShare)) (lagrange : List (String × Nat)) : R DecShare := do
  let contests ← cs.foldlM (fun d c => do
    let r ← reconstructContest P missing.ownerId c shares lagrange
    return dset d c.objectId r) []
  return ⟨objectId, missing.ownerId, missing.key, contests⟩

/-- guardian.py:468-482 `compute_tally_share`; a new scheduler is made for every contest. -/
def Guardian.computeTallyShare (E : Env) (g : Guardian) (t : Tally) (ctx : Context) (seeds : Nat → Nat → Nat) :
    Option DecShare := EG.computeTallyShare E true g.electionKeys t ctx seeds

/-- guardian.py:484-502 `compute_ballot_shares`; `seeds b` are the numbers drawn for ballot number `b`. -/
def Guardian.computeBallotShares (E : Env) (g : Guardian) (bs : List SBallot) (ctx : Context)
    (seeds : Nat → Nat → Nat → Nat) : List (String × Option DecShare) :=
  bs.zipIdx.foldl (fun d e =>
    dset d e.1.objectId (computeBallotShare E true g.electionKeys e.1 ctx (seeds e.2))) []

/-- guardian.py:504-534 `compute_compensated_tally_share`. -/
def Guardian.computeCompTallyShare (E : Env) (loads : Bytes → R (List Char)) (g : Guardian) (missingId : String)
    (t : Tally) (ctx : Context) (seeds : Nat → Nat → Nat) : R (Option CompShare) :=
  match dget g.guardianKeys missingId, dget g.guardianBackups missingId with
  | some k, some b => do
    let coordinate ← getOptional (← g.decryptBackup E loads b)
    return EG.computeCompTallyShare E true coordinate g.shareKey k t ctx seeds
  | _, _ => .ok none

/-- guardian.py:560-573: the loop over the ballots of `compute_compensated_ballot_shares`. -/
def compBallotLoop (E : Env) (g : Guardian) (coordinate : Option Nat) (missing : ElectionPublicKey) (ctx : Context)
    (seeds : Nat → Nat → Nat → Nat) : List (SBallot × Nat) → List (String × Option CompShare) →
    R (List (String × Option CompShare))
  | [], d => .ok d
  | (b, i) :: bs, d => do
    let c ← getOptional coordinate
    compBallotLoop E g coordinate missing ctx seeds bs
      (dset d b.objectId (computeCompBallotShare E true c missing g.shareKey b ctx (seeds i)))

/-- guardian.py:536-573 `compute_compensated_ballot_shares`. -/
def Guardian.computeCompBallotShares (E : Env) (loads : Bytes → R (List Char)) (g : Guardian) (missingId : String)
    (bs : List SBallot) (ctx : Context) (seeds : Nat → Nat → Nat → Nat) : R (List (String × Option CompShare)) :=
  let initial := bs.foldl (fun d b => dset d b.objectId none) []
  match dget g.guardianKeys missingId, dget g.guardianBackups missingId with
  | some k, some b => do
    let coordinate ← g.decryptBackup E loads b
    compBallotLoop E g coordinate k ctx seeds bs.zipIdx initial
  | _, _ => .ok initial

/-- guardian.py:579-587 `get_valid_ballot_shares`. -/
def getValidBallotShares {α : Type} (shares : List (String × Option α)) : List (String × α) :=
  shares.foldl (fun d e => match e.2 with | some s => dset d e.1 s | none => d) []

end EG
