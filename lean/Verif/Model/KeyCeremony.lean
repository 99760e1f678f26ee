import Verif.Model.Polynomial
import Verif.Model.HashedElGamal
import Verif.Model.HexElement

/-!
# key_ceremony.py and `decrypt_backup` of decryption.py

Random numbers are arguments.  The JSON parser is an arbitrary function `loads` that returns the text of the
`coordinate` field; what is assumed of it is stated where it is used (`ReadsCoordinate` in Spec/KeyCeremony).
-/

namespace EG

/-- key_ceremony.py:29-56 `ElectionPublicKey`. -/
structure ElectionPublicKey where
  ownerId : String
  sequenceOrder : Int
  key : Nat
  commitments : List Nat
  proofs : List SchnorrProof
  deriving DecidableEq, Repr

/-- key_ceremony.py:60-82 `ElectionKeyPair`. -/
structure ElectionKeyPair where
  ownerId : String
  sequenceOrder : Int
  keyPair : KeyPair
  polynomial : Polynomial'
  deriving DecidableEq, Repr

/-- key_ceremony.py:84-92 `ElectionKeyPair.share`. -/
def ElectionKeyPair.share (kp : ElectionKeyPair) : ElectionPublicKey :=
  ⟨kp.ownerId, kp.sequenceOrder, kp.keyPair.pub, getCommitments kp.polynomial, getProofs kp.polynomial⟩

/-- key_ceremony.py:95-110 `ElectionJointKey`. -/
structure ElectionJointKey where
  jointPublicKey : Nat
  commitmentHash : Nat
  deriving DecidableEq, Repr

/-- key_ceremony.py:113-135 `ElectionPartialKeyBackup`. -/
structure Backup where
  ownerId : String
  designatedId : String
  designatedOrder : Int
  encrypted : HashedCiphertext
  deriving DecidableEq, Repr

/-- key_ceremony.py:138-143 `CeremonyDetails`. -/
structure CeremonyDetails where
  numberOfGuardians : Int
  quorum : Int
  deriving DecidableEq, Repr

/-- key_ceremony.py:146-153 `ElectionPartialKeyVerification`. -/
structure Verification where
  ownerId : String
  designatedId : String
  verifierId : String
  verified : Bool
  deriving DecidableEq, Repr

/-- key_ceremony.py:156-166 `ElectionPartialKeyChallenge`. -/
structure BackupChallenge where
  ownerId : String
  designatedId : String
  designatedOrder : Int
  value : Nat
  commitments : List Nat
  proofs : List SchnorrProof
  deriving DecidableEq, Repr

/-- ASCII text as bytes. -/
def asciiBytes (l : List Char) : Bytes := l.map (fun c => UInt8.ofNat c.toNat)

/-- serialize.py:84-87 `to_raw` of a `CoordinateData`: `json.dumps` of a dict with one string. -/
def coordinateJson (coordinate : Nat) : Bytes :=
  asciiBytes ("{\"coordinate\": \"".toList ++ toHex coordinate ++ "\"}".toList)

/-- key_ceremony.py:182-183 `CoordinateData.to_bytes`: `padded_encode` (serialize.py:47-48). -/
def coordinateToBytes (coordinate : Nat) : R Bytes := addPadding (coordinateJson coordinate) 512 false

/-- key_ceremony.py:178-180 `CoordinateData.from_bytes`: `padded_decode` (serialize.py:51-54), the padding is
removed, the JSON text parsed and its field converted to an `ElementModQ`. -/
def coordinateFromBytes (P : Params) (loads : Bytes → R (List Char)) (data : Bytes) : R Nat := do
  let hex ← loads (removePadding data 512)
  let n ← hexToInt hex
  mkQ P n

/-- key_ceremony.py:186-198 `generate_election_key_pair` without a nonce; `rands` are the random numbers of
`generate_polynomial`, one pair per coefficient.  `coefficients[0]` raises `IndexError` if there is none. -/
def generateElectionKeyPair (E : Env) (id : String) (order : Int) (rands : List (Nat × Nat)) :
    R ElectionKeyPair :=
  let polynomial := generatePolynomial E rands
  match polynomial with
  | [] => .error .index
  | c :: _ => .ok ⟨id, order, ⟨c.value, c.commitment⟩, polynomial⟩

/-- key_ceremony.py:186-198 `generate_election_key_pair` with a nonce. -/
def generateElectionKeyPairNonce (E : Env) (id : String) (order : Int) (nonce : Nat) (rands : List Nat) :
    R ElectionKeyPair :=
  let polynomial := generatePolynomialNonce E nonce rands
  match polynomial with
  | [] => .error .index
  | c :: _ => .ok ⟨id, order, ⟨c.value, c.commitment⟩, polynomial⟩

/-- key_ceremony.py:236-237 `get_backup_seed`. -/
def backupSeed (E : Env) (receiverId : String) (order : Int) : Nat := hashElems E [.str receiverId, .int order]

/-- key_ceremony.py:201-233 `generate_election_partial_key_backup`; `nonce` is the result of `rand_q()`. -/
def generateBackup (E : Env) (senderId : String) (polynomial : Polynomial') (receiver : ElectionPublicKey)
    (nonce : Nat) : R Backup := do
  let coordinate ← computeCoordinate E.P receiver.sequenceOrder polynomial
  let seed := backupSeed E receiver.ownerId receiver.sequenceOrder
  let bytes ← coordinateToBytes coordinate
  let encrypted ← hashedEncrypt E bytes nonce receiver.key seed
  return ⟨senderId, receiver.ownerId, receiver.sequenceOrder, encrypted⟩

/-- key_ceremony.py:240-276 `verify_election_partial_key_backup`. -/
def verifyBackup (E : Env) (loads : Bytes → R (List Char)) (receiverId : String) (backup : Backup)
    (sender : ElectionPublicKey) (receiver : ElectionKeyPair) : R Verification := do
  let seed := backupSeed E receiverId backup.designatedOrder
  let decrypted ← backup.encrypted.decrypt E receiver.keyPair.secret seed
  let bytes ← getOptional decrypted
  let coordinate ← coordinateFromBytes E.P loads bytes
  let verified ← verifyCoordinate E.P coordinate backup.designatedOrder sender.commitments
  return ⟨backup.ownerId, backup.designatedId, receiverId, verified⟩

/-- decryption.py:460-484 `decrypt_backup`. -/
def decryptBackup (E : Env) (loads : Bytes → R (List Char)) (backup : Backup) (kp : ElectionKeyPair) :
    R (Option Nat) := do
  let seed := backupSeed E kp.ownerId kp.sequenceOrder
  let decrypted ← backup.encrypted.decrypt E kp.keyPair.secret seed
  match decrypted with
  | none => return none
  | some bytes => return some (← coordinateFromBytes E.P loads bytes)

/-- key_ceremony.py:279-296 `generate_election_partial_key_challenge`. -/
def generateChallenge (P : Params) (backup : Backup) (polynomial : Polynomial') : R BackupChallenge := do
  let value ← computeCoordinate P backup.designatedOrder polynomial
  return ⟨backup.ownerId, backup.designatedId, backup.designatedOrder, value, getCommitments polynomial,
    getProofs polynomial⟩

/-- key_ceremony.py:299-317 `verify_election_partial_key_challenge`. -/
def verifyChallenge (P : Params) (verifierId : String) (c : BackupChallenge) : R Verification := do
  let verified ← verifyCoordinate P c.value c.designatedOrder c.commitments
  return ⟨c.ownerId, c.designatedId, verifierId, verified⟩

/-- key_ceremony.py:320-341 `combine_election_public_keys`. -/
def combineElectionKeys (E : Env) (keys : List ElectionPublicKey) : ElectionJointKey :=
  let publicKeys := keys.map (·.key)
  let commitments := keys.flatMap (·.commitments)
  ⟨combinePublicKeys E.P publicKeys, hashElems E [.list (commitments.map HArg.elem)]⟩

end EG
