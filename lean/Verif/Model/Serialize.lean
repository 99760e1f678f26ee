import Verif.Model.Json
import Verif.Model.Export

/-!
# serialize.py

`to_raw` writes a value by `json.dumps`, where `pydantic_encoder` turns a dataclass into the dict of its fields (`asdict`), an enum into
its value and a `BigInteger`, being a `str`, into its hexadecimal text.  `from_raw` reads by `json.loads` and dacite's `from_dict` (version
1.6.0 of poetry.lock) with the `_config` of serialize.py:28-44.  One pair of functions per class: `toJson` is the dict of the fields
in their order, `ofJson` is `from_dict`.

How `from_dict` reads: fields are looked up by name and other keys are ignored; a missing field takes its default, `None` if it is
optional without a default, else `MissingValueError` (here `.key`); a value of the wrong type raises (`.type`).

Simplified: `True` in the place of an `int` is read as the number it is equal to; a date is a text (see `Model/Manifest.lean`);
the `usage` of a proof is checked but not kept; a negative number is refused for the constants of a group and the tally of a selection.
-/

namespace EG

/-! ### dacite -/

/-- dacite `from_dict` needs a dictionary. -/
def asObj : Json → R (List (String × Json))
  | .obj kvs => .ok kvs
  | _ => .error .type

/-- A field without a default. -/
def need {α : Type} (o : List (String × Json)) (k : String) (dec : Json → R α) : R α :=
  match dget o k with
  | some j => dec j
  | none => .error .key

/-- A field with a default. -/
def orElse {α : Type} (o : List (String × Json)) (k : String) (d : α) (dec : Json → R α) : R α :=
  match dget o k with
  | some j => dec j
  | none => .ok d

/-- The type `str`. -/
def strOf : Json → R String
  | .str s => .ok s
  | _ => .error .type

/-- The type `int`. -/
def intOf : Json → R Int
  | .int n => .ok n
  | .bool b => .ok (if b then 1 else 0)
  | _ => .error .type

/-- The type `bool`. -/
def boolOf : Json → R Bool
  | .bool b => .ok b
  | _ => .error .type

/-- A natural number in the place of an `int`. -/
def natOf (j : Json) : R Nat := do
  let n ← intOf j
  if 0 ≤ n then return n.toNat else .error .value

/-- The type `Optional[…]`. -/
def optOf {α : Type} (dec : Json → R α) : Json → R (Option α)
  | .null => .ok none
  | j => (dec j).map some

/-- The type `List[…]`. -/
def listOf {α : Type} (dec : Json → R α) : Json → R (List α)
  | .arr xs => xs.mapM dec
  | _ => .error .type

/-- The type `Dict[str, …]`. -/
def dictOf {α : Type} (dec : Json → R α) : Json → R (List (String × α))
  | .obj kvs => kvs.mapM (fun kv => (dec kv.2).map (fun v => (kv.1, v)))
  | _ => .error .type

/-- An optional value. -/
def optJson {α : Type} (enc : α → Json) : Option α → Json
  | none => .null
  | some a => enc a

/-- A list. -/
def listJson {α : Type} (enc : α → Json) (l : List α) : Json := .arr (l.map enc)

/-- A dict. -/
def dictJson {α : Type} (enc : α → Json) (l : List (String × α)) : Json := .obj (l.map (fun kv => (kv.1, enc kv.2)))

/-- big_integer.py:35-43, 51-55: the number of a `BigInteger` made of a value of JSON.  `format(…, "02X")` of a float is a `ValueError`. -/
def bigOf : Json → R Int
  | .str s => (hexToInt s.toList).map Int.ofNat
  | .int n => .ok n
  | .bool b => .ok (if b then 1 else 0)
  | .float _ => .error .value
  | _ => .error .type

/-- The cast to `ElementModQ`: group.py:23-29. -/
def elemQOf (P : Params) (j : Json) : R Nat := do mkQ P (← bigOf j)

/-- The cast to `ElementModP`: group.py:23-29. -/
def elemPOf (P : Params) (j : Json) : R Nat := do mkP P (← bigOf j)

/-- The cast to `BigInteger`. -/
def bigNatOf (j : Json) : R Nat := do
  let n ← bigOf j
  if 0 ≤ n then return n.toNat else .error .value

/-- An element: its text. -/
def elemJson (n : Nat) : Json := .str (String.ofList (toHex n))

/-- A text kept as characters. -/
def charsOf (j : Json) : R (List Char) := (strOf j).map String.toList

/-- The cast to an enum whose values are texts, kept as its value. -/
def enumOf (values : List String) : Json → R String
  | .str s => if s ∈ values then .ok s else .error .value
  | _ => .error .value

/-! ### Proofs and ciphertexts -/

/-- proof.py:6-12: the values of `ProofUsage`. -/
def proofUsages : List String :=
  ["Unknown", "Prove knowledge of secret value", "Prove value within selection's limit", "Prove selection's value (0 or 1)"]

/-- elgamal.py:38-50 `ElGamalCiphertext`. -/
def Ciphertext.toJson (c : Ciphertext) : Json := .obj [("pad", elemJson c.pad), ("data", elemJson c.data)]

/-- See `Ciphertext.toJson`. -/
def Ciphertext.ofJson (P : Params) (j : Json) : R Ciphertext := do
  let o ← asObj j
  let pad ← need o "pad" (elemPOf P)
  let data ← need o "data" (elemPOf P)
  return ⟨pad, data⟩

/-- elgamal.py:105-120 `HashedElGamalCiphertext`. -/
def HashedCiphertext.toJson (c : HashedCiphertext) : Json :=
  .obj [("pad", elemJson c.pad), ("data", .str (String.ofList c.data)), ("mac", .str (String.ofList c.mac))]

/-- See `HashedCiphertext.toJson`. -/
def HashedCiphertext.ofJson (P : Params) (j : Json) : R HashedCiphertext := do
  let o ← asObj j
  let pad ← need o "pad" (elemPOf P)
  let data ← need o "data" charsOf
  let mac ← need o "mac" charsOf
  return ⟨pad, data, mac⟩

/-- chaum_pedersen.py:24-48 `DisjunctiveChaumPedersenProof`. -/
def DisjProof.toJson (p : DisjProof) : Json :=
  .obj [("proof_zero_pad", elemJson p.a0), ("proof_zero_data", elemJson p.b0), ("proof_one_pad", elemJson p.a1),
    ("proof_one_data", elemJson p.b1), ("proof_zero_challenge", elemJson p.c0), ("proof_one_challenge", elemJson p.c1),
    ("challenge", elemJson p.c), ("proof_zero_response", elemJson p.v0), ("proof_one_response", elemJson p.v1),
    ("usage", .str "Prove selection's value (0 or 1)")]

/-- See `DisjProof.toJson`. -/
def DisjProof.ofJson (P : Params) (j : Json) : R DisjProof := do
  let o ← asObj j
  let a0 ← need o "proof_zero_pad" (elemPOf P)
  let b0 ← need o "proof_zero_data" (elemPOf P)
  let a1 ← need o "proof_one_pad" (elemPOf P)
  let b1 ← need o "proof_one_data" (elemPOf P)
  let c0 ← need o "proof_zero_challenge" (elemQOf P)
  let c1 ← need o "proof_one_challenge" (elemQOf P)
  let c ← need o "challenge" (elemQOf P)
  let v0 ← need o "proof_zero_response" (elemQOf P)
  let v1 ← need o "proof_one_response" (elemQOf P)
  let _ ← orElse o "usage" "" (enumOf proofUsages)
  return ⟨a0, b0, a1, b1, c0, c1, c, v0, v1⟩

/-- chaum_pedersen.py:141-155 `ChaumPedersenProof`. -/
def CPProof.toJson (p : CPProof) : Json :=
  .obj [("pad", elemJson p.a), ("data", elemJson p.b), ("challenge", elemJson p.c), ("response", elemJson p.v),
    ("usage", .str "Prove knowledge of secret value")]

/-- See `CPProof.toJson`. -/
def CPProof.ofJson (P : Params) (j : Json) : R CPProof := do
  let o ← asObj j
  let a ← need o "pad" (elemPOf P)
  let b ← need o "data" (elemPOf P)
  let c ← need o "challenge" (elemQOf P)
  let v ← need o "response" (elemQOf P)
  let _ ← orElse o "usage" "" (enumOf proofUsages)
  return ⟨a, b, c, v⟩

/-- chaum_pedersen.py:258-274 `ConstantChaumPedersenProof`. -/
def ConstProof.toJson (p : ConstProof) : Json :=
  .obj [("pad", elemJson p.a), ("data", elemJson p.b), ("challenge", elemJson p.c), ("response", elemJson p.v),
    ("constant", .int p.constant), ("usage", .str "Prove value within selection's limit")]

/-- See `ConstProof.toJson`. -/
def ConstProof.ofJson (P : Params) (j : Json) : R ConstProof := do
  let o ← asObj j
  let a ← need o "pad" (elemPOf P)
  let b ← need o "data" (elemPOf P)
  let c ← need o "challenge" (elemQOf P)
  let v ← need o "response" (elemQOf P)
  let constant ← need o "constant" intOf
  let _ ← orElse o "usage" "" (enumOf proofUsages)
  return ⟨a, b, c, v, constant⟩

/-- schnorr.py:17-31 `SchnorrProof`. -/
def SchnorrProof.toJson (p : SchnorrProof) : Json :=
  .obj [("public_key", elemJson p.k), ("commitment", elemJson p.h), ("challenge", elemJson p.c), ("response", elemJson p.u),
    ("usage", .str "Prove knowledge of secret value")]

/-- See `SchnorrProof.toJson`. -/
def SchnorrProof.ofJson (P : Params) (j : Json) : R SchnorrProof := do
  let o ← asObj j
  let k ← need o "public_key" (elemPOf P)
  let h ← need o "commitment" (elemPOf P)
  let c ← need o "challenge" (elemQOf P)
  let u ← need o "response" (elemQOf P)
  let _ ← orElse o "usage" "" (enumOf proofUsages)
  return ⟨k, h, c, u⟩

/-! ### Ballots -/

/-- ballot.py:50-75 `PlaintextBallotSelection`. -/
def PlaintextSelection.toJson (s : PlaintextSelection) : Json :=
  .obj [("object_id", .str s.objectId), ("vote", .int s.vote), ("is_placeholder_selection", .bool s.isPlaceholder),
    ("write_in", optJson .str s.writeIn)]

/-- See `PlaintextSelection.toJson`. -/
def PlaintextSelection.ofJson (j : Json) : R PlaintextSelection := do
  let o ← asObj j
  let objectId ← need o "object_id" strOf
  let vote ← need o "vote" intOf
  let isPlaceholder ← orElse o "is_placeholder_selection" false boolOf
  let writeIn ← orElse o "write_in" none (optOf strOf)
  return ⟨objectId, vote, isPlaceholder, writeIn⟩

/-- ballot.py:289-309 `PlaintextBallotContest`; the selections default to the empty list. -/
def PlaintextContest.toJson (c : PlaintextContest) : Json :=
  .obj [("object_id", .str c.objectId), ("ballot_selections", listJson PlaintextSelection.toJson c.ballotSelections)]

/-- See `PlaintextContest.toJson`. -/
def PlaintextContest.ofJson (j : Json) : R PlaintextContest := do
  let o ← asObj j
  let objectId ← need o "object_id" strOf
  let ballotSelections ← orElse o "ballot_selections" [] (listOf PlaintextSelection.ofJson)
  return ⟨objectId, ballotSelections⟩

/-- ballot.py:695-706 `PlaintextBallot`. -/
def PlaintextBallot.toJson (b : PlaintextBallot) : Json :=
  .obj [("object_id", .str b.objectId), ("style_id", .str b.styleId), ("contests", listJson PlaintextContest.toJson b.contests)]

/-- See `PlaintextBallot.toJson`. -/
def PlaintextBallot.ofJson (j : Json) : R PlaintextBallot := do
  let o ← asObj j
  let objectId ← need o "object_id" strOf
  let styleId ← need o "style_id" strOf
  let contests ← need o "contests" (listOf PlaintextContest.ofJson)
  return ⟨objectId, styleId, contests⟩

/-- ballot.py:128-170 `CiphertextBallotSelection`. -/
def CSelection.toJson (s : CSelection) : Json :=
  .obj [("object_id", .str s.objectId), ("sequence_order", .int s.sequenceOrder), ("description_hash", elemJson s.descriptionHash),
    ("ciphertext", s.ciphertext.toJson), ("crypto_hash", elemJson s.cryptoHash), ("is_placeholder_selection", .bool s.isPlaceholder),
    ("nonce", optJson elemJson s.nonce), ("proof", optJson DisjProof.toJson s.proof)]

/-- See `CSelection.toJson`. -/
def CSelection.ofJson (P : Params) (j : Json) : R CSelection := do
  let o ← asObj j
  let objectId ← need o "object_id" strOf
  let sequenceOrder ← need o "sequence_order" intOf
  let descriptionHash ← need o "description_hash" (elemQOf P)
  let ciphertext ← need o "ciphertext" (Ciphertext.ofJson P)
  let cryptoHash ← need o "crypto_hash" (elemQOf P)
  let isPlaceholder ← orElse o "is_placeholder_selection" false boolOf
  let nonce ← orElse o "nonce" none (optOf (elemQOf P))
  let proof ← orElse o "proof" none (optOf (DisjProof.ofJson P))
  return ⟨objectId, sequenceOrder, descriptionHash, ciphertext, cryptoHash, isPlaceholder, nonce, proof⟩

/-- ballot.py:461-507 `CiphertextBallotContest`. -/
def CContest.toJson (c : CContest) : Json :=
  .obj [("object_id", .str c.objectId), ("sequence_order", .int c.sequenceOrder), ("description_hash", elemJson c.descriptionHash),
    ("ballot_selections", listJson CSelection.toJson c.ballotSelections), ("ciphertext_accumulation", c.ciphertextAccumulation.toJson),
    ("crypto_hash", elemJson c.cryptoHash), ("nonce", optJson elemJson c.nonce), ("proof", optJson ConstProof.toJson c.proof),
    ("extended_data", optJson HashedCiphertext.toJson c.extendedData)]

/-- See `CContest.toJson`. -/
def CContest.ofJson (P : Params) (j : Json) : R CContest := do
  let o ← asObj j
  let objectId ← need o "object_id" strOf
  let sequenceOrder ← need o "sequence_order" intOf
  let descriptionHash ← need o "description_hash" (elemQOf P)
  let ballotSelections ← need o "ballot_selections" (listOf (CSelection.ofJson P))
  let accumulation ← need o "ciphertext_accumulation" (Ciphertext.ofJson P)
  let cryptoHash ← need o "crypto_hash" (elemQOf P)
  let nonce ← orElse o "nonce" none (optOf (elemQOf P))
  let proof ← orElse o "proof" none (optOf (ConstProof.ofJson P))
  let extendedData ← orElse o "extended_data" none (optOf (HashedCiphertext.ofJson P))
  return ⟨objectId, sequenceOrder, descriptionHash, ballotSelections, accumulation, cryptoHash, nonce, proof, extendedData⟩

/-- ballot.py:738-775 `CiphertextBallot`: the fields. -/
def CBallot.members (b : CBallot) : List (String × Json) :=
  [("object_id", .str b.objectId), ("style_id", .str b.styleId), ("manifest_hash", elemJson b.manifestHash),
    ("code_seed", elemJson b.codeSeed), ("contests", listJson CContest.toJson b.contests), ("code", elemJson b.code),
    ("timestamp", .int b.timestamp), ("crypto_hash", elemJson b.cryptoHash), ("nonce", optJson elemJson b.nonce)]

/-- `CiphertextBallot`. -/
def CBallot.toJson (b : CBallot) : Json := .obj b.members

/-- See `CBallot.members`; the nonce is optional and has no default. -/
def CBallot.ofMembers (P : Params) (o : List (String × Json)) : R CBallot := do
  let objectId ← need o "object_id" strOf
  let styleId ← need o "style_id" strOf
  let manifestHash ← need o "manifest_hash" (elemQOf P)
  let codeSeed ← need o "code_seed" (elemQOf P)
  let contests ← need o "contests" (listOf (CContest.ofJson P))
  let code ← need o "code" (elemQOf P)
  let timestamp ← need o "timestamp" intOf
  let cryptoHash ← need o "crypto_hash" (elemQOf P)
  let nonce ← orElse o "nonce" none (optOf (elemQOf P))
  return ⟨objectId, styleId, manifestHash, codeSeed, contests, code, timestamp, cryptoHash, nonce⟩

/-- See `CBallot.toJson`. -/
def CBallot.ofJson (P : Params) (j : Json) : R CBallot := do CBallot.ofMembers P (← asObj j)

/-- ballot.py:890-907: the values of `BallotBoxState`. -/
def BallotBoxState.value : BallotBoxState → Int
  | .cast => 1
  | .spoiled => 2
  | .unknown => 999

/-- The cast to `BallotBoxState`: `True` equals 1.  Floats that equal a value, such as `1.0`, are left out (reading them raises). -/
def stateOf : Json → R BallotBoxState
  | .int n => if n = 1 then .ok .cast else if n = 2 then .ok .spoiled else if n = 999 then .ok .unknown else .error .value
  | .bool true => .ok .cast
  | _ => .error .value

/-- ballot.py:910-924 `SubmittedBallot`. -/
def SBallot.toJson (b : SBallot) : Json := .obj (b.toCBallot.members ++ [("state", .int b.state.value)])

/-- See `SBallot.toJson`. -/
def SBallot.ofJson (P : Params) (j : Json) : R SBallot := do
  let o ← asObj j
  let b ← CBallot.ofMembers P o
  let state ← need o "state" stateOf
  return ⟨b, state⟩

/-- utils.py:16-22: the values of `ContestErrorType` that encrypt.py stores. -/
def ContestErrorType.value : ContestErrorType → String
  | .nullVote => "nullvote"
  | .underVote => "undervote"
  | .overVote => "overvote"

/-- The cast to `ContestErrorType`; the member `Default`, which encrypt.py:150-180 does not store, is left out. -/
def contestErrorOf : Json → R ContestErrorType
  | .str s =>
    if s = "nullvote" then .ok .nullVote else if s = "undervote" then .ok .underVote else if s = "overvote" then .ok .overVote
    else .error .value
  | _ => .error .value

/-- encrypt.py:46-52 `ContestData`. -/
def ContestData.toJson (d : ContestData) : Json :=
  .obj [("error", optJson (fun e => .str (ContestErrorType.value e)) d.error), ("error_data", optJson (listJson .str) d.errorData),
    ("write_ins", optJson (dictJson .str) d.writeIns)]

/-- See `ContestData.toJson`. -/
def ContestData.ofJson (j : Json) : R ContestData := do
  let o ← asObj j
  let error ← orElse o "error" none (optOf contestErrorOf)
  let errorData ← orElse o "error_data" none (optOf (listOf strOf))
  let writeIns ← orElse o "write_ins" none (optOf (dictOf strOf))
  return ⟨error, errorData, writeIns⟩

/-! ### Keys -/

/-- elgamal.py:30-35 `ElGamalKeyPair`. -/
def KeyPair.toJson (k : KeyPair) : Json := .obj [("secret_key", elemJson k.secret), ("public_key", elemJson k.pub)]

/-- See `KeyPair.toJson`. -/
def KeyPair.ofJson (P : Params) (j : Json) : R KeyPair := do
  let o ← asObj j
  let s ← need o "secret_key" (elemQOf P)
  let k ← need o "public_key" (elemPOf P)
  return ⟨s, k⟩

/-- election_polynomial.py:26-39 `Coefficient`. -/
def Coefficient.toJson (c : Coefficient) : Json :=
  .obj [("value", elemJson c.value), ("commitment", elemJson c.commitment), ("proof", c.proof.toJson)]

/-- See `Coefficient.toJson`. -/
def Coefficient.ofJson (P : Params) (j : Json) : R Coefficient := do
  let o ← asObj j
  let v ← need o "value" (elemQOf P)
  let c ← need o "commitment" (elemPOf P)
  let p ← need o "proof" (SchnorrProof.ofJson P)
  return ⟨v, c, p⟩

/-- election_polynomial.py:42-52 `ElectionPolynomial`. -/
def polynomialJson (p : Polynomial') : Json := .obj [("coefficients", listJson Coefficient.toJson p)]

/-- See `polynomialJson`. -/
def polynomialOf (P : Params) (j : Json) : R Polynomial' := do
  let o ← asObj j
  need o "coefficients" (listOf (Coefficient.ofJson P))

/-- key_ceremony.py:29-57 `ElectionPublicKey`. -/
def ElectionPublicKey.toJson (k : ElectionPublicKey) : Json :=
  .obj [("owner_id", .str k.ownerId), ("sequence_order", .int k.sequenceOrder), ("key", elemJson k.key),
    ("coefficient_commitments", listJson elemJson k.commitments), ("coefficient_proofs", listJson SchnorrProof.toJson k.proofs)]

/-- See `ElectionPublicKey.toJson`. -/
def ElectionPublicKey.ofJson (P : Params) (j : Json) : R ElectionPublicKey := do
  let o ← asObj j
  let ownerId ← need o "owner_id" strOf
  let sequenceOrder ← need o "sequence_order" intOf
  let key ← need o "key" (elemPOf P)
  let commitments ← need o "coefficient_commitments" (listOf (elemPOf P))
  let proofs ← need o "coefficient_proofs" (listOf (SchnorrProof.ofJson P))
  return ⟨ownerId, sequenceOrder, key, commitments, proofs⟩

/-- key_ceremony.py:60-82 `ElectionKeyPair`. -/
def ElectionKeyPair.toJson (k : ElectionKeyPair) : Json :=
  .obj [("owner_id", .str k.ownerId), ("sequence_order", .int k.sequenceOrder), ("key_pair", k.keyPair.toJson),
    ("polynomial", polynomialJson k.polynomial)]

/-- See `ElectionKeyPair.toJson`. -/
def ElectionKeyPair.ofJson (P : Params) (j : Json) : R ElectionKeyPair := do
  let o ← asObj j
  let ownerId ← need o "owner_id" strOf
  let sequenceOrder ← need o "sequence_order" intOf
  let keyPair ← need o "key_pair" (KeyPair.ofJson P)
  let polynomial ← need o "polynomial" (polynomialOf P)
  return ⟨ownerId, sequenceOrder, keyPair, polynomial⟩

/-- key_ceremony.py:95-110 `ElectionJointKey`. -/
def ElectionJointKey.toJson (k : ElectionJointKey) : Json :=
  .obj [("joint_public_key", elemJson k.jointPublicKey), ("commitment_hash", elemJson k.commitmentHash)]

/-- See `ElectionJointKey.toJson`. -/
def ElectionJointKey.ofJson (P : Params) (j : Json) : R ElectionJointKey := do
  let o ← asObj j
  let k ← need o "joint_public_key" (elemPOf P)
  let h ← need o "commitment_hash" (elemQOf P)
  return ⟨k, h⟩

/-- key_ceremony.py:113-135 `ElectionPartialKeyBackup`. -/
def Backup.toJson (b : Backup) : Json :=
  .obj [("owner_id", .str b.ownerId), ("designated_id", .str b.designatedId), ("designated_sequence_order", .int b.designatedOrder),
    ("encrypted_coordinate", b.encrypted.toJson)]

/-- See `Backup.toJson`. -/
def Backup.ofJson (P : Params) (j : Json) : R Backup := do
  let o ← asObj j
  let ownerId ← need o "owner_id" strOf
  let designatedId ← need o "designated_id" strOf
  let designatedOrder ← need o "designated_sequence_order" intOf
  let encrypted ← need o "encrypted_coordinate" (HashedCiphertext.ofJson P)
  return ⟨ownerId, designatedId, designatedOrder, encrypted⟩

/-- key_ceremony.py:146-153 `ElectionPartialKeyVerification`. -/
def Verification.toJson (v : Verification) : Json :=
  .obj [("owner_id", .str v.ownerId), ("designated_id", .str v.designatedId), ("verifier_id", .str v.verifierId),
    ("verified", .bool v.verified)]

/-- See `Verification.toJson`. -/
def Verification.ofJson (j : Json) : R Verification := do
  let o ← asObj j
  let ownerId ← need o "owner_id" strOf
  let designatedId ← need o "designated_id" strOf
  let verifierId ← need o "verifier_id" strOf
  let verified ← need o "verified" boolOf
  return ⟨ownerId, designatedId, verifierId, verified⟩

/-- guardian.py:40-70 `GuardianRecord`. -/
def GuardianRecord.toJson (g : GuardianRecord) : Json :=
  .obj [("guardian_id", .str g.guardianId), ("sequence_order", .int g.sequenceOrder), ("election_public_key", elemJson g.publicKey),
    ("election_commitments", listJson elemJson g.commitments), ("election_proofs", listJson SchnorrProof.toJson g.proofs)]

/-- See `GuardianRecord.toJson`. -/
def GuardianRecord.ofJson (P : Params) (j : Json) : R GuardianRecord := do
  let o ← asObj j
  let guardianId ← need o "guardian_id" strOf
  let sequenceOrder ← need o "sequence_order" intOf
  let publicKey ← need o "election_public_key" (elemPOf P)
  let commitments ← need o "election_commitments" (listOf (elemPOf P))
  let proofs ← need o "election_proofs" (listOf (SchnorrProof.ofJson P))
  return ⟨guardianId, sequenceOrder, publicKey, commitments, proofs⟩

/-- guardian.py:91-113 `PrivateGuardianRecord`. -/
def PrivateGuardianRecord.toJson (r : PrivateGuardianRecord) : Json :=
  .obj [("guardian_id", .str r.guardianId), ("election_keys", r.electionKeys.toJson),
    ("backups_to_share", dictJson Backup.toJson r.backupsToShare),
    ("guardian_election_public_keys", dictJson ElectionPublicKey.toJson r.guardianKeys),
    ("guardian_election_partial_key_backups", dictJson Backup.toJson r.guardianBackups),
    ("guardian_election_partial_key_verifications", dictJson Verification.toJson r.guardianVerifications)]

/-- See `PrivateGuardianRecord.toJson`. -/
def PrivateGuardianRecord.ofJson (P : Params) (j : Json) : R PrivateGuardianRecord := do
  let o ← asObj j
  let guardianId ← need o "guardian_id" strOf
  let electionKeys ← need o "election_keys" (ElectionKeyPair.ofJson P)
  let backupsToShare ← need o "backups_to_share" (dictOf (Backup.ofJson P))
  let guardianKeys ← need o "guardian_election_public_keys" (dictOf (ElectionPublicKey.ofJson P))
  let guardianBackups ← need o "guardian_election_partial_key_backups" (dictOf (Backup.ofJson P))
  let guardianVerifications ← need o "guardian_election_partial_key_verifications" (dictOf Verification.ofJson)
  return ⟨guardianId, electionKeys, backupsToShare, guardianKeys, guardianBackups, guardianVerifications⟩

/-- key_ceremony.py:172-183 `CoordinateData`. -/
def coordinateDataJson (n : Nat) : Json := .obj [("coordinate", elemJson n)]

/-- See `coordinateDataJson`. -/
def coordinateDataOf (P : Params) (j : Json) : R Nat := do
  let o ← asObj j
  need o "coordinate" (elemQOf P)

/-- election_polynomial.py:110-117 `LagrangeCoefficientsRecord`. -/
def lagrangeJson (d : List (String × Nat)) : Json := .obj [("coefficients", dictJson elemJson d)]

/-- See `lagrangeJson`. -/
def lagrangeOf (P : Params) (j : Json) : R (List (String × Nat)) := do
  let o ← asObj j
  need o "coefficients" (dictOf (elemQOf P))

/-! ### The election -/

/-- constants.py:10-24 `ElectionConstants`. -/
def Constants.toJson (c : Constants) : Json :=
  .obj [("large_prime", elemJson c.p), ("small_prime", elemJson c.q), ("cofactor", elemJson c.r), ("generator", elemJson c.g)]

/-- See `Constants.toJson`. -/
def Constants.ofJson (j : Json) : R Constants := do
  let o ← asObj j
  let p ← need o "large_prime" bigNatOf
  let q ← need o "small_prime" bigNatOf
  let r ← need o "cofactor" bigNatOf
  let g ← need o "generator" bigNatOf
  return ⟨p, q, r, g⟩

/-- encrypt.py:63-78 `EncryptionDevice`. -/
def Device.toJson (d : Device) : Json :=
  .obj [("device_id", .int d.deviceId), ("session_id", .int d.sessionId), ("launch_code", .int d.launchCode), ("location", .str d.location)]

/-- See `Device.toJson`. -/
def Device.ofJson (j : Json) : R Device := do
  let o ← asObj j
  let deviceId ← need o "device_id" intOf
  let sessionId ← need o "session_id" intOf
  let launchCode ← need o "launch_code" intOf
  let location ← need o "location" strOf
  return ⟨deviceId, sessionId, launchCode, location⟩

/-- election.py:30-80 `CiphertextElectionContext` with the fields that `Context` leaves out; election.py:14-27 `Configuration`. -/
structure ContextFile where
  context : Context
  extendedData : Option (List (String × String))
  allowOvervotes : Bool
  maxVotes : Int

/-- See `ContextFile`. -/
def ContextFile.toJson (c : ContextFile) : Json :=
  .obj [("number_of_guardians", .int c.context.numberOfGuardians), ("quorum", .int c.context.quorum),
    ("elgamal_public_key", elemJson c.context.elgamalPublicKey), ("commitment_hash", elemJson c.context.commitmentHash),
    ("manifest_hash", elemJson c.context.manifestHash), ("crypto_base_hash", elemJson c.context.cryptoBaseHash),
    ("crypto_extended_base_hash", elemJson c.context.cryptoExtendedBaseHash),
    ("extended_data", optJson (dictJson .str) c.extendedData),
    ("configuration", .obj [("allow_overvotes", .bool c.allowOvervotes), ("max_votes", .int c.maxVotes)])]

/-- election.py:14-27 `Configuration`. -/
def configurationOf (j : Json) : R (Bool × Int) := do
  let o ← asObj j
  let allow ← orElse o "allow_overvotes" true boolOf
  let votes ← orElse o "max_votes" 1000000 intOf
  return (allow, votes)

/-- See `ContextFile`. -/
def ContextFile.ofJson (P : Params) (j : Json) : R ContextFile := do
  let o ← asObj j
  let n ← need o "number_of_guardians" intOf
  let quorum ← need o "quorum" intOf
  let key ← need o "elgamal_public_key" (elemPOf P)
  let commitmentHash ← need o "commitment_hash" (elemQOf P)
  let manifestHash ← need o "manifest_hash" (elemQOf P)
  let base ← need o "crypto_base_hash" (elemQOf P)
  let ext ← need o "crypto_extended_base_hash" (elemQOf P)
  let extendedData ← orElse o "extended_data" none (optOf (dictOf strOf))
  let conf ← orElse o "configuration" (true, 1000000) configurationOf
  return ⟨⟨n, quorum, key, commitmentHash, manifestHash, base, ext⟩, extendedData, conf.1, conf.2⟩

/-! ### Tallies -/

/-- tally.py:40-60 `CiphertextTallySelection`. -/
def TallySelection.toJson (s : TallySelection) : Json :=
  .obj [("object_id", .str s.objectId), ("sequence_order", .int s.sequenceOrder), ("description_hash", elemJson s.descriptionHash),
    ("ciphertext", s.ciphertext.toJson)]

/-- See `TallySelection.toJson`. -/
def TallySelection.ofJson (P : Params) (j : Json) : R TallySelection := do
  let o ← asObj j
  let objectId ← need o "object_id" strOf
  let sequenceOrder ← need o "sequence_order" intOf
  let descriptionHash ← need o "description_hash" (elemQOf P)
  let ciphertext ← orElse o "ciphertext" ⟨1, 1⟩ (Ciphertext.ofJson P)
  return ⟨objectId, sequenceOrder, descriptionHash, ciphertext⟩

/-- tally.py:82-97 `CiphertextTallyContest`. -/
def TallyContest.toJson (c : TallyContest) : Json :=
  .obj [("object_id", .str c.objectId), ("sequence_order", .int c.sequenceOrder), ("description_hash", elemJson c.descriptionHash),
    ("selections", dictJson TallySelection.toJson c.selections)]

/-- See `TallyContest.toJson`. -/
def TallyContest.ofJson (P : Params) (j : Json) : R TallyContest := do
  let o ← asObj j
  let objectId ← need o "object_id" strOf
  let sequenceOrder ← need o "sequence_order" intOf
  let descriptionHash ← need o "description_hash" (elemQOf P)
  let selections ← need o "selections" (dictOf (TallySelection.ofJson P))
  return ⟨objectId, sequenceOrder, descriptionHash, selections⟩

/-- tally.py:180-186 `PublishedCiphertextTally`. -/
def PublishedTally.toJson (t : PublishedTally) : Json :=
  .obj [("object_id", .str t.objectId), ("contests", dictJson TallyContest.toJson t.contests)]

/-- See `PublishedTally.toJson`. -/
def PublishedTally.ofJson (P : Params) (j : Json) : R PublishedTally := do
  let o ← asObj j
  let objectId ← need o "object_id" strOf
  let contests ← need o "contests" (dictOf (TallyContest.ofJson P))
  return ⟨objectId, contests⟩

/-- decryption_share.py:15-44 `CiphertextCompensatedDecryptionSelection`. -/
def CompSelection.toJson (s : CompSelection) : Json :=
  .obj [("object_id", .str s.objectId), ("guardian_id", .str s.guardianId), ("missing_guardian_id", .str s.missingId),
    ("share", elemJson s.share), ("recovery_key", elemJson s.recoveryKey), ("proof", s.proof.toJson)]

/-- See `CompSelection.toJson`. -/
def CompSelection.ofJson (P : Params) (j : Json) : R CompSelection := do
  let o ← asObj j
  let objectId ← need o "object_id" strOf
  let guardianId ← need o "guardian_id" strOf
  let missingId ← need o "missing_guardian_id" strOf
  let share ← need o "share" (elemPOf P)
  let recoveryKey ← need o "recovery_key" (elemPOf P)
  let proof ← need o "proof" (CPProof.ofJson P)
  return ⟨objectId, guardianId, missingId, share, recoveryKey, proof⟩

/-- decryption_share.py:52-88 `CiphertextDecryptionSelection`. -/
def DecSelection.toJson (s : DecSelection) : Json :=
  .obj [("object_id", .str s.objectId), ("guardian_id", .str s.guardianId), ("share", elemJson s.share),
    ("proof", optJson CPProof.toJson s.proof), ("recovered_parts", optJson (dictJson CompSelection.toJson) s.recovered)]

/-- See `DecSelection.toJson`. -/
def DecSelection.ofJson (P : Params) (j : Json) : R DecSelection := do
  let o ← asObj j
  let objectId ← need o "object_id" strOf
  let guardianId ← need o "guardian_id" strOf
  let share ← need o "share" (elemPOf P)
  let proof ← orElse o "proof" none (optOf (CPProof.ofJson P))
  let recovered ← orElse o "recovered_parts" none (optOf (dictOf (CompSelection.ofJson P)))
  return ⟨objectId, guardianId, share, proof, recovered⟩

/-- tally.py:25-37 `PlaintextTallySelection`. -/
def PTSelection.toJson (s : PTSelection) : Json :=
  .obj [("object_id", .str s.objectId), ("tally", .int s.tally), ("value", elemJson s.value), ("message", s.message.toJson),
    ("shares", listJson DecSelection.toJson s.shares)]

/-- See `PTSelection.toJson`. -/
def PTSelection.ofJson (P : Params) (j : Json) : R PTSelection := do
  let o ← asObj j
  let objectId ← need o "object_id" strOf
  let tally ← need o "tally" natOf
  let value ← need o "value" (elemPOf P)
  let message ← need o "message" (Ciphertext.ofJson P)
  let shares ← need o "shares" (listOf (DecSelection.ofJson P))
  return ⟨objectId, tally, value, message, shares⟩

/-- tally.py:73-79 `PlaintextTallyContest`. -/
def PTContest.toJson (c : PTContest) : Json :=
  .obj [("object_id", .str c.objectId), ("selections", dictJson PTSelection.toJson c.selections)]

/-- See `PTContest.toJson`. -/
def PTContest.ofJson (P : Params) (j : Json) : R PTContest := do
  let o ← asObj j
  let objectId ← need o "object_id" strOf
  let selections ← need o "selections" (dictOf (PTSelection.ofJson P))
  return ⟨objectId, selections⟩

/-- tally.py:171-177 `PlaintextTally`. -/
def PlaintextTally.toJson (t : PlaintextTally) : Json :=
  .obj [("object_id", .str t.objectId), ("contests", dictJson PTContest.toJson t.contests)]

/-- See `PlaintextTally.toJson`. -/
def PlaintextTally.ofJson (P : Params) (j : Json) : R PlaintextTally := do
  let o ← asObj j
  let objectId ← need o "object_id" strOf
  let contests ← need o "contests" (dictOf (PTContest.ofJson P))
  return ⟨objectId, contests⟩

/-! ### The manifest -/

/-- manifest.py:99-117 `AnnotatedString`. -/
def AnnotatedString.toJson (a : AnnotatedString) : Json := .obj [("annotation", .str a.annotation), ("value", .str a.value)]

/-- See `AnnotatedString.toJson`. -/
def AnnotatedString.ofJson (j : Json) : R AnnotatedString := do
  let o ← asObj j
  let annotation ← orElse o "annotation" "" strOf
  let value ← orElse o "value" "" strOf
  return ⟨annotation, value⟩

/-- manifest.py:128-146 `Language`. -/
def Language.toJson (a : Language) : Json := .obj [("value", .str a.value), ("language", .str a.language)]

/-- See `Language.toJson`. -/
def Language.ofJson (j : Json) : R Language := do
  let o ← asObj j
  let value ← need o "value" strOf
  let language ← orElse o "language" "en" strOf
  return ⟨value, language⟩

/-- manifest.py:157-172 `InternationalizedText`. -/
def InternationalizedText.toJson (t : InternationalizedText) : Json := .obj [("text", listJson Language.toJson t.text)]

/-- See `InternationalizedText.toJson`. -/
def InternationalizedText.ofJson (j : Json) : R InternationalizedText := do
  let o ← asObj j
  let text ← orElse o "text" [] (listOf Language.ofJson)
  return ⟨text⟩

/-- manifest.py:183-207 `ContactInformation`. -/
def ContactInformation.toJson (c : ContactInformation) : Json :=
  .obj [("address_line", optJson (listJson .str) c.addressLine), ("email", optJson (listJson AnnotatedString.toJson) c.email),
    ("phone", optJson (listJson AnnotatedString.toJson) c.phone), ("name", optJson .str c.name)]

/-- See `ContactInformation.toJson`. -/
def ContactInformation.ofJson (j : Json) : R ContactInformation := do
  let o ← asObj j
  let addressLine ← orElse o "address_line" none (optOf (listOf strOf))
  let email ← orElse o "email" none (optOf (listOf AnnotatedString.ofJson))
  let phone ← orElse o "phone" none (optOf (listOf AnnotatedString.ofJson))
  let name ← orElse o "name" none (optOf strOf)
  return ⟨addressLine, email, phone, name⟩

/-- manifest.py:30-66: the values of `ReportingUnitType`, which are its names. -/
def reportingUnitTypes : List String :=
  ["unknown", "ballot_batch", "ballot_style_area", "borough", "city", "city_council", "combined_precinct", "congressional", "country",
    "county", "county_council", "drop_box", "judicial", "municipality", "polling_place", "precinct", "school", "special",
    "split_precinct", "state", "state_house", "state_senate", "township", "utility", "village", "vote_center", "ward", "water", "other"]

/-- manifest.py:217-227 `GeopoliticalUnit`. -/
def GeopoliticalUnit.toJson (u : GeopoliticalUnit) : Json :=
  .obj [("object_id", .str u.objectId), ("name", .str u.name), ("type", .str u.type),
    ("contact_information", optJson ContactInformation.toJson u.contactInformation)]

/-- See `GeopoliticalUnit.toJson`. -/
def GeopoliticalUnit.ofJson (j : Json) : R GeopoliticalUnit := do
  let o ← asObj j
  let objectId ← need o "object_id" strOf
  let name ← need o "name" strOf
  let type ← need o "type" (enumOf reportingUnitTypes)
  let contact ← orElse o "contact_information" none (optOf ContactInformation.ofJson)
  return ⟨objectId, name, type, contact⟩

/-- manifest.py:239-247 `BallotStyle`. -/
def BallotStyle.toJson (s : BallotStyle) : Json :=
  .obj [("object_id", .str s.objectId), ("geopolitical_unit_ids", optJson (listJson .str) s.geopoliticalUnitIds),
    ("party_ids", optJson (listJson .str) s.partyIds), ("image_uri", optJson .str s.imageUri)]

/-- See `BallotStyle.toJson`. -/
def BallotStyle.ofJson (j : Json) : R BallotStyle := do
  let o ← asObj j
  let objectId ← need o "object_id" strOf
  let units ← orElse o "geopolitical_unit_ids" none (optOf (listOf strOf))
  let parties ← orElse o "party_ids" none (optOf (listOf strOf))
  let image ← orElse o "image_uri" none (optOf strOf)
  return ⟨objectId, units, parties, image⟩

/-- manifest.py:259-269 `Party`. -/
def Party.toJson (p : Party) : Json :=
  .obj [("object_id", .str p.objectId), ("name", p.name.toJson), ("abbreviation", optJson .str p.abbreviation),
    ("color", optJson .str p.color), ("logo_uri", optJson .str p.logoUri)]

/-- See `Party.toJson`. -/
def Party.ofJson (j : Json) : R Party := do
  let o ← asObj j
  let objectId ← need o "object_id" strOf
  let name ← orElse o "name" ⟨[]⟩ InternationalizedText.ofJson
  let abbreviation ← orElse o "abbreviation" none (optOf strOf)
  let color ← orElse o "color" none (optOf strOf)
  let logo ← orElse o "logo_uri" none (optOf strOf)
  return ⟨objectId, name, abbreviation, color, logo⟩

/-- manifest.py:291-306 `Candidate`. -/
def Candidate.toJson (c : Candidate) : Json :=
  .obj [("object_id", .str c.objectId), ("name", c.name.toJson), ("party_id", optJson .str c.partyId),
    ("image_uri", optJson .str c.imageUri), ("is_write_in", optJson .bool c.isWriteIn)]

/-- See `Candidate.toJson`. -/
def Candidate.ofJson (j : Json) : R Candidate := do
  let o ← asObj j
  let objectId ← need o "object_id" strOf
  let name ← orElse o "name" ⟨[]⟩ InternationalizedText.ofJson
  let party ← orElse o "party_id" none (optOf strOf)
  let image ← orElse o "image_uri" none (optOf strOf)
  let writeIn ← orElse o "is_write_in" none (optOf boolOf)
  return ⟨objectId, name, party, image, writeIn⟩

/-- manifest.py:322-337 `SelectionDescription`. -/
def SelectionDescription.toJson (s : SelectionDescription) : Json :=
  .obj [("object_id", .str s.objectId), ("sequence_order", .int s.sequenceOrder), ("candidate_id", .str s.candidateId)]

/-- See `SelectionDescription.toJson`. -/
def SelectionDescription.ofJson (j : Json) : R SelectionDescription := do
  let o ← asObj j
  let objectId ← need o "object_id" strOf
  let sequenceOrder ← need o "sequence_order" intOf
  let candidateId ← need o "candidate_id" strOf
  return ⟨objectId, sequenceOrder, candidateId⟩

/-- The cast to `VoteVariationType`; the values are the names. -/
def variationOf : Json → R VoteVariation
  | .str s =>
    match [VoteVariation.one_of_m, .approval, .borda, .cumulative, .majority, .n_of_m, .plurality, .proportional, .range, .rcv,
      .super_majority, .other].find? (fun v => v.name == s) with
    | some v => .ok v
    | none => .error .value
  | _ => .error .value

/-- manifest.py:348-384 `ContestDescription`; manifest.py:494-504: a `CandidateContestDescription` has one more field. -/
def ContestDescription.toJson (c : ContestDescription) : Json :=
  .obj ([("object_id", .str c.objectId), ("sequence_order", .int c.sequenceOrder),
    ("electoral_district_id", .str c.electoralDistrictId), ("vote_variation", .str c.voteVariation.name),
    ("number_elected", .int c.numberElected), ("votes_allowed", optJson .int c.votesAllowed), ("name", .str c.name),
    ("ballot_selections", listJson SelectionDescription.toJson c.ballotSelections),
    ("ballot_title", optJson InternationalizedText.toJson c.ballotTitle),
    ("ballot_subtitle", optJson InternationalizedText.toJson c.ballotSubtitle)] ++
    match c.primaryPartyIds with
    | some ids => [("primary_party_ids", listJson .str ids)]
    | none => [])

/-- The contests of a manifest are read as `ContestDescription` (manifest.py:600), whatever class they were of. -/
def ContestDescription.ofJson (j : Json) : R ContestDescription := do
  let o ← asObj j
  let objectId ← need o "object_id" strOf
  let sequenceOrder ← need o "sequence_order" intOf
  let district ← need o "electoral_district_id" strOf
  let variation ← need o "vote_variation" variationOf
  let elected ← need o "number_elected" intOf
  let allowed ← orElse o "votes_allowed" none (optOf intOf)
  let name ← need o "name" strOf
  let selections ← orElse o "ballot_selections" [] (listOf SelectionDescription.ofJson)
  let title ← orElse o "ballot_title" none (optOf InternationalizedText.ofJson)
  let subtitle ← orElse o "ballot_subtitle" none (optOf InternationalizedText.ofJson)
  return ⟨objectId, sequenceOrder, district, variation, elected, allowed, name, selections, title, subtitle, none⟩

/-- manifest.py:13-27: the values of `ElectionType`, which are its names. -/
def electionTypes : List String :=
  ["unknown", "general", "partisan_primary_closed", "partisan_primary_open", "primary", "runoff", "special", "other"]

/-- manifest.py:569-573: the values of `SpecVersion`. -/
def specVersions : List String := ["v0.95", "1.0"]

/-- manifest.py:577-604 `Manifest`. -/
def Manifest.toJson (m : Manifest) : Json :=
  .obj [("election_scope_id", .str m.electionScopeId), ("spec_version", .str m.specVersion), ("type", .str m.type),
    ("start_date", .str m.startDate), ("end_date", .str m.endDate),
    ("geopolitical_units", listJson GeopoliticalUnit.toJson m.geopoliticalUnits), ("parties", listJson Party.toJson m.parties),
    ("candidates", listJson Candidate.toJson m.candidates), ("contests", listJson ContestDescription.toJson m.contests),
    ("ballot_styles", listJson BallotStyle.toJson m.ballotStyles), ("name", optJson InternationalizedText.toJson m.name),
    ("contact_information", optJson ContactInformation.toJson m.contactInformation)]

/-- See `Manifest.toJson`. -/
def Manifest.ofJson (j : Json) : R Manifest := do
  let o ← asObj j
  let scope ← need o "election_scope_id" strOf
  let version ← need o "spec_version" (enumOf specVersions)
  let type ← need o "type" (enumOf electionTypes)
  let start ← need o "start_date" strOf
  let stop ← need o "end_date" strOf
  let units ← need o "geopolitical_units" (listOf GeopoliticalUnit.ofJson)
  let parties ← need o "parties" (listOf Party.ofJson)
  let candidates ← need o "candidates" (listOf Candidate.ofJson)
  let contests ← need o "contests" (listOf ContestDescription.ofJson)
  let styles ← need o "ballot_styles" (listOf BallotStyle.ofJson)
  let name ← orElse o "name" none (optOf InternationalizedText.ofJson)
  let contact ← orElse o "contact_information" none (optOf ContactInformation.ofJson)
  return ⟨scope, version, type, start, stop, units, parties, candidates, contests, styles, name, contact⟩

/-! ### Texts and files -/

/-- serialize.py:84-87 `to_raw`. -/
def toRaw {α : Type} (enc : α → Json) (a : α) : List Char := (enc a).dumps

/-- serialize.py:68-71 `from_raw` of a text; serialize.py:97-102 `from_file`. -/
def fromRaw {α : Type} (dec : Json → R α) (raw : List Char) : R α := do dec (← jsonLoads raw)

/-- serialize.py:74-81 `from_list_raw`; 105-113 `from_list_in_file`.  Going through an object gives its keys, through a text its
characters, neither of which `from_dict` takes; an empty one gives an empty list. -/
def fromListRaw {α : Type} (dec : Json → R α) (raw : List Char) : R (List α) := do
  match ← jsonLoads raw with
  | .arr xs => xs.mapM dec
  | .obj [] => return []
  | .str s => if s = "" then return [] else .error .type
  | _ => .error .type

/-- The text of bytes that are all ASCII.  `json.loads` of bytes decodes them first; other bytes are left out (reading them raises). -/
def asciiText (bs : Bytes) : R (List Char) :=
  if bs.all (fun b => 1 ≤ b.toNat && b.toNat < 128) then .ok (bs.map (fun b => Char.ofNat b.toNat)) else .error .value

/-- serialize.py:47-48 `padded_encode`.  The text is ASCII, so its UTF-8 bytes are those of its characters. -/
def paddedEncode {α : Type} (enc : α → Json) (a : α) : R Bytes := addPadding (asciiBytes (toRaw enc a)) 512 false

/-- serialize.py:51-54 `padded_decode`. -/
def paddedDecode {α : Type} (dec : Json → R α) (bs : Bytes) : R α := do fromRaw dec (← asciiText (removePadding bs 512))

/-- key_ceremony.py:178-180 with serialize.py:51-54 and 68-71: reading the coordinate of a backup, up to the cast to `ElementModQ`
(`coordinateFromBytes` casts the text). -/
def loadsCoordinate (bs : Bytes) : R (List Char) := do
  let j ← jsonLoads (← asciiText bs)
  let n ← need (← asObj j) "coordinate" bigOf
  if 0 ≤ n then return toHex n.toNat else .error .overflow

/-- encrypt.py:59-60 with serialize.py:47-48, 84-87: the bytes of the contest data before padding. -/
def contestDataJson (d : ContestData) : Bytes := asciiBytes (toRaw ContestData.toJson d)

/-- ballot_upload_service.py `from_raw(SubmittedBallot, …)`: `none` if it raises. -/
def parseSubmitted (P : Params) (raw : List Char) : Option SBallot := (fromRaw (SBallot.ofJson P) raw).toOption

end EG
