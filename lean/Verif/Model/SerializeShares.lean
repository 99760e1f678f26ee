import Verif.Model.Serialize
import Verif.Model.GuiDecryption

/-!
# Shares as JSON, and the texts that the GUI keeps of a decryption
-/

namespace EG

/-- decryption_share.py:194-213 `CiphertextDecryptionContest`. -/
def DecContest.toJson (c : DecContest) : Json :=
  .obj [("object_id", .str c.objectId), ("guardian_id", .str c.guardianId), ("description_hash", elemJson c.descriptionHash),
    ("selections", dictJson DecSelection.toJson c.selections)]

/-- See `DecContest.toJson`. -/
def DecContest.ofJson (P : Params) (j : Json) : R DecContest := do
  let o ← asObj j
  let objectId ← need o "object_id" strOf
  let guardianId ← need o "guardian_id" strOf
  let descriptionHash ← need o "description_hash" (elemQOf P)
  let selections ← need o "selections" (dictOf (DecSelection.ofJson P))
  return ⟨objectId, guardianId, descriptionHash, selections⟩

/-- decryption_share.py:243-262 `DecryptionShare`. -/
def DecShare.toJson (s : DecShare) : Json :=
  .obj [("object_id", .str s.objectId), ("guardian_id", .str s.guardianId), ("public_key", elemJson s.publicKey),
    ("contests", dictJson DecContest.toJson s.contests)]

/-- See `DecShare.toJson`. -/
def DecShare.ofJson (P : Params) (j : Json) : R DecShare := do
  let o ← asObj j
  let objectId ← need o "object_id" strOf
  let guardianId ← need o "guardian_id" strOf
  let publicKey ← need o "public_key" (elemPOf P)
  let contests ← need o "contests" (dictOf (DecContest.ofJson P))
  return ⟨objectId, guardianId, publicKey, contests⟩

/-- decryption_share.py:216-240 `CiphertextCompensatedDecryptionContest`. -/
def CompContest.toJson (c : CompContest) : Json :=
  .obj [("object_id", .str c.objectId), ("guardian_id", .str c.guardianId), ("missing_guardian_id", .str c.missingId),
    ("description_hash", elemJson c.descriptionHash), ("selections", dictJson CompSelection.toJson c.selections)]

/-- See `CompContest.toJson`. -/
def CompContest.ofJson (P : Params) (j : Json) : R CompContest := do
  let o ← asObj j
  let objectId ← need o "object_id" strOf
  let guardianId ← need o "guardian_id" strOf
  let missingId ← need o "missing_guardian_id" strOf
  let descriptionHash ← need o "description_hash" (elemQOf P)
  let selections ← need o "selections" (dictOf (CompSelection.ofJson P))
  return ⟨objectId, guardianId, missingId, descriptionHash, selections⟩

/-- decryption_share.py:265-290 `CompensatedDecryptionShare`. -/
def CompShare.toJson (s : CompShare) : Json :=
  .obj [("object_id", .str s.objectId), ("guardian_id", .str s.guardianId), ("missing_guardian_id", .str s.missingId),
    ("public_key", elemJson s.publicKey), ("contests", dictJson CompContest.toJson s.contests)]

/-- See `CompShare.toJson`. -/
def CompShare.ofJson (P : Params) (j : Json) : R CompShare := do
  let o ← asObj j
  let objectId ← need o "object_id" strOf
  let guardianId ← need o "guardian_id" strOf
  let missingId ← need o "missing_guardian_id" strOf
  let publicKey ← need o "public_key" (elemPOf P)
  let contests ← need o "contests" (dictOf (CompContest.ofJson P))
  return ⟨objectId, guardianId, missingId, publicKey, contests⟩

/-! ### The documents of the database -/

/-- decryption_service.py:117-134: an entry of `decryption_shares` as it is stored. -/
structure JoinedDoc where
  guardianId : String
  key : List Char
  tallyShare : List Char
  ballotShares : List (String × Option (List Char))
  deriving DecidableEq

/-- decryption_service.py:114-134 and 170-173: what `append_guardian_joined` stores. -/
def JoinedShare.toDoc (s : JoinedShare) : JoinedDoc where
  guardianId := s.guardianId
  key := toRaw ElectionPublicKey.toJson s.key
  tallyShare := toRaw DecShare.toJson s.tallyShare
  ballotShares := s.ballotShares.map (fun b => (b.1, b.2.map (toRaw DecShare.toJson)))

/-- decryption_dto.py:26-29: the share of one ballot; `from_raw` of `None` raises `TypeError`. -/
def readBallotShare (P : Params) (b : String × Option (List Char)) : R (String × Option DecShare) :=
  match b.2 with
  | none => .error .type
  | some raw => do return (b.1, some (← fromRaw (DecShare.ofJson P) raw))

/-- decryption_dto.py:13-29 `GuardianDecryptionShare.__init__`. -/
def JoinedDoc.read (P : Params) (d : JoinedDoc) : R JoinedShare := do
  let key ← fromRaw (ElectionPublicKey.ofJson P) d.key
  let tallyShare ← fromRaw (DecShare.ofJson P) d.tallyShare
  let ballotShares ← d.ballotShares.mapM (readBallotShare P)
  return ⟨d.guardianId, key, tallyShare, ballotShares⟩

/-- decryption_service.py:151-166: the results of a decryption as they are stored. -/
structure ResultDoc where
  tally : List Char
  ballots : List (String × List Char)
  lagrange : List Char
  ciphertextTally : List Char
  deriving DecidableEq

/-- decryption_service.py:140-167: what `set_decryption_completed` stores; decryption_s2_announce_service.py: the encrypted tally is
published first. -/
def GuiResult.toDoc (r : GuiResult) : ResultDoc where
  tally := toRaw PlaintextTally.toJson r.tally
  ballots := r.ballots.map (fun b => (b.1, toRaw PlaintextTally.toJson b.2))
  lagrange := toRaw lagrangeJson r.lagrange
  ciphertextTally := toRaw PublishedTally.toJson r.ciphertextTally.publish

/-- decryption_dto.py:137-156: what the four getters read. -/
def ResultDoc.read (P : Params) (d : ResultDoc) : R (PlaintextTally × List PlaintextTally × List (String × Nat) × PublishedTally) := do
  let tally ← fromRaw (PlaintextTally.ofJson P) d.tally
  let ballots ← d.ballots.mapM (fun b => fromRaw (PlaintextTally.ofJson P) b.2)
  let lagrange ← fromRaw (lagrangeOf P) d.lagrange
  let ciphertextTally ← fromRaw (PublishedTally.ofJson P) d.ciphertextTally
  return (tally, ballots, lagrange, ciphertextTally)

end EG
