import Verif.Model.EncryptLog

/-!
# The log of an encryption, from public values

What a reader of the published ballot can write down without knowing anything else: the messages with the ids,
hashes and ciphertexts of the ballot and the election key.  Nonces do not occur.
-/

namespace EG

/-- The messages about a published selection. -/
def selectionPublic (key : Nat) (s : CSelection) : List EncMsg :=
  [.encryptSelection s.objectId s.descriptionHash, .publicKey key, .pad s.ciphertext.pad, .data s.ciphertext.data]

/-- The messages about published contest data: 512 bytes, of which the ballot holds the hexadecimal text. -/
def dataPublic (key : Nat) (x : HashedCiphertext) : List EncMsg :=
  match toPaddedBytes x.data with
  | .error _ => []
  | .ok bs => [.publicKey key, .pad x.pad, .hashedData bs, .mac x.mac, .toMac (toHexBytes x.pad ++ bs)]

/-- The messages about a published contest. -/
def contestPublic (key : Nat) (c : CContest) : List EncMsg :=
  c.ballotSelections.flatMap (selectionPublic key) ++ (c.extendedData.map (dataPublic key)).getD []

/-- The messages about a published ballot. -/
def ballotPublic (key manifestHash codeSeed : Nat) (contests : List CContest) : List EncMsg :=
  [.manifestHash manifestHash, .encryptionSeed codeSeed] ++ contests.flatMap (contestPublic key) ++
    if contests = [] then [.noContests] else []

/-- The message shows how somebody voted. -/
def EncMsg.ShowsVote : EncMsg → Prop
  | .badVote _ | .malformedSelection _ | .malformedBallot _ => True
  | _ => False

instance : DecidablePred EncMsg.ShowsVote := fun m => by cases m <;> unfold EncMsg.ShowsVote <;> infer_instance

end EG
