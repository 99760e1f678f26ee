import Verif.Model.Encrypt
import Verif.Spec.Hash

/-!
# Specification of the chain of ballot codes and of the content a ballot hash commits to
-/

namespace EG

/-- The ballots returned by a sequence of calls. -/
def returned : List (R (Option CBallot)) → List CBallot
  | [] => []
  | .ok (some b) :: rs => b :: returned rs
  | _ :: rs => returned rs

/-- The ballots form a chain starting from `prev`: each one records its predecessor's code and its own code is the
hash of that code, its timestamp and its hash. -/
def CodeChain (E : Env) : Nat → List CBallot → Prop
  | _, [] => True
  | prev, b :: bs => b.codeSeed = prev ∧
      b.code = hashElems E [.elem prev, .int b.timestamp, .elem b.cryptoHash] ∧ CodeChain E b.code bs

/-- The last code after the given (timestamp, ballot hash) entries. -/
def lastCode (E : Env) : Nat → List (Int × Nat) → Nat
  | prev, [] => prev
  | prev, e :: es => lastCode E (hashElems E [.elem prev, .int e.1, .elem e.2]) es

/-- The texts hashed for these codes. -/
def codeTexts (E : Env) : Nat → List (Int × Nat) → List (List Char)
  | _, [] => []
  | prev, e :: es => hashText E [.elem prev, .int e.1, .elem e.2] ::
      codeTexts E (hashElems E [.elem prev, .int e.1, .elem e.2]) es

/-- The text hashed for a device. -/
def Device.text (E : Env) (d : Device) : List Char :=
  hashText E [.int d.deviceId, .int d.sessionId, .int d.launchCode, .str d.location]

/-- What identifies a selection's vote: its id, the hash of its description and its ciphertext. -/
def CSelection.content (s : CSelection) : String × Nat × Ciphertext := (s.objectId, s.descriptionHash, s.ciphertext)

/-- Two contests with the same votes: same id, description hash and accumulation, and the same selections, in an
order that may differ. -/
structure SameVotes (c c' : CContest) : Prop where
  id : c.objectId = c'.objectId
  hash : c.descriptionHash = c'.descriptionHash
  votes : (c.ballotSelections.map CSelection.content).Perm (c'.ballotSelections.map CSelection.content)
  total : c.ciphertextAccumulation = c'.ciphertextAccumulation

/-- No id on the ballot contains the separator of the hash encoding. -/
def CBallot.PlainIds (b : CBallot) : Prop :=
  '|' ∉ b.objectId.toList ∧
  ∀ c ∈ b.contests, '|' ∉ c.objectId.toList ∧ ∀ s ∈ c.ballotSelections, '|' ∉ s.objectId.toList

/-- The texts hashed when a selection's hash is recomputed. -/
def CSelection.texts (E : Env) (s : CSelection) : List (List Char) :=
  [hashText E [.elem s.ciphertext.pad, .elem s.ciphertext.data],
    hashText E [.str s.objectId, .elem s.descriptionHash, .elem (s.ciphertext.cryptoHash E)]]

/-- The texts hashed when a contest's hash and those of its selections are recomputed. -/
def CContest.texts (E : Env) (c : CContest) : List (List Char) :=
  hashText E (.str c.objectId :: .elem c.descriptionHash ::
      (sequenceOrderSort CSelection.sequenceOrder c.ballotSelections).map (fun s => .elem s.cryptoHash)) ::
    c.ballotSelections.flatMap (CSelection.texts E)

/-- The texts hashed when a ballot's hash and those of its parts are recomputed. -/
def CBallot.texts (E : Env) (b : CBallot) : List (List Char) :=
  hashText E (.str b.objectId :: .elem b.manifestHash :: b.contests.map (fun c => .elem c.cryptoHash)) ::
    b.contests.flatMap (CContest.texts E)

end EG
