import Verif.Model.Encrypt
import Verif.Spec.ElGamal
import Verif.Spec.Vote

/-!
# Specification of an encrypted contest
-/

namespace EG

/-- An overvoted contest: something is chosen, and it is more than there are seats, or it fills the seats and the
votes exceed the votes allowed. -/
def PlaintextContest.over (c : PlaintextContest) (d : ContestWithPlaceholders) : Bool :=
  decide (0 < c.chosen) && (decide (d.numberElected < c.chosen) || (decide (c.chosen = d.numberElected) &&
    match d.votesAllowed with
    | none => false
    | some v => decide (v < c.voteSum)))

/-- The voter's mark for the selection with this id: the first one on the contest, 0 if there is none. -/
def PlaintextContest.marked (c : PlaintextContest) (sid : String) : Nat :=
  match c.ballotSelections.find? (fun s => s.objectId == sid) with
  | some s => s.vote.toNat
  | none => 0

/-- The vote that counts for a selection: nothing on an overvoted contest. -/
def PlaintextContest.effective (c : PlaintextContest) (d : ContestWithPlaceholders) (sid : String) : Nat :=
  if c.over d then 0 else c.marked sid

/-- `e` is the encrypted selection described by `sd`, holding the vote `v`, under the public key `key`. -/
structure CSelection.Holds (E : Env) (key : Nat) (e : CSelection) (sd : SelectionDescription) (v : Nat)
    (placeholder : Bool) : Prop where
  id : e.objectId = sd.objectId
  order : e.sequenceOrder = sd.sequenceOrder
  hash : e.descriptionHash = sd.cryptoHash E
  flag : e.isPlaceholder = placeholder
  binary : v ≤ 1
  vote : ∃ r, e.nonce = some r ∧ EncryptsWith E.P key r v e.ciphertext

/-- The votes of `n` placeholders that follow `count` votes: one each until the seats are filled. -/
def fillVotes (seats count : Int) (n : Nat) : List Nat :=
  (List.range n).map (fun i : Nat => if count + i < seats then 1 else 0)

/-- What `encrypt_contest` needs in order to return an encryption of `c`. -/
structure Encryptable (E : Env) (json : ContestData → Bytes) (c : PlaintextContest) (d : ContestWithPlaceholders)
    (seed : Nat) : Prop where
  belongs : c.Belongs d
  /-- the votes allowed do not exceed the number elected, unless the contest is not fully voted or overvoted -/
  allowed : c.chosen = d.numberElected → 0 < c.chosen → ∀ v, d.votesAllowed = some v → v ≤ c.chosen ∨ v < c.voteSum
  binary : c.over d = false → ∀ s ∈ c.ballotSelections, s.vote = 0 ∨ s.vote = 1
  some : d.ballotSelections ++ d.placeholders ≠ []
  contestOrder : 0 ≤ d.sequenceOrder
  orders : ∀ sd ∈ d.ballotSelections ++ d.placeholders, 0 ≤ sd.sequenceOrder
  nonces : ∀ sd ∈ d.ballotSelections ++ d.placeholders,
    nonce E (sd.cryptoHash E) [.elem (nonce E (d.cryptoHash E) [.elem seed] d.sequenceOrder.toNat)]
      sd.sequenceOrder.toNat ≠ 0 ∧
    nonce E (nonce E (sd.cryptoHash E) [.elem (nonce E (d.cryptoHash E) [.elem seed] d.sequenceOrder.toNat)] 0)
      disjHeader 0 ≠ 0
  /-- what is written about the contest fits in its block -/
  data : c.over d = false → ∀ err, (json ⟨err, none, c.writeIns⟩).length ≤ 510
  /-- with the ids of all that is chosen on an overvoted contest -/
  overData : c.over d = true → (json ⟨Option.some .overVote,
    Option.some ((c.ballotSelections.filter (fun s => decide (0 < s.vote))).map PlaintextSelection.objectId), c.writeIns⟩).length ≤ 510

/-- The contest a ballot holds for a description: the first with its id, blank if there is none. -/
def PlaintextBallot.voted (b : PlaintextBallot) (d : ContestDescription) : PlaintextContest :=
  match b.contests.find? (fun c => c.objectId == d.objectId) with
  | some c => c
  | none => ⟨d.objectId, d.ballotSelections.map (fun s => ⟨s.objectId, 0, false, none⟩)⟩

end EG
