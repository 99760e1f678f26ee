import Verif.Lemmas.Sort
import Verif.Lemmas.Validator
import Verif.Model.BallotBox

/-!
# Lemmas about submitting a ballot
-/

namespace EG

theorem stripNonces_valid (E : Env) (c : CContest) (seed key baseHash : Nat) :
    c.stripNonces.isValidEncryption E seed key baseHash = c.isValidEncryption E seed key baseHash := by
  have hh : contestCryptoHash E c.objectId c.stripNonces.ballotSelections seed
      = contestCryptoHash E c.objectId c.ballotSelections seed := by
    unfold contestCryptoHash CContest.stripNonces
    simp only [List.length_map]
    split
    · rfl
    · unfold sequenceOrderSort sortByInt
      rw [stableSort_map, List.map_map]
      rfl
  have ha : accumulateSelections E.P c.stripNonces.ballotSelections = accumulateSelections E.P c.ballotSelections := by
    unfold accumulateSelections CContest.stripNonces
    simp only [List.map_map]
    rfl
  unfold CContest.isValidEncryption CContest.cryptoHashWith
  have hi : c.stripNonces.objectId = c.objectId := rfl
  rw [hi, hh, ha]
  rfl

theorem submitBallot_valid_iff (E : Env) (b : CBallot) (state : BallotBoxState) (seed key baseHash : Nat) :
    (submitBallot E b state).toCBallot.isValidEncryption E seed key baseHash = .ok true ↔
      seed = b.manifestHash ∧ b.contests ≠ [] ∧
      createBallotHash E b.objectId b.manifestHash b.contests =
        hashElems E (.str b.objectId :: .elem seed :: b.contests.map (fun c => .elem c.cryptoHash)) ∧
      (∀ c ∈ b.contests, (∀ s ∈ c.ballotSelections, s.isValidEncryption E s.descriptionHash key baseHash = true) ∧
        c.isValidEncryption E c.descriptionHash key baseHash = .ok true) ∨
      seed = b.manifestHash ∧ b.contests = [] ∧ createBallotHash E b.objectId b.manifestHash [] = 0 := by
  rw [CBallot.isValidEncryption_iff]
  have h1 : (submitBallot E b state).manifestHash = b.manifestHash := rfl
  have h2 : (submitBallot E b state).cryptoHash = createBallotHash E b.objectId b.manifestHash b.contests := rfl
  have h3 : (submitBallot E b state).contests = b.contests.map CContest.stripNonces := rfl
  have h4 : (submitBallot E b state).toCBallot.cryptoHashWith E seed = if b.contests = [] then 0 else
      hashElems E (.str b.objectId :: .elem seed :: b.contests.map (fun c => .elem c.cryptoHash)) := by
    unfold CBallot.cryptoHashWith
    rw [h3, List.length_map, List.map_map]
    simp only [List.length_eq_zero_iff]
    rfl
  rw [h1, h2, h3, h4]
  simp only [List.forall_mem_map, stripNonces_valid]
  have h5 : ∀ c : CContest, (∀ s ∈ c.stripNonces.ballotSelections,
      s.isValidEncryption E s.descriptionHash key baseHash = true) ↔
      ∀ s ∈ c.ballotSelections, s.isValidEncryption E s.descriptionHash key baseHash = true := by
    intro c
    unfold CContest.stripNonces
    simp only [List.forall_mem_map]
    rfl
  simp only [h5]
  have h6 : ∀ c : CContest, c.stripNonces.descriptionHash = c.descriptionHash := fun _ => rfl
  simp only [h6]
  by_cases he : b.contests = []
  · rw [if_pos he]; simp [he]
  · rw [if_neg he]; simp [he]

end EG
