import Verif.Lemmas.Sort
import Verif.Model.Ballot
import Verif.Spec.Toy

/-!
# C58: sorting by sequence order and set-like list equality

The last clause of the property (hashes do not depend on the order of storage) holds for contest hashes and for
the hash put on a new ballot, but is false for the hash recomputed by `CiphertextBallot.crypto_hash_with`
(`C58_recomputed_ballot_hash_fails`).
-/

namespace EG

/-- C58: `sequence_order_sort` returns a permutation of its input that is sorted by sequence order, and objects
with equal sequence order keep their relative order. -/
theorem C58_sort {α : Type} (k : α → Int) (l : List α) :
    (sequenceOrderSort k l).Perm l ∧
    (sequenceOrderSort k l).Pairwise (fun a b => k a ≤ k b) ∧
    ∀ v : Int, (sequenceOrderSort k l).filter (fun a => decide (k a = v)) = l.filter (fun a => decide (k a = v)) :=
  ⟨keySort_perm k l, keySort_sorted k l, keySort_stable k l⟩

example : sequenceOrderSort (fun x : Int × String => x.1) [(2, "a"), (1, "b"), (2, "c")]
    = [(1, "b"), (2, "a"), (2, "c")] := by decide

/-- C58: for lists with distinct ids `list_eq` holds exactly when the lists have the same members. -/
theorem C58_list_eq {α : Type} [BEq α] [LawfulBEq α] (k : α → String) (l l' : List α)
    (hk : (l.map k).Nodup) (hk' : (l'.map k).Nodup) :
    listEq k l l' = true ↔ ∀ x, x ∈ l ↔ x ∈ l' := by
  unfold listEq
  rw [beq_iff_eq, sortByStr_eq, sortByStr_eq]
  constructor
  · intro h x
    rw [← (keySort_perm k l).mem_iff, h, (keySort_perm k l').mem_iff]
  · intro h
    apply keySort_eq_of_perm k _ hk
    rw [List.perm_ext_iff_of_nodup (List.Nodup.of_map k hk) (List.Nodup.of_map k hk')]
    exact h

example : listEq (fun x : String × Nat => x.1) [("a", 1), ("b", 2)] [("b", 2), ("a", 1)] = true ∧
    listEq (fun x : String × Nat => x.1) [("a", 1), ("b", 2)] [("b", 3), ("a", 1)] = false := by decide

/-- C58: the hash of a contest does not depend on the order in which its selections are stored. -/
theorem C58_contest_hash_partial (E : Env) (id : String) (seed : Nat) (ss ss' : List CSelection)
    (h : ss.Perm ss') (hk : (ss.map CSelection.sequenceOrder).Nodup) :
    contestCryptoHash E id ss seed = contestCryptoHash E id ss' seed := by
  unfold contestCryptoHash sequenceOrderSort
  rw [sortByInt_eq, sortByInt_eq, keySort_eq_of_perm _ h hk, h.length_eq]

/-- C58: the hash put on a new ballot does not depend on the order of its contests. -/
theorem C58_new_ballot_hash_partial (E : Env) (id : String) (seed : Nat) (cs cs' : List CContest)
    (h : cs.Perm cs') (hk : (cs.map CContest.sequenceOrder).Nodup) :
    createBallotHash E id seed cs = createBallotHash E id seed cs' := by
  unfold createBallotHash sequenceOrderSort
  rw [sortByInt_eq, sortByInt_eq, keySort_eq_of_perm _ h hk]

/-- Two contests for the examples; only sequence order and hash matter. -/
private def exContest (seq : Int) (h : Nat) : CContest :=
  ⟨"c", seq, 1, [], ⟨1, 1⟩, h, none, none, none⟩

example : createBallotHash toyEnv "b" 5 [exContest 0 3, exContest 1 4]
    = createBallotHash toyEnv "b" 5 [exContest 1 4, exContest 0 3] := by decide +kernel

/-- C58 fails for the recomputed ballot hash: with the contests stored in another order, the hash recomputed
during validation differs from the one on the ballot, so the ballot made by the library itself is rejected. -/
theorem C58_recomputed_ballot_hash_fails :
    ∃ (E : Env) (cs cs' : List CContest), cs.Perm cs' ∧ (cs.map CContest.sequenceOrder).Nodup ∧
      let b := makeBallot E "b" "s" 5 none cs none none none 0
      let b' := makeBallot E "b" "s" 5 none cs' none none none 0
      b.cryptoHash = b'.cryptoHash ∧ b.cryptoHashWith E 5 = b.cryptoHash ∧
      b'.cryptoHashWith E 5 ≠ b'.cryptoHash ∧ b'.isValidEncryption E 5 2 3 = .ok false := by
  refine ⟨toyEnv, [exContest 0 3, exContest 1 4], [exContest 1 4, exContest 0 3], List.Perm.swap _ _ _,
    by decide, ?_⟩
  decide +kernel

/-- The recomputed ballot hash agrees with the one on a new ballot when there is a contest and the contests are
stored in sequence order. -/
theorem C58_recomputed_ballot_hash_partial (E : Env) (id style : String) (mh : Nat) (now : Int) (seed : Option Nat)
    (cs : List CContest) (nonce : Option Nat) (ts : Option Int) (code : Option Nat) (hne : cs ≠ [])
    (hs : cs.Pairwise (fun a b => a.sequenceOrder ≤ b.sequenceOrder)) :
    (makeBallot E id style mh seed cs nonce ts code now).cryptoHashWith E mh
      = (makeBallot E id style mh seed cs nonce ts code now).cryptoHash := by
  have hl : ¬ (makeBallot E id style mh seed cs nonce ts code now).contests.length = 0 := by
    simpa [makeBallot] using hne
  unfold CBallot.cryptoHashWith
  rw [if_neg hl]
  simp only [makeBallot, createBallotHash, sequenceOrderSort]
  rw [sortByInt_eq, keySort_of_sorted _ hs]

end EG
