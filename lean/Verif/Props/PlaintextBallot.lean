import Verif.Lemmas.Vote
import Verif.Lemmas.Manifest

/-!
# C55: validation of plaintext contests

`chosen` is the number of selections with a positive vote, `voteSum` the sum of the votes and `Belongs` says that
the contest matches its description (Spec/Vote.lean).  The property is false in one case
(`C55_votes_allowed_fails`): a contest that allows more votes than seats refuses the vote for exactly as many
candidates as seats.
-/

namespace EG

private theorem belongs_iff (c : PlaintextContest) (d : ContestWithPlaceholders) :
    c.Belongs d ↔ ¬ (c.objectId ≠ d.objectId ∨ c.ballotSelections.length > d.ballotSelections.length ∨
      d.isValid = false) ∧
      ¬ (c.ballotSelections.any (fun s => !decide (s.objectId ∈ d.ballotSelections.map (·.objectId))) = true) := by
  constructor
  · rintro ⟨h1, h2, h3, h4⟩
    refine ⟨?_, ?_⟩
    · rintro (h | h | h)
      · exact h h1
      · omega
      · rw [h3] at h; cases h
    · intro h
      obtain ⟨s, hs, hn⟩ := List.any_eq_true.1 h
      obtain ⟨sd, hsd, he⟩ := h4 s hs
      simp only [Bool.not_eq_true', decide_eq_false_iff_not] at hn
      exact hn (List.mem_map.2 ⟨sd, hsd, he⟩)
  · rintro ⟨h1, h2⟩
    refine ⟨?_, ?_, ?_, ?_⟩
    · by_contra h; exact h1 (.inl h)
    · by_contra h; exact h1 (.inr (.inl (by omega)))
    · by_contra h; exact h1 (.inr (.inr (by simpa using h)))
    · intro s hs
      by_contra h
      apply h2
      refine List.any_eq_true.2 ⟨s, hs, ?_⟩
      simp only [Bool.not_eq_true', decide_eq_false_iff_not]
      intro hm
      obtain ⟨sd, hsd, he⟩ := List.mem_map.1 hm
      exact h ⟨sd, hsd, he⟩

/-- C55: a contest that does not match its description is refused with the plain exception. -/
theorem C55_mismatch_partial (c : PlaintextContest) (d : ContestWithPlaceholders) (h : ¬ c.Belongs d) :
    c.valid d = some .default := by
  rw [belongs_iff] at h
  unfold PlaintextContest.valid
  by_cases h1 : (c.objectId ≠ d.objectId ∨ c.ballotSelections.length > d.ballotSelections.length ∨
      d.isValid = false)
  · rw [if_pos h1]
  · have h2 : c.ballotSelections.any (fun s => !decide (s.objectId ∈ d.ballotSelections.map (·.objectId))) = true := by
      by_contra h2; exact h ⟨h1, h2⟩
    rw [if_neg h1, if_pos h2]

/-- C55: for a contest that matches its description: a null vote exactly if nothing is chosen, an under vote
exactly if something but fewer than the seats are chosen, an over vote (with the chosen ids) exactly if more are
chosen or, with the seats filled, the sum of the votes exceeds the allowed votes; accepted exactly if the chosen
selections fill the seats and the votes allowed are neither exceeded nor more than the seats.  What is missing from
the full claim is the remaining case, which is refused with the plain exception: the seats are filled and more votes
than seats are allowed. -/
theorem C55_classification_partial (c : PlaintextContest) (d : ContestWithPlaceholders) (h : c.Belongs d) :
    (c.valid d = some .nullVote ↔ c.chosen = 0) ∧
    (c.valid d = some .underVote ↔ 0 < c.chosen ∧ c.chosen < d.numberElected) ∧
    (∀ ids, c.valid d = some (.overVote ids) ↔
      ids = (c.ballotSelections.filter (fun s => decide (0 < s.vote))).map PlaintextSelection.objectId ∧
      0 < c.chosen ∧ (d.numberElected < c.chosen ∨
        c.chosen = d.numberElected ∧ ∃ v, d.votesAllowed = some v ∧ v < c.voteSum)) ∧
    (c.valid d = none ↔ 0 < c.chosen ∧ c.chosen = d.numberElected ∧
      ∀ v, d.votesAllowed = some v → c.voteSum ≤ v ∧ v ≤ c.chosen) ∧
    (c.valid d = some .default ↔ 0 < c.chosen ∧ c.chosen = d.numberElected ∧
      ∃ v, d.votesAllowed = some v ∧ c.voteSum ≤ v ∧ c.chosen < v) := by
  obtain ⟨h1, h2⟩ := (belongs_iff c d).1 h
  have hn := c.chosen_nonneg
  have hv : c.valid d = if c.chosen < 1 then some .nullVote
    else if c.chosen < d.numberElected then some .underVote
    else if c.chosen > d.numberElected then some (.overVote c.selectedIds)
    else match d.votesAllowed with
      | none => none
      | some v =>
        if c.voteSum > v then some (.overVote c.selectedIds)
        else if c.chosen < v then some .default
        else none := by
    unfold PlaintextContest.valid
    rw [if_neg h1, if_neg h2]
    simp only [PlaintextContest.totalSelected_eq, PlaintextContest.totalVotes_eq]
    rfl
  have hids : c.selectedIds
      = (c.ballotSelections.filter (fun s => decide (0 < s.vote))).map PlaintextSelection.objectId := rfl
  rw [← hids, hv]
  by_cases c1 : c.chosen < 1
  · rw [if_pos c1]
    simp only [reduceCtorEq, false_iff, true_iff, Option.some.injEq]
    refine ⟨by omega, ?_, ?_, ?_, ?_⟩ <;> intros <;> omega
  · rw [if_neg c1]
    by_cases c2 : c.chosen < d.numberElected
    · rw [if_pos c2]
      simp only [reduceCtorEq, false_iff, true_iff, Option.some.injEq]
      refine ⟨by omega, by omega, ?_, ?_, ?_⟩ <;> intros <;> omega
    · rw [if_neg c2]
      by_cases c3 : c.chosen > d.numberElected
      · rw [if_pos c3]
        simp only [reduceCtorEq, false_iff, Option.some.injEq, ContestError.overVote.injEq]
        refine ⟨by omega, by omega, ?_, by omega, by omega⟩
        intro ids
        constructor
        · intro h; exact ⟨h.symm, by omega, .inl (by omega)⟩
        · intro h; exact h.1.symm
      · rw [if_neg c3]
        have he : c.chosen = d.numberElected := by omega
        cases hva : d.votesAllowed with
        | none =>
          simp only [reduceCtorEq, false_iff, true_iff, false_and, exists_false, and_false, or_false, not_and,
            IsEmpty.forall_iff, implies_true, and_true]
          refine ⟨by omega, by omega, ?_, by omega⟩
          intro ids h; omega
        | some v =>
          simp only [Option.some.injEq, exists_eq_left', forall_eq']
          by_cases c4 : c.voteSum > v
          · rw [if_pos c4]
            simp only [reduceCtorEq, false_iff, Option.some.injEq, ContestError.overVote.injEq]
            refine ⟨by omega, by omega, ?_, by omega, by omega⟩
            intro ids
            constructor
            · intro h; exact ⟨h.symm, by omega, .inr ⟨he, by omega⟩⟩
            · intro h; exact h.1.symm
          · rw [if_neg c4]
            by_cases c5 : c.chosen < v
            · rw [if_pos c5]
              simp only [reduceCtorEq, false_iff, true_iff, Option.some.injEq]
              refine ⟨by omega, by omega, ?_, by omega, by omega⟩
              intro ids h; omega
            · rw [if_neg c5]
              simp only [reduceCtorEq, false_iff, true_iff]
              refine ⟨by omega, by omega, ?_, by omega, by omega⟩
              intro ids h; omega

/-- A contest description with two selections and one seat, for the examples. -/
def exDescription (votesAllowed : Option Int) : ContestWithPlaceholders where
  objectId := "c"
  sequenceOrder := 1
  electoralDistrictId := "u"
  voteVariation := .one_of_m
  numberElected := 1
  votesAllowed := votesAllowed
  name := "contest"
  ballotSelections := [⟨"sx", 0, "x"⟩, ⟨"sy", 1, "y"⟩]
  ballotTitle := none
  ballotSubtitle := none
  primaryPartyIds := none
  placeholders := [⟨"c-2-placeholder", 2, "c-2-candidate"⟩]

example : (PlaintextContest.mk "c" [⟨"sx", 1, false, none⟩]).valid (exDescription (some 1)) = none ∧
    (PlaintextContest.mk "c" [⟨"sx", 0, false, none⟩]).valid (exDescription (some 1)) = some .nullVote ∧
    (PlaintextContest.mk "c" [⟨"sx", 1, false, none⟩, ⟨"sy", 1, false, none⟩]).valid (exDescription (some 1))
      = some (.overVote ["sx", "sy"]) := by decide

example : (PlaintextContest.mk "c" [⟨"sx", 1, false, none⟩]).Belongs (exDescription (some 1)) :=
  ⟨rfl, by decide, by decide, by simp [exDescription]⟩

/-- C55 fails when more votes than seats are allowed: voting for exactly as many selections as there are seats is
refused with the plain exception, although it is within all limits. -/
theorem C55_votes_allowed_fails : ∃ (c : PlaintextContest) (d : ContestWithPlaceholders), c.Belongs d ∧
    c.chosen = d.numberElected ∧ (∀ v, d.votesAllowed = some v → c.voteSum ≤ v) ∧ c.valid d = some .default :=
  ⟨⟨"c", [⟨"sx", 1, false, none⟩]⟩, exDescription (some 2), ⟨rfl, by decide, by decide, by simp [exDescription]⟩,
    by decide, by simp [exDescription, PlaintextContest.voteSum], by decide⟩

/-- C55, for the older check `is_valid`: it accepts exactly the contests with the expected id, not too many
selections, not more chosen than seats, and not more votes than allowed. -/
theorem C55_is_valid (c : PlaintextContest) (id : String) (n elected : Int) (allowed : Option Int) :
    c.isValid id n elected allowed = true ↔
      c.objectId = id ∧ (c.ballotSelections.length : Int) ≤ n ∧ c.chosen ≤ elected ∧
      ∀ v, allowed = some v → c.voteSum ≤ v := by
  unfold PlaintextContest.isValid
  by_cases h1 : c.objectId = id
  · by_cases h2 : (c.ballotSelections.length : Int) > n
    · rw [if_neg (by simpa using h1), if_pos h2]
      simp only [Bool.false_eq_true, false_iff]
      omega
    · rw [if_neg (by simpa using h1), if_neg h2]
      have e1 : c.ballotSelections.foldl (fun v s => v + s.vote) 0 = c.voteSum := by
        rw [foldl_sum, zero_add]; rfl
      have e2 := elected_fold c.ballotSelections 0
      simp only [e1, e2, zero_add]
      have : ((c.ballotSelections.filter (fun s => decide (0 < s.vote))).length : Int) = c.chosen := rfl
      rw [this]
      by_cases h3 : c.chosen > elected
      · rw [if_pos h3]; simp only [Bool.false_eq_true, false_iff]; omega
      · rw [if_neg h3]
        cases allowed with
        | none => simp [h1]; omega
        | some v =>
          simp only [Option.some.injEq, forall_eq']
          by_cases h4 : c.voteSum > v
          · rw [if_pos h4]; simp only [Bool.false_eq_true, false_iff]; omega
          · rw [if_neg h4]; simp [h1]; omega
  · rw [if_pos h1]
    simp [h1]

/-- C55: a single selection is accepted exactly with the expected id and a vote of 0 or 1. -/
theorem C55_selection (s : PlaintextSelection) (id : String) :
    s.isValid id = true ↔ s.objectId = id ∧ (s.vote = 0 ∨ s.vote = 1) := by
  unfold PlaintextSelection.isValid
  by_cases h1 : s.objectId = id
  · by_cases h2 : s.vote < 0 ∨ s.vote > 1
    · rw [if_neg (by simpa using h1), if_pos h2]; simp [h1]; omega
    · rw [if_neg (by simpa using h1), if_neg h2]; simp [h1]; omega
  · rw [if_pos h1]; simp [h1]

end EG
