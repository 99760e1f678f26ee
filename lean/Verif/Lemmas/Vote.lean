import Verif.Spec.Vote
import Mathlib.Algebra.BigOperators.Group.List.Basic
import Mathlib.Tactic.Linarith

/-!
# Lemmas about plaintext contests
-/

namespace EG

theorem foldl_sum {α : Type} (l : List α) (f : α → Int) (x : Int) :
    l.foldl (fun prev next => prev + f next) x = x + (l.map f).sum := by
  induction l generalizing x with
  | nil => simp
  | cons a l ih => rw [List.foldl_cons, ih, List.map_cons, List.sum_cons, add_assoc]

theorem sum_ite {α : Type} (l : List α) (p : α → Prop) [DecidablePred p] :
    (l.map (fun a => if p a then (1 : Int) else 0)).sum = ((l.filter (fun a => decide (p a))).length : Int) := by
  induction l with
  | nil => simp
  | cons a l ih =>
    rw [List.map_cons, List.sum_cons, ih, List.filter_cons]
    by_cases h : p a
    · simp [h]; omega
    · simp [h]

theorem PlaintextContest.totalSelected_eq (c : PlaintextContest) : c.totalSelected = c.chosen := by
  unfold PlaintextContest.totalSelected PlaintextContest.chosen
  rw [foldl_sum c.ballotSelections (fun next => if next.vote > 0 then 1 else 0), zero_add]
  exact sum_ite c.ballotSelections (fun s => s.vote > 0)

theorem PlaintextContest.totalVotes_eq (c : PlaintextContest) : c.totalVotes = c.voteSum := by
  unfold PlaintextContest.totalVotes PlaintextContest.voteSum
  rw [foldl_sum, zero_add]

theorem PlaintextContest.chosen_nonneg (c : PlaintextContest) : 0 ≤ c.chosen := by
  unfold PlaintextContest.chosen; omega

/-- For votes of 0 and 1 the sum of the votes is the number of chosen selections. -/
theorem PlaintextContest.voteSum_binary (c : PlaintextContest)
    (h : ∀ s ∈ c.ballotSelections, s.vote = 0 ∨ s.vote = 1) : c.voteSum = c.chosen := by
  unfold PlaintextContest.voteSum PlaintextContest.chosen
  rw [← sum_ite c.ballotSelections (fun s => 0 < s.vote)]
  congr 1
  apply List.map_congr_left
  intro s hs
  rcases h s hs with h | h <;> simp [h]

theorem elected_fold (l : List PlaintextSelection) (n : Int) :
    l.foldl (fun n s => if s.vote ≥ 1 then n + 1 else n) n
      = n + ((l.filter (fun s => decide (0 < s.vote))).length : Int) := by
  induction l generalizing n with
  | nil => simp
  | cons s l ih =>
    rw [List.foldl_cons, ih, List.filter_cons]
    by_cases h : s.vote ≥ 1
    · have : (0 : Int) < s.vote := by omega
      simp [h, this]; omega
    · have : ¬ (0 : Int) < s.vote := by omega
      simp [h, this]

end EG
