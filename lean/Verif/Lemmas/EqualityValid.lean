import Verif.Lemmas.Equality
import Verif.Lemmas.Sort

/-!
# Equal encrypted contests are checked alike
-/

namespace EG

theorem multP_mod' (P : Params) (a b : Nat) : multP P a b = a * b % P.p := by
  simp [multP, multPs]

theorem elgamalAdd_perm (P : Params) {l l' : List Ciphertext} (h : l.Perm l') : elgamalAdd P l = elgamalAdd P l' := by
  have hc : ∀ a b : Nat, multP P a b = multP P b a := fun a b => by rw [multP_mod', multP_mod', Nat.mul_comm]
  have hr : ∀ a b c : Nat, multP P (multP P a b) c = multP P (multP P a c) b := fun a b c => by
    simp only [multP_mod', Nat.mod_mul_mod, Nat.mul_right_comm]
  induction h with
  | nil => rfl
  | cons x hp _ =>
    simp only [elgamalAdd, Except.ok.injEq]
    refine hp.foldl_eq' ?_ x
    intro a _ b _ z
    simp only [hr]
  | swap x y l =>
    simp only [elgamalAdd, List.foldl]
    rw [hc y.pad, hc y.data]
  | trans _ _ ih1 ih2 => exact ih1.trans ih2

theorem contestCryptoHash_perm (E : Env) (id : String) (seed : Nat) {ss ss' : List CSelection} (h : ss.Perm ss')
    (hk : (ss.map CSelection.sequenceOrder).Nodup) :
    contestCryptoHash E id ss seed = contestCryptoHash E id ss' seed := by
  unfold contestCryptoHash sequenceOrderSort
  rw [sortByInt_eq, sortByInt_eq, keySort_eq_of_perm _ h hk, h.length_eq]

theorem CContest.isValidEncryption_same (E : Env) {a b : CContest} (h : a.SameVotes b)
    (hacc : a.ciphertextAccumulation = b.ciphertextAccumulation)
    (hk : (a.ballotSelections.map CSelection.sequenceOrder).Nodup) (seed key baseHash : Nat) :
    a.isValidEncryption E seed key baseHash = b.isValidEncryption E seed key baseHash := by
  obtain ⟨h1, h2, h3, h4, -, h6⟩ := h
  have hadd : accumulateSelections E.P a.ballotSelections = accumulateSelections E.P b.ballotSelections :=
    elgamalAdd_perm E.P (h2.map _)
  unfold CContest.isValidEncryption CContest.cryptoHashWith
  rw [h1, h3, h4, h6, hacc, hadd, contestCryptoHash_perm E _ _ h2 hk]

/-- What `validProofs` makes of lists of contests that carry the same votes. -/
theorem validProofs_same (E : Env) (key baseHash : Nat) {l l' : List CContest}
    (h : List.Forall₂ (fun a b => a.SameVotes b ∧ a.ciphertextAccumulation = b.ciphertextAccumulation) l l')
    (hk : ∀ c ∈ l, (c.ballotSelections.map CSelection.sequenceOrder).Nodup) :
    (∃ r r', CBallot.validProofs E key baseHash l = .ok r ∧ CBallot.validProofs E key baseHash l' = .ok r' ∧
      r.all id = r'.all id) ∨
    (∃ e, CBallot.validProofs E key baseHash l = .error e ∧ CBallot.validProofs E key baseHash l' = .error e) := by
  induction h with
  | nil => exact .inl ⟨[], [], rfl, rfl, rfl⟩
  | @cons a b as bs hab _ ih =>
    have hv := CContest.isValidEncryption_same E hab.1 hab.2 (hk a (by simp)) b.descriptionHash key baseHash
    have hd : a.descriptionHash = b.descriptionHash := hab.1.2.2.1
    have hs : (a.ballotSelections.map (fun s => s.isValidEncryption E s.descriptionHash key baseHash)).all id
        = (b.ballotSelections.map (fun s => s.isValidEncryption E s.descriptionHash key baseHash)).all id := by
      have hp := hab.1.2.1
      rw [Bool.eq_iff_iff, List.all_eq_true, List.all_eq_true]
      constructor
      · intro h x hx; exact h x ((hp.map _).mem_iff.2 hx)
      · intro h x hx; exact h x ((hp.map _).mem_iff.1 hx)
    simp only [CBallot.validProofs, hd, hv, bind, Except.bind, pure, Except.pure]
    cases hb : b.isValidEncryption E b.descriptionHash key baseHash with
    | error e => exact .inr ⟨e, rfl, rfl⟩
    | ok cv =>
      rcases ih (fun c hc => hk c (by simp [hc])) with ⟨r, r', h1, h2, h3⟩ | ⟨e, h1, h2⟩
      · rw [h1, h2]
        refine .inl ⟨_, _, rfl, rfl, ?_⟩
        rw [List.all_append, List.all_append, hs, List.all_cons, List.all_cons, h3]
      · rw [h1, h2]
        exact .inr ⟨e, rfl, rfl⟩

end EG
