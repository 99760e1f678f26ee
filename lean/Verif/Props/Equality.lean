import Verif.Lemmas.EqualityValid
import Verif.Spec.ToyElection

/-!
# C94: what the equality of ballots and manifests says
-/

namespace EG

/-- C94: the equality of plaintext ballots is an equivalence relation. -/
theorem C94_plaintext_equivalence : Equivalence (fun a b : PlaintextBallot => a.pyEq b = true) := by
  have hs : ∀ a : PlaintextSelection, a.pyEq a = true := by simp [PlaintextSelection.pyEq]
  have hss : ∀ a b : PlaintextSelection, a.pyEq b = true → b.pyEq a = true := by
    intro a b h
    simp only [PlaintextSelection.pyEq, Bool.and_eq_true, beq_iff_eq] at h ⊢
    simp [h.1.1.1, h.1.1.2, h.1.2, h.2]
  have hst : ∀ a b c : PlaintextSelection, a.pyEq b = true → b.pyEq c = true → a.pyEq c = true := by
    intro a b c h h'
    simp only [PlaintextSelection.pyEq, Bool.and_eq_true, beq_iff_eq] at h h' ⊢
    simp [h.1.1.1, h.1.1.2, h.1.2, h.2, h'.1.1.1, h'.1.1.2, h'.1.2, h'.2]
  have hc : ∀ a : PlaintextContest, a.pyEq a = true := fun a => listEqWith_refl hs _
  have hcs : ∀ a b : PlaintextContest, a.pyEq b = true → b.pyEq a = true := fun a b h => listEqWith_symm hss h
  have hct : ∀ a b c : PlaintextContest, a.pyEq b = true → b.pyEq c = true → a.pyEq c = true :=
    fun a b c h h' => listEqWith_trans hst h h'
  refine ⟨?_, ?_, ?_⟩
  · intro a; simp [PlaintextBallot.pyEq, listEqWith_refl hc]
  · intro a b h
    simp only [PlaintextBallot.pyEq, Bool.and_eq_true, beq_iff_eq] at h ⊢
    exact ⟨h.1.symm, listEqWith_symm hcs h.2⟩
  · intro a b c h h'
    simp only [PlaintextBallot.pyEq, Bool.and_eq_true, beq_iff_eq] at h h' ⊢
    exact ⟨h.1.trans h'.1, listEqWith_trans hct h.2 h'.2⟩

theorem CContest.pyEq_refl (a : CContest) : a.pyEq a = true := by
  simp [CContest.pyEq, listEqWith_decide_refl]

theorem CContest.pyEq_symm (a b : CContest) (h : a.pyEq b = true) : b.pyEq a = true := by
  simp only [CContest.pyEq, Bool.and_eq_true, beq_iff_eq, decide_eq_true_eq] at h ⊢
  obtain ⟨⟨⟨⟨⟨h1, h2⟩, h3⟩, h4⟩, h5⟩, h6⟩ := h
  exact ⟨⟨⟨⟨⟨h1.symm, listEqWith_decide_symm h2⟩, h3.symm⟩, h4.symm⟩, h5.symm⟩, h6.symm⟩

theorem CContest.pyEq_trans (a b c : CContest) (h : a.pyEq b = true) (h' : b.pyEq c = true) : a.pyEq c = true := by
  simp only [CContest.pyEq, Bool.and_eq_true, beq_iff_eq, decide_eq_true_eq] at h h' ⊢
  obtain ⟨⟨⟨⟨⟨h1, h2⟩, h3⟩, h4⟩, h5⟩, h6⟩ := h
  obtain ⟨⟨⟨⟨⟨g1, g2⟩, g3⟩, g4⟩, g5⟩, g6⟩ := h'
  exact ⟨⟨⟨⟨⟨h1.trans g1, listEqWith_decide_trans h2 g2⟩, h3.trans g3⟩, h4.trans g4⟩, h5.trans g5⟩, h6.trans g6⟩

/-- C94: the equality of encrypted ballots is an equivalence relation. -/
theorem C94_ciphertext_equivalence : Equivalence (fun a b : CBallot => a.pyEq b = true) := by
  refine ⟨?_, ?_, ?_⟩
  · intro a; simp [CBallot.pyEq, listEqWith_refl CContest.pyEq_refl]
  · intro a b h
    simp only [CBallot.pyEq, Bool.and_eq_true, beq_iff_eq] at h ⊢
    obtain ⟨⟨⟨⟨⟨⟨⟨⟨h1, h2⟩, h3⟩, h4⟩, h5⟩, h6⟩, h7⟩, h8⟩, h9⟩ := h
    exact ⟨⟨⟨⟨⟨⟨⟨⟨h1.symm, h2.symm⟩, h3.symm⟩, h4.symm⟩, listEqWith_symm CContest.pyEq_symm h5⟩, h6.symm⟩,
      h7.symm⟩, h8.symm⟩, h9.symm⟩
  · intro a b c h h'
    simp only [CBallot.pyEq, Bool.and_eq_true, beq_iff_eq] at h h' ⊢
    obtain ⟨⟨⟨⟨⟨⟨⟨⟨h1, h2⟩, h3⟩, h4⟩, h5⟩, h6⟩, h7⟩, h8⟩, h9⟩ := h
    obtain ⟨⟨⟨⟨⟨⟨⟨⟨g1, g2⟩, g3⟩, g4⟩, g5⟩, g6⟩, g7⟩, g8⟩, g9⟩ := h'
    exact ⟨⟨⟨⟨⟨⟨⟨⟨h1.trans g1, h2.trans g2⟩, h3.trans g3⟩, h4.trans g4⟩,
      listEqWith_trans CContest.pyEq_trans h5 g5⟩, h6.trans g6⟩, h7.trans g7⟩, h8.trans g8⟩, h9.trans g9⟩

/-- C94: the equality of submitted ballots is an equivalence relation that separates cast from spoiled ballots. -/
theorem C94_submitted_equivalence :
    Equivalence (fun a b : SBallot => a.pyEq b = true) ∧ ∀ a b : SBallot, a.pyEq b = true → a.state = b.state := by
  refine ⟨⟨?_, ?_, ?_⟩, ?_⟩
  · intro a; simpa [SBallot.pyEq] using C94_ciphertext_equivalence.refl a.toCBallot
  · intro a b h
    simp only [SBallot.pyEq, Bool.and_eq_true, decide_eq_true_eq] at h ⊢
    exact ⟨C94_ciphertext_equivalence.symm h.1, h.2.symm⟩
  · intro a b c h h'
    simp only [SBallot.pyEq, Bool.and_eq_true, decide_eq_true_eq] at h h' ⊢
    exact ⟨C94_ciphertext_equivalence.trans h.1 h'.1, h.2.trans h'.2⟩
  · intro a b h
    simp only [SBallot.pyEq, Bool.and_eq_true, decide_eq_true_eq] at h
    exact h.2

theorem ContestDescription.pyEq_iff_parts (a b : ContestDescription) : a.pyEq b = true ↔
    a.electoralDistrictId = b.electoralDistrictId ∧ a.sequenceOrder = b.sequenceOrder ∧
    a.voteVariation = b.voteVariation ∧ a.numberElected = b.numberElected ∧ a.votesAllowed = b.votesAllowed ∧
    a.name = b.name ∧
    listEqWith (fun x y => decide (x = y)) (·.objectId) a.ballotSelections b.ballotSelections = true ∧
    a.ballotTitle = b.ballotTitle ∧ a.ballotSubtitle = b.ballotSubtitle := by
  simp only [ContestDescription.pyEq, Bool.and_eq_true, beq_iff_eq, decide_eq_true_eq, and_assoc]

theorem Manifest.pyEq_iff_parts (a b : Manifest) : a.pyEq b = true ↔
    a.electionScopeId = b.electionScopeId ∧ a.type = b.type ∧ a.startDate = b.startDate ∧ a.endDate = b.endDate ∧
    listEqWith (fun x y => decide (x = y)) (·.objectId) a.geopoliticalUnits b.geopoliticalUnits = true ∧
    listEqWith (fun x y => decide (x = y)) (·.objectId) a.parties b.parties = true ∧
    listEqWith (fun x y => decide (x = y)) (·.objectId) a.candidates b.candidates = true ∧
    listEqWith ContestDescription.pyEq (·.objectId) a.contests b.contests = true ∧
    listEqWith (fun x y => decide (x = y)) (·.objectId) a.ballotStyles b.ballotStyles = true ∧
    a.name = b.name ∧ a.contactInformation = b.contactInformation := by
  simp only [Manifest.pyEq, Bool.and_eq_true, beq_iff_eq, decide_eq_true_eq, and_assoc]

/-- C94: the equality of manifests is an equivalence relation. -/
theorem C94_manifest_equivalence : Equivalence (fun a b : Manifest => a.pyEq b = true) := by
  have hc : ∀ a : ContestDescription, a.pyEq a = true := fun a => by
    rw [ContestDescription.pyEq_iff_parts]; simp [listEqWith_decide_refl]
  have hcs : ∀ a b : ContestDescription, a.pyEq b = true → b.pyEq a = true := by
    intro a b h
    rw [ContestDescription.pyEq_iff_parts] at h ⊢
    obtain ⟨h1, h2, h3, h4, h5, h6, h7, h8, h9⟩ := h
    exact ⟨h1.symm, h2.symm, h3.symm, h4.symm, h5.symm, h6.symm, listEqWith_decide_symm h7, h8.symm, h9.symm⟩
  have hct : ∀ a b c : ContestDescription, a.pyEq b = true → b.pyEq c = true → a.pyEq c = true := by
    intro a b c h h'
    rw [ContestDescription.pyEq_iff_parts] at h h' ⊢
    obtain ⟨h1, h2, h3, h4, h5, h6, h7, h8, h9⟩ := h
    obtain ⟨g1, g2, g3, g4, g5, g6, g7, g8, g9⟩ := h'
    exact ⟨h1.trans g1, h2.trans g2, h3.trans g3, h4.trans g4, h5.trans g5, h6.trans g6,
      listEqWith_decide_trans h7 g7, h8.trans g8, h9.trans g9⟩
  refine ⟨?_, ?_, ?_⟩
  · intro a
    show a.pyEq a = true
    rw [Manifest.pyEq_iff_parts]; simp [listEqWith_decide_refl, listEqWith_refl hc]
  · intro a b h
    have h := (Manifest.pyEq_iff_parts _ _).1 h
    refine (Manifest.pyEq_iff_parts _ _).2 ?_
    obtain ⟨h1, h2, h3, h4, h5, h6, h7, h8, h9, h10, h11⟩ := h
    exact ⟨h1.symm, h2.symm, h3.symm, h4.symm, listEqWith_decide_symm h5, listEqWith_decide_symm h6,
      listEqWith_decide_symm h7, listEqWith_symm hcs h8, listEqWith_decide_symm h9, h10.symm, h11.symm⟩
  · intro a b c h h'
    have h := (Manifest.pyEq_iff_parts _ _).1 h
    have h' := (Manifest.pyEq_iff_parts _ _).1 h'
    refine (Manifest.pyEq_iff_parts _ _).2 ?_
    obtain ⟨h1, h2, h3, h4, h5, h6, h7, h8, h9, h10, h11⟩ := h
    obtain ⟨g1, g2, g3, g4, g5, g6, g7, g8, g9, g10, g11⟩ := h'
    exact ⟨h1.trans g1, h2.trans g2, h3.trans g3, h4.trans g4, listEqWith_decide_trans h5 g5,
      listEqWith_decide_trans h6 g6, listEqWith_decide_trans h7 g7, listEqWith_trans hct h8 g8,
      listEqWith_decide_trans h9 g9, h10.trans g10, h11.trans g11⟩

/-! ## Plaintext ballots -/

theorem PlaintextSelection.pyEq_iff (a b : PlaintextSelection) : a.pyEq b = true ↔ a = b := by
  cases a; cases b
  simp [PlaintextSelection.pyEq, and_assoc]

theorem PlaintextContest.pyEq_perm {a b : PlaintextContest} (h : a.pyEq b = true) :
    a.ballotSelections.Perm b.ballotSelections := by
  obtain ⟨m, hp, hf⟩ := listEqWith_same (R := fun a b => a = b) (fun a b => (PlaintextSelection.pyEq_iff a b).1) h
  rw [forall₂_eq_iff] at hf
  exact hf ▸ hp

theorem sum_perm {l l' : List Int} (h : l.Perm l') : l.sum = l'.sum := by
  induction h with
  | nil => rfl
  | cons x _ ih => simp [ih]
  | swap x y l => simp only [List.sum_cons]; omega
  | trans _ _ ih1 ih2 => exact ih1.trans ih2

theorem flatMap_perm_of_forall₂ {α β : Type} {f : α → List β} {l l' : List α}
    (h : List.Forall₂ (fun a b => (f a).Perm (f b)) l l') : (l.flatMap f).Perm (l'.flatMap f) := by
  induction h with
  | nil => exact .refl _
  | cons hab _ ih => simp only [List.flatMap_cons]; exact hab.append ih

/-- C94: equal plaintext ballots have the same style and the same selections, so they give every selection id the
same votes, whatever their contests are called. -/
theorem C94_plaintext_votes (a b : PlaintextBallot) (h : a.pyEq b = true) :
    a.styleId = b.styleId ∧
    (a.contests.flatMap (·.ballotSelections)).Perm (b.contests.flatMap (·.ballotSelections)) ∧
    ∀ sid, a.totalFor sid = b.totalFor sid := by
  simp only [PlaintextBallot.pyEq, Bool.and_eq_true, beq_iff_eq] at h
  obtain ⟨m, hp, hf⟩ := listEqWith_same (fun a b => PlaintextContest.pyEq_perm) h.2
  have hperm : (a.contests.flatMap (·.ballotSelections)).Perm (b.contests.flatMap (·.ballotSelections)) :=
    (flatMap_perm_of_forall₂ hf).trans (hp.flatMap_right _)
  exact ⟨h.1, hperm, fun sid => sum_perm ((hperm.filter _).map _)⟩

/-- C94: contests and selections may be listed in any order when no id is repeated. -/
theorem C94_plaintext_reorder (a : PlaintextBallot) (id' : String) (cs : List PlaintextContest)
    (hp : a.contests.Perm cs) (hn : (a.contests.map (·.objectId)).Nodup) :
    a.pyEq ⟨id', a.styleId, cs⟩ = true := by
  simp only [PlaintextBallot.pyEq, beq_self_eq_true, Bool.true_and]
  have hc : ∀ c : PlaintextContest, c.pyEq c = true := fun c =>
    listEqWith_refl (fun s => (PlaintextSelection.pyEq_iff s s).2 rfl) _
  exact listEqWith_perm hc hp hn

/-- C94: equal ballots whose contests are the same ones, listed in the same order without repetition, give every
selection the same votes in every contest.  Missing: without the condition on the contests this is false, see
`C94_plaintext_fails`. -/
theorem C94_plaintext_contest_votes_partial (a b : PlaintextBallot) (h : a.pyEq b = true)
    (hk : a.contests.map (·.objectId) = b.contests.map (·.objectId)) (hn : (a.contests.map (·.objectId)).Nodup) :
    ∀ cid sid, a.totalIn cid sid = b.totalIn cid sid := by
  simp only [PlaintextBallot.pyEq, Bool.and_eq_true, beq_iff_eq] at h
  have hal := listEqWith_aligned h.2 hk hn
  intro cid sid
  have hperm : ((a.contests.filter (fun c => decide (c.objectId = cid))).flatMap (·.ballotSelections)).Perm
      ((b.contests.filter (fun c => decide (c.objectId = cid))).flatMap (·.ballotSelections)) := by
    apply flatMap_perm_of_forall₂
    clear hk hn h
    generalize a.contests = l at hal
    generalize b.contests = l' at hal
    induction hal with
    | nil => exact .nil
    | @cons x y xs ys hxy _ ih =>
      simp only [List.filter_cons, hxy.2]
      split
      · exact .cons (PlaintextContest.pyEq_perm hxy.1) ih
      · exact ih
  exact sum_perm ((hperm.filter _).map _)

/-- A manifest with two questions that are both answered with "yes" or "no". -/
def yesNoManifest : Manifest := { toyManifest with
  candidates := [⟨"x", ⟨[]⟩, none, none, none⟩, ⟨"y", ⟨[]⟩, none, none, none⟩]
  contests := [⟨"c", 1, "u", .one_of_m, 1, some 1, "first", [⟨"yes", 1, "x"⟩, ⟨"no", 2, "y"⟩], none, none, none⟩,
    ⟨"d", 2, "u", .one_of_m, 1, some 1, "second", [⟨"yes", 1, "x"⟩, ⟨"no", 2, "y"⟩], none, none, none⟩] }

/-- Its internal manifest. -/
def yesNoIM : InternalManifest :=
  match mkInternalManifest toyEnv yesNoManifest with
  | .ok m => m
  | .error _ => ⟨[], [], [], 0⟩

/-- Its context. -/
def yesNoCtx : Context := makeContext toyEnv 1 1 (16 ^ 5 % 157) 4 yesNoIM.manifestHash

/-- A ballot that answers "yes" to the question `c` only. -/
def yesBallot (id c : String) : PlaintextBallot := ⟨id, "s", [⟨c, [⟨"yes", 1, false, none⟩]⟩]⟩

/-- C94 fails for contests: two ballots of a valid manifest, both accepted by the encryption, are equal although one
answers "yes" to the first question and the other to the second, and they have different ids. -/
theorem C94_plaintext_fails :
    yesNoManifest.isValid = true ∧ (yesBallot "b" "c").pyEq (yesBallot "v" "d") = true ∧
    (yesBallot "b" "c").objectId ≠ (yesBallot "v" "d").objectId ∧
    (yesBallot "b" "c").totalIn "c" "yes" = 1 ∧ (yesBallot "v" "d").totalIn "c" "yes" = 0 ∧
    (∃ e, encryptBallot toyEnv toyJson (yesBallot "b" "c") yesNoIM yesNoCtx 3 3 17 = .ok (some e)) ∧
    (∃ e, encryptBallot toyEnv toyJson (yesBallot "b" "d") yesNoIM yesNoCtx 3 3 17 = .ok (some e)) := by
  refine ⟨by decide +kernel, by decide +kernel, by decide, by decide +kernel, by decide +kernel, ?_, ?_⟩
  · have h : (match encryptBallot toyEnv toyJson (yesBallot "b" "c") yesNoIM yesNoCtx 3 3 17 with
        | .ok (some _) => true | _ => false) = true := by decide +kernel
    split at h
    · rename_i e he; exact ⟨e, he⟩
    · cases h
  · have h : (match encryptBallot toyEnv toyJson (yesBallot "b" "d") yesNoIM yesNoCtx 3 3 17 with
        | .ok (some _) => true | _ => false) = true := by decide +kernel
    split at h
    · rename_i e he; exact ⟨e, he⟩
    · cases h

/-! ## Encrypted ballots -/

theorem CContest.pyEq_iff {a b : CContest} (hn : (a.ballotSelections.map (·.objectId)).Nodup) :
    a.pyEq b = true ↔ a.SameVotes b := by
  simp only [CContest.pyEq, Bool.and_eq_true, beq_iff_eq, decide_eq_true_eq, listEqWith_eq_iff hn,
    CContest.SameVotes, and_assoc]

theorem CContest.pyEq_same {a b : CContest} (h : a.pyEq b = true) : a.SameVotes b := by
  simp only [CContest.pyEq, Bool.and_eq_true, beq_iff_eq, decide_eq_true_eq] at h
  obtain ⟨⟨⟨⟨⟨h1, h2⟩, h3⟩, h4⟩, h5⟩, h6⟩ := h
  exact ⟨h1, listEqWith_eq_perm h2, h3, h4, h5, h6⟩

/-- C94: equal encrypted ballots have the same id, style, manifest hash, code, seed, time, hash and nonce, and their
contests carry the same encryptions, hashes, nonces and proofs, possibly in another order.  When no contest and no
selection id is repeated this is exactly when they are equal. -/
theorem C94_ciphertext_iff (a b : CBallot) :
    (a.pyEq b = true → a.SameVotes b) ∧
    ((b.contests.map (·.objectId)).Nodup → (∀ c ∈ a.contests, (c.ballotSelections.map (·.objectId)).Nodup) →
      a.SameVotes b → a.pyEq b = true) := by
  constructor
  · intro h
    simp only [CBallot.pyEq, Bool.and_eq_true, beq_iff_eq] at h
    obtain ⟨⟨⟨⟨⟨⟨⟨⟨h1, h2⟩, h3⟩, h4⟩, h5⟩, h6⟩, h7⟩, h8⟩, h9⟩ := h
    exact ⟨h1, h2, h3, h4, h6, h7, h8, h9, listEqWith_same (fun _ _ => CContest.pyEq_same) h5⟩
  · rintro hn hs ⟨h1, h2, h3, h4, h6, h7, h8, h9, m, hp, hf⟩
    simp only [CBallot.pyEq, Bool.and_eq_true, beq_iff_eq]
    refine ⟨⟨⟨⟨⟨⟨⟨⟨h1, h2⟩, h3⟩, h4⟩, ?_⟩, h6⟩, h7⟩, h8⟩, h9⟩
    have hf' : List.Forall₂ (fun a b : CContest => a.pyEq b = true) a.contests m := by
      clear hp h1 h2 h3 h4 h6 h7 h8 h9 hn
      generalize a.contests = l at hf hs
      induction hf with
      | nil => exact .nil
      | cons hab _ ih =>
        exact .cons ((CContest.pyEq_iff (hs _ (by simp))).2 hab) (ih (fun c hc => hs c (by simp [hc])))
    refine (listEqWith_iff (R := fun a b : CContest => a.pyEq b = true) (fun _ _ => Iff.rfl) ?_ hn).2 ⟨m, hp, hf'⟩
    intro x y h
    exact (CContest.pyEq_same h).1

/-- The check of an encrypted ballot in the toy election. -/
def toyCheck (b : CBallot) : R Bool :=
  b.isValidEncryption toyEnv toyIM.manifestHash toyCtx.elgamalPublicKey toyCtx.cryptoExtendedBaseHash

/-- The toy ballot with another sum of its first contest. -/
def toyOtherSum (b : CBallot) : CBallot :=
  { b with contests := b.contests.map (fun c => { c with ciphertextAccumulation := ⟨1, 1⟩ }) }

/-- The toy ballot without its extended data. -/
def toyNoExtended (b : CBallot) : CBallot :=
  { b with contests := b.contests.map (fun c => { c with extendedData := none }) }

/-- C94: equal encrypted ballots whose contests are listed in the same order and carry the same sums pass or fail the
check together, for every key and every manifest.  Missing: without these conditions this is false, see
`C94_ciphertext_fails` and `C58_recomputed_ballot_hash_fails`. -/
theorem C94_ciphertext_valid_partial (E : Env) (a b : CBallot) (h : a.pyEq b = true)
    (hk : a.contests.map (·.objectId) = b.contests.map (·.objectId)) (hn : (a.contests.map (·.objectId)).Nodup)
    (hacc : a.contests.map (·.ciphertextAccumulation) = b.contests.map (·.ciphertextAccumulation))
    (hseq : ∀ c ∈ a.contests, (c.ballotSelections.map CSelection.sequenceOrder).Nodup) (seed key baseHash : Nat) :
    a.isValidEncryption E seed key baseHash = b.isValidEncryption E seed key baseHash := by
  simp only [CBallot.pyEq, Bool.and_eq_true, beq_iff_eq] at h
  obtain ⟨⟨⟨⟨⟨⟨⟨⟨h1, h2⟩, h3⟩, h4⟩, h5⟩, h6⟩, h7⟩, h8⟩, h9⟩ := h
  have hal := listEqWith_aligned h5 hk hn
  have hf : List.Forall₂ (fun a b : CContest => a.SameVotes b ∧
      a.ciphertextAccumulation = b.ciphertextAccumulation) a.contests b.contests := by
    clear hk hn hseq h5
    generalize a.contests = l at hal hacc
    generalize b.contests = l' at hal hacc
    induction hal with
    | nil => exact .nil
    | cons hab _ ih =>
      simp only [List.map_cons, List.cons.injEq] at hacc
      exact .cons ⟨CContest.pyEq_same hab.1, hacc.1⟩ (ih hacc.2)
  have hhash : a.contests.map (fun c => HArg.elem c.cryptoHash) = b.contests.map (fun c => HArg.elem c.cryptoHash) := by
    clear hk hn hseq h5 hal hacc
    generalize a.contests = l at hf
    generalize b.contests = l' at hf
    induction hf with
    | nil => rfl
    | cons hab _ ih => simp only [List.map_cons, ih, hab.1.2.2.2.1]
  have hlen : a.contests.length = b.contests.length := by simpa using congrArg List.length hk
  unfold CBallot.isValidEncryption CBallot.cryptoHashWith
  rw [h1, h3, h8, hhash, hlen]
  rcases validProofs_same E key baseHash hf hseq with ⟨r, r', e1, e2, e3⟩ | ⟨e, e1, e2⟩
  · simp only [e1, e2, bind, Except.bind, pure, Except.pure, e3]
  · simp only [e1, e2, bind, Except.bind]

/-- C94 fails for the check: a ballot that passes it is equal to one that fails it, because the sums of the contests
are not compared; and a ballot is equal to the same ballot without its write-ins and overvotes, and both pass. -/
theorem C94_ciphertext_fails :
    let b := toyEncrypt "b" "s" 1 0 0 9
    b.pyEq (toyOtherSum b) = true ∧ toyCheck b = .ok true ∧ toyCheck (toyOtherSum b) = .ok false ∧
    b.pyEq (toyNoExtended b) = true ∧ toyCheck (toyNoExtended b) = .ok true ∧
    (b.contests.map (·.extendedData.isSome)) = [true] ∧
    ((toyNoExtended b).contests.map (·.extendedData.isSome)) = [false] := by
  decide +kernel

/-! ## Manifests -/

theorem ContestDescription.pyEq_question {a b : ContestDescription} (h : a.pyEq b = true) : a.SameQuestion b := by
  rw [ContestDescription.pyEq_iff_parts] at h
  obtain ⟨h1, h2, h3, h4, h5, h6, h7, h8, h9⟩ := h
  exact ⟨h1, h2, h3, h4, h5, h6, listEqWith_eq_perm h7, h8, h9⟩

/-- C94: equal manifests have the same scope, type, dates, name, contact, units, parties, candidates and ballot
styles, and ask the same questions, each in some order. -/
theorem C94_manifest_determines (a b : Manifest) (h : a.pyEq b = true) :
    a.electionScopeId = b.electionScopeId ∧ a.type = b.type ∧ a.startDate = b.startDate ∧ a.endDate = b.endDate ∧
    a.geopoliticalUnits.Perm b.geopoliticalUnits ∧ a.parties.Perm b.parties ∧ a.candidates.Perm b.candidates ∧
    SameUpTo ContestDescription.SameQuestion a.contests b.contests ∧ a.ballotStyles.Perm b.ballotStyles ∧
    a.name = b.name ∧ a.contactInformation = b.contactInformation := by
  obtain ⟨h1, h2, h3, h4, h5, h6, h7, h8, h9, h10, h11⟩ := (Manifest.pyEq_iff_parts _ _).1 h
  exact ⟨h1, h2, h3, h4, listEqWith_eq_perm h5, listEqWith_eq_perm h6, listEqWith_eq_perm h7,
    listEqWith_same (fun _ _ => ContestDescription.pyEq_question) h8, listEqWith_eq_perm h9, h10, h11⟩

theorem listEqWith_eq_aligned {α : Type} [DecidableEq α] {k : α → String} {l l' : List α}
    (h : listEqWith (fun x y => decide (x = y)) k l l' = true) (hk : l.map k = l'.map k) (hn : (l.map k).Nodup) :
    l = l' := by
  rw [← forall₂_eq_iff]
  exact (listEqWith_aligned h hk hn).imp (fun a b hab => by simpa using hab.1)

/-- C94: equal manifests that list the same ids in the same order, without repetition, have the same hash: they are
the same election.  Missing: without the condition on the listing this is false, see `C94_manifest_fails`. -/
theorem C94_manifest_hash_partial (E : Env) (a b : Manifest) (h : a.pyEq b = true) (hl : a.listing = b.listing)
    (hd : a.DistinctIds) : a.cryptoHash E = b.cryptoHash E := by
  obtain ⟨h1, h2, h3, h4, h5, h6, h7, h8, h9, h10, h11⟩ := (Manifest.pyEq_iff_parts _ _).1 h
  obtain ⟨d1, d2, d3, d4, d5⟩ := hd
  simp only [Manifest.listing, Prod.mk.injEq] at hl
  obtain ⟨l1, l2, l3, l4⟩ := hl
  have hu := listEqWith_eq_aligned h5 l1 d1
  have hp := listEqWith_eq_aligned h6 l2 d2
  have hs := listEqWith_eq_aligned h9 l3 d3
  have hids : a.contests.map (·.objectId) = b.contests.map (·.objectId) := by
    simpa [List.map_map, Function.comp_def] using congrArg (List.map Prod.fst) l4
  have hal := listEqWith_aligned h8 hids d4
  have hc : a.contests.map (fun x => HArg.obj (x.cryptoHash E)) = b.contests.map (fun x => HArg.obj (x.cryptoHash E)) := by
    clear h h1 h2 h3 h4 h5 h6 h7 h8 h9 h10 h11 d1 d2 d3 d4 l1 l2 l3 hids hu hp hs
    generalize a.contests = l at hal d5 l4
    generalize b.contests = l' at hal l4
    induction hal with
    | nil => rfl
    | @cons x y xs ys hxy _ ih =>
      simp only [List.map_cons, List.cons.injEq, Prod.mk.injEq] at l4
      obtain ⟨q1, q2, q3, q4, q5, q6, q7, q8, q9⟩ := (ContestDescription.pyEq_iff_parts _ _).1 hxy.1
      have hsel := listEqWith_eq_aligned q7 l4.1.2 (d5 x (by simp))
      rw [List.map_cons, List.map_cons, ih (fun c hc => d5 c (List.mem_cons_of_mem _ hc)) l4.2]
      have hx : x.cryptoHash E = y.cryptoHash E := by
        unfold ContestDescription.cryptoHash ContestDescription.hashArgs
        rw [hxy.2, q1, q2, q3, q4, q5, q6, q8, q9, hsel]
      rw [hx]
  unfold Manifest.cryptoHash Manifest.hashArgs
  rw [h1, h2, h3, h4, h10, h11, hu, hp, hs, hc]

/-- The toy manifest with its contests listed the other way round. -/
def toyContestsReversed : Manifest := { toyManifest with contests := toyManifest.contests.reverse }

/-- The toy manifest with another id for the first contest. -/
def toyRenamed : Manifest := { toyManifest with
  contests := toyManifest.contests.map (fun c => if c.objectId = "c" then { c with objectId := "a" } else c) }

/-- C94 fails for manifests: valid manifests that are equal can have different hashes, because their contests are
listed in another order or because the id of a contest is not compared.  They are different elections: a ballot of
one is rejected in the other. -/
theorem C94_manifest_fails :
    toyManifest.isValid = true ∧ toyContestsReversed.isValid = true ∧ toyRenamed.isValid = true ∧
    toyManifest.pyEq toyContestsReversed = true ∧ toyManifest.pyEq toyRenamed = true ∧
    toyManifest.cryptoHash toyEnv ≠ toyContestsReversed.cryptoHash toyEnv ∧
    toyManifest.cryptoHash toyEnv ≠ toyRenamed.cryptoHash toyEnv ∧
    toyCheck (toyEncrypt "b" "s" 1 0 0 9) = .ok true ∧
    (toyEncrypt "b" "s" 1 0 0 9).isValidEncryption toyEnv (toyContestsReversed.cryptoHash toyEnv) toyCtx.elgamalPublicKey
      toyCtx.cryptoExtendedBaseHash = .ok false := by
  decide +kernel

/-! ## Concrete cases -/

/-- A ballot with two contests. -/
private def two : PlaintextBallot :=
  ⟨"b", "t", [⟨"c", [⟨"sx", 1, false, none⟩, ⟨"sy", 0, false, none⟩]⟩, ⟨"d", [⟨"sz", 1, false, none⟩]⟩]⟩

example : two.pyEq ⟨"other", "t", two.contests.reverse⟩ = true :=
  C94_plaintext_reorder two "other" _ (List.reverse_perm _).symm (by decide)

example : two.pyEq ⟨"b", "t", [⟨"c", [⟨"sx", 0, false, none⟩, ⟨"sy", 1, false, none⟩]⟩,
    ⟨"d", [⟨"sz", 1, false, none⟩]⟩]⟩ = false := by decide +kernel

example : two.totalFor "sx" = 1 ∧ two.totalFor "sy" = 0 ∧
    two.totalFor "sz" = (PlaintextBallot.mk "b" "t" two.contests.reverse).totalFor "sz" :=
  ⟨by decide +kernel, by decide +kernel,
    (C94_plaintext_votes _ _ (C94_plaintext_reorder two "b" _ (List.reverse_perm _).symm (by decide))).2.2 "sz"⟩

/-- The ballot with its selections listed the other way round. -/
private def turned (b : CBallot) : CBallot :=
  { b with contests := b.contests.map (fun c => { c with ballotSelections := c.ballotSelections.reverse }) }

example : toyCheck (turned (toyEncrypt "b" "t" 1 0 0 9)) = toyCheck (toyEncrypt "b" "t" 1 0 0 9) := by
  unfold toyCheck
  exact (C94_ciphertext_valid_partial toyEnv (toyEncrypt "b" "t" 1 0 0 9) _ (by decide +kernel) (by decide +kernel)
    (by decide +kernel) (by decide +kernel) (by decide +kernel) _ _ _).symm

example : toyManifest.DistinctIds := by
  refine ⟨by decide, by decide, by decide, by decide, by decide⟩

example : toyManifest.cryptoHash toyEnv
    = { toyManifest with specVersion := "2", candidates := toyManifest.candidates.reverse }.cryptoHash toyEnv :=
  C94_manifest_hash_partial toyEnv _ _ (by decide +kernel) rfl ⟨by decide, by decide, by decide, by decide, by decide⟩

end EG
