import Verif.Spec.Validator

/-!
# Lemmas about the ballot validator
-/

namespace EG

theorem find_comm {α : Type} (f : α → String) (k : String) (l : List α) :
    l.find? (fun s => k == f s) = l.find? (fun s => f s == k) := by
  congr 1; funext s; rw [Bool.eq_iff_iff, beq_iff_eq, beq_iff_eq]; exact eq_comm

theorem selectionsLoop_iff (E : Env) (ss : List CSelection) (ds : List SelectionDescription) :
    selectionsLoop E ss ds = true ↔ ∀ sd ∈ ds, ∃ s,
      ss.find? (fun s => s.objectId == sd.objectId) = some s ∧ s.descriptionHash = sd.cryptoHash E := by
  induction ds with
  | nil => simp [selectionsLoop]
  | cons d ds ih =>
    rw [selectionsLoop, find_comm CSelection.objectId, List.forall_mem_cons]
    cases h : ss.find? (fun s => s.objectId == d.objectId) with
    | none => simp
    | some s =>
      simp only [selectionIsValidForStyle, Option.some.injEq, exists_eq_left']
      by_cases hh : s.descriptionHash = d.cryptoHash E
      · simp [hh, ih]
      · simp [hh]

theorem contestsLoop_iff (E : Env) (cs : List CContest) (ds : List ContestWithPlaceholders) :
    contestsLoop E cs ds = true ↔ ∀ d ∈ ds, ∃ c,
      cs.find? (fun c => c.objectId == d.objectId) = some c ∧ c.Matches E d := by
  induction ds with
  | nil => simp [contestsLoop]
  | cons d ds ih =>
    rw [contestsLoop, find_comm CContest.objectId, List.forall_mem_cons]
    cases h : cs.find? (fun c => c.objectId == d.objectId) with
    | none => simp
    | some c =>
      simp only [contestIsValidForStyle, Option.some.injEq, exists_eq_left']
      by_cases hh : c.descriptionHash = d.cryptoHash E
      · by_cases hl : c.ballotSelections.length = d.ballotSelections.length + d.placeholders.length
        · cases hs : selectionsLoop E c.ballotSelections d.ballotSelections with
          | true =>
            have hm : c.Matches E d := ⟨hh, hl, (selectionsLoop_iff _ _ _).1 hs⟩
            simp [hh, hl, hm, ih]
          | false =>
            have hm : ¬ c.Matches E d := fun hm => by
              rw [(selectionsLoop_iff _ _ _).2 hm.selections] at hs; cases hs
            simp [hm]
        · have hm : ¬ c.Matches E d := fun hm => hl hm.count
          simp [hm, hl]
      · have hm : ¬ c.Matches E d := fun hm => hh hm.hash
        simp [hm, hh]

theorem getBallotStyle_eq (m : InternalManifest) (sid : String) :
    m.getBallotStyle sid = match m.ballotStyles.find? (fun s => s.objectId == sid) with
      | some s => .ok s
      | none => .error .index := by
  unfold InternalManifest.getBallotStyle
  rw [← List.head?_filter]
  cases m.ballotStyles.filter (fun i => i.objectId == sid) <;> rfl

theorem getContestsFor_eq (m : InternalManifest) (sid : String) :
    (m.ballotStyles.find? (fun s => s.objectId == sid) = none ∧ m.getContestsFor sid = .error .index) ∨
    ∃ ds, m.getContestsFor sid = .ok ds ∧ (∀ d, d ∈ ds ↔ m.StyleHas sid d) ∧ ds.Sublist m.contests ∧
      ∃ s, m.ballotStyles.find? (fun s => s.objectId == sid) = some s := by
  unfold InternalManifest.getContestsFor
  rw [getBallotStyle_eq]
  cases h : m.ballotStyles.find? (fun s => s.objectId == sid) with
  | none => left; exact ⟨rfl, rfl⟩
  | some s =>
    right
    simp only [bind, Except.bind]
    cases hu : s.geopoliticalUnitIds with
    | none =>
      refine ⟨[], rfl, fun d => ?_, List.nil_sublist _, s, rfl⟩
      simp only [List.not_mem_nil, InternalManifest.StyleHas, false_iff]
      rintro ⟨s', us, h1, h2, -⟩
      rw [h] at h1; cases h1; rw [hu] at h2; cases h2
    | some us =>
      refine ⟨_, rfl, fun d => ?_, List.filter_sublist, s, rfl⟩
      simp only [List.mem_filter, decide_eq_true_eq, InternalManifest.StyleHas]
      constructor
      · rintro ⟨h1, h2⟩; exact ⟨s, us, h, hu, h1, h2⟩
      · rintro ⟨s', us', h1, h2, h3, h4⟩
        rw [h] at h1; cases h1; rw [hu] at h2; cases h2; exact ⟨h3, h4⟩

theorem ballotIsValidForStyle_cases (E : Env) (b : CBallot) (m : InternalManifest) :
    (m.ballotStyles.find? (fun s => s.objectId == b.styleId) = none ∧
      ballotIsValidForStyle E b m = .error .index) ∨
    (∃ s, m.ballotStyles.find? (fun s => s.objectId == b.styleId) = some s) ∧
      ∃ r, ballotIsValidForStyle E b m = .ok r ∧ (r = true ↔ b.MatchesStyle E m) := by
  unfold ballotIsValidForStyle
  rcases getContestsFor_eq m b.styleId with ⟨h1, h2⟩ | ⟨ds, h1, h2, -, h3⟩
  · left; rw [h2]; exact ⟨h1, rfl⟩
  · right
    refine ⟨h3, _, by rw [h1]; rfl, ?_⟩
    rw [contestsLoop_iff]
    unfold CBallot.MatchesStyle
    simp only [h2]

theorem ballotIsValidForElection_true (E : Env) (b : CBallot) (m : InternalManifest) (ctx : Context)
    (validate : Bool) (h : ballotIsValidForElection E b m ctx validate = .ok true) :
    ballotIsValidForStyle E b m = .ok true ∧ (validate = true →
      b.isValidEncryption E m.manifestHash ctx.elgamalPublicKey ctx.cryptoExtendedBaseHash = .ok true) := by
  unfold ballotIsValidForElection at h
  cases hs : ballotIsValidForStyle E b m with
  | error e => rw [hs] at h; cases h
  | ok r =>
    rw [hs] at h
    cases r with
    | false => simp [bind, Except.bind, pure, Except.pure] at h
    | true =>
      refine ⟨rfl, fun hv => ?_⟩
      subst hv
      simp only [bind, Except.bind, pure, Except.pure, if_true] at h
      cases he : b.isValidEncryption E m.manifestHash ctx.elgamalPublicKey ctx.cryptoExtendedBaseHash with
      | error e => rw [he] at h; simp at h
      | ok r => rw [he] at h; cases r with
        | true => rfl
        | false => simp at h

theorem ballotIsValidForElection_of (E : Env) (b : CBallot) (m : InternalManifest) (ctx : Context)
    (validate : Bool) (h : ballotIsValidForStyle E b m = .ok true) (hv : validate = true →
      b.isValidEncryption E m.manifestHash ctx.elgamalPublicKey ctx.cryptoExtendedBaseHash = .ok true) :
    ballotIsValidForElection E b m ctx validate = .ok true := by
  unfold ballotIsValidForElection
  rw [h]
  cases validate with
  | false => rfl
  | true => simp [bind, Except.bind, pure, Except.pure, hv rfl]

/-- The proofs of all contests and selections hold. -/
theorem validProofs_iff (E : Env) (key baseHash : Nat) (cs : List CContest) :
    (∃ l, CBallot.validProofs E key baseHash cs = .ok l ∧ l.all id = true) ↔
      ∀ c ∈ cs, (∀ s ∈ c.ballotSelections, s.isValidEncryption E s.descriptionHash key baseHash = true) ∧
        c.isValidEncryption E c.descriptionHash key baseHash = .ok true := by
  induction cs with
  | nil => simp [CBallot.validProofs]
  | cons c cs ih =>
    rw [List.forall_mem_cons, ← ih]
    simp only [CBallot.validProofs, bind, Except.bind, pure, Except.pure]
    cases hc : c.isValidEncryption E c.descriptionHash key baseHash with
    | error e => simp
    | ok r =>
      cases hr : CBallot.validProofs E key baseHash cs with
      | error e => simp
      | ok l => simp [and_assoc]

theorem CBallot.isValidEncryption_iff (E : Env) (b : CBallot) (seed key baseHash : Nat) :
    b.isValidEncryption E seed key baseHash = .ok true ↔
      seed = b.manifestHash ∧ b.cryptoHash = b.cryptoHashWith E seed ∧
      ∀ c ∈ b.contests, (∀ s ∈ c.ballotSelections, s.isValidEncryption E s.descriptionHash key baseHash = true) ∧
        c.isValidEncryption E c.descriptionHash key baseHash = .ok true := by
  unfold CBallot.isValidEncryption
  rw [← validProofs_iff]
  split
  · rename_i h; simp [h]
  · rename_i h
    split
    · rename_i h'; simp [h']
    · rename_i h'
      replace h := Classical.not_not.1 h
      replace h' := Classical.not_not.1 h'
      cases hr : CBallot.validProofs E key baseHash b.contests with
      | error e => simp [bind, Except.bind]
      | ok l => simp [bind, Except.bind, pure, Except.pure, h, h']

theorem CContest.isValidEncryption_iff (E : Env) (c : CContest) (seed key baseHash : Nat) :
    c.isValidEncryption E seed key baseHash = .ok true ↔
      seed = c.descriptionHash ∧ c.cryptoHash = c.cryptoHashWith E seed ∧ ∃ pf, c.proof = some pf ∧
        accumulateSelections E.P c.ballotSelections = .ok c.ciphertextAccumulation ∧
        pf.isValid E c.ciphertextAccumulation key baseHash = true := by
  unfold CContest.isValidEncryption
  split
  · rename_i h; simp [h]
  · rename_i h
    split
    · rename_i h'; simp [h']
    · rename_i h'
      replace h := Classical.not_not.1 h
      replace h' := Classical.not_not.1 h'
      cases hp : c.proof with
      | none => simp
      | some pf =>
        cases ha : accumulateSelections E.P c.ballotSelections with
        | error e => simp [bind, Except.bind]
        | ok a =>
          simp only [bind, Except.bind, pure, Except.pure, Option.some.injEq, exists_eq_left', Except.ok.injEq]
          by_cases hac : c.ciphertextAccumulation = a
          · simp [hac, h, h ▸ h']
          · simp [hac, Ne.symm (Ne.intro hac)]

theorem CSelection.isValidEncryption_iff (E : Env) (s : CSelection) (seed key baseHash : Nat) :
    s.isValidEncryption E seed key baseHash = true ↔
      seed = s.descriptionHash ∧ s.cryptoHash = s.cryptoHashWith E seed ∧ ∃ pf, s.proof = some pf ∧
        pf.isValid E s.ciphertext key baseHash = true := by
  unfold CSelection.isValidEncryption
  split
  · rename_i h; simp [h]
  · rename_i h
    split
    · rename_i h'; simp [h']
    · rename_i h'
      replace h := Classical.not_not.1 h
      replace h' := Classical.not_not.1 h'
      cases hp : s.proof with
      | none => simp
      | some pf => simp [h, h ▸ h']

end EG
