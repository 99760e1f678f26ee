import Verif.Model.Factories
import Verif.Props.Strategies
import Verif.Lemmas.GuiKeyCeremony

/-!
# C121: what the factories of the tests give
-/

namespace EG

variable {E : Env}

/-! ### Selections -/

/-- C121 The selections that are drawn as well formed are exactly those with an id "selection-…" and a vote of 0 or 1, and the id goes with them; so they are
valid for that id and for no other. -/
theorem C121_selection (i : String) (s : PlaintextSelection) : (∃ r, selectionWellFormed r = (i, s)) ↔
    i = s.objectId ∧ (∃ u, s.objectId = "selection-" ++ u) ∧ (s.vote = 0 ∨ s.vote = 1) := by
  constructor
  · rintro ⟨r, h⟩
    unfold selectionWellFormed at h
    simp only [Prod.mk.injEq] at h
    obtain ⟨rfl, rfl⟩ := h
    refine ⟨rfl, ⟨r.uuid, rfl⟩, ?_⟩
    show (((drawInteger r.vote 0 1 : Nat) : Int) = 0 ∨ ((drawInteger r.vote 0 1 : Nat) : Int) = 1)
    unfold drawInteger
    omega
  · rintro ⟨rfl, ⟨u, hu⟩, hv⟩
    obtain ⟨si, sv, sp, sw⟩ := s
    simp only at hu hv
    subst hu
    refine ⟨⟨sw.isNone, sw.getD "", u, sv.toNat, sp⟩, ?_⟩
    unfold selectionWellFormed
    simp only [Prod.mk.injEq, true_and, PlaintextSelection.mk.injEq]
    refine ⟨?_, ?_⟩
    · unfold drawInteger
      rcases hv with rfl | rfl <;> rfl
    · cases sw <;> rfl

/-- C121 Each is valid for the id that comes with it, and for no other. -/
theorem C121_selection_valid (r : SelectionDraw) (i : String) :
    (selectionWellFormed r).2.isValid i = true ↔ i = (selectionWellFormed r).1 := by
  obtain ⟨-, -, h3⟩ := (C121_selection (selectionWellFormed r).1 (selectionWellFormed r).2).1 ⟨r, rfl⟩
  rw [PlaintextSelection.isValid_iff]
  constructor
  · rintro ⟨h, -⟩; exact h.symm
  · rintro rfl; exact ⟨rfl, h3⟩

/-- C121 The finding: the selections that are drawn as poorly formed are the well-formed ones; no vote outside 0 and 1 is ever drawn, and each is valid for its own id. -/
theorem C121_poorly_formed_fails (r : SelectionDraw) :
    selectionPoorlyFormed r = selectionWellFormed r ∧ (selectionPoorlyFormed r).2.isValid (selectionPoorlyFormed r).1 = true :=
  ⟨rfl, (C121_selection_valid r _).2 rfl⟩

/-- C121 A selection at random is one for the description, with either vote. -/
theorem C121_random_selection (d : SelectionDescription) (isPlaceholder : Bool) (s : PlaintextSelection) :
    (∃ bit, getRandomSelection d bit isPlaceholder = s) ↔
      s.objectId = d.objectId ∧ (s.vote = 0 ∨ s.vote = 1) ∧ s.isPlaceholder = isPlaceholder ∧ s.writeIn = none := by
  constructor
  · rintro ⟨bit, rfl⟩
    cases bit
    · exact ⟨rfl, Or.inl rfl, rfl, rfl⟩
    · exact ⟨rfl, Or.inr rfl, rfl, rfl⟩
  · obtain ⟨si, sv, sp, sw⟩ := s
    rintro ⟨h1, h2, h3, h4⟩
    simp only at h1 h2 h3 h4
    subst h1 h3 h4
    rcases h2 with rfl | rfl
    · exact ⟨false, rfl⟩
    · exact ⟨true, rfl⟩

/-! ### Contests -/

/-- The ids that a contest needs to be valid are distinct: those of the candidates, and those of the selections made of them. -/
structure DescriptionContestDraw.Distinct (r : DescriptionContestDraw) (m : Nat) : Prop where
  candidates : ∀ i < m, ∀ j < m, (r.selection i).email = (r.selection j).email → i = j
  selections : ∀ i < m, ∀ j < m, (r.selection i).email ++ "-selection-" ++ (r.selection i).uuid =
    (r.selection j).email ++ "-selection-" ++ (r.selection j).uuid → i = j

theorem drawInteger_bounds (x lo hi : Nat) (h : lo ≤ hi) : lo ≤ drawInteger x lo hi ∧ drawInteger x lo hi ≤ hi := by
  unfold drawInteger
  have := Nat.mod_lt x (show 0 < hi - lo + 1 by omega)
  omega

/-- C121 A contest is always drawn: between one and twenty selections and no more seats than selections, as many placeholders as seats, and every one of them behind
the selections.  It is valid exactly when the ids that were drawn are distinct.
Partial: addresses may be drawn twice, and then a contest that is called well formed is not valid (`C121_repeated_fails`). -/
theorem C121_contest_partial (sequenceOrder : Option Int) (districtId : Option String) (r : DescriptionContestDraw) :
    ∃ d, contestWellFormed sequenceOrder districtId r = .ok (d.objectId, d) ∧
      (1 ≤ d.numberElected ∧ d.numberElected ≤ d.ballotSelections.length ∧ d.ballotSelections.length ≤ 20) ∧
      d.votesAllowed = some d.numberElected ∧ (d.placeholders.length : Int) = d.numberElected ∧
      (∀ p ∈ d.placeholders, ∀ s ∈ d.ballotSelections, s.sequenceOrder < p.sequenceOrder) ∧
      (∀ o, sequenceOrder = some o → d.sequenceOrder = o) ∧ (∀ u, districtId = some u → d.electoralDistrictId = u) ∧
      (d.isValid = true ↔ r.Distinct d.ballotSelections.length) := by
  have hb1 := drawInteger_bounds r.first 1 20 (by decide)
  have hb2 := drawInteger_bounds r.second 1 20 (by decide)
  unfold contestWellFormed
  simp only [bind, Except.bind, pure, Except.pure]
  generalize hc : (ContestDescription.mk _ _ _ _ _ _ _ _ _ _ _) = c
  have hsel : c.ballotSelections = (List.range (max (drawInteger r.first 1 20) (drawInteger r.second 1 20))).map (fun i =>
        { (descriptionWellFormed none none (r.selection i)).2 with sequenceOrder := (i : Int) }) := by rw [← hc]
  have hlen : c.ballotSelections.length = max (drawInteger r.first 1 20) (drawInteger r.second 1 20) := by rw [hsel]; simp
  have hne : c.ballotSelections ≠ [] := by
    intro h
    rw [h] at hlen
    simp only [List.length_nil] at hlen
    omega
  have hn : c.numberElected = ((min (drawInteger r.first 1 20) (drawInteger r.second 1 20) : Nat) : Int) := by rw [← hc]
  obtain ⟨ps, h, hl, -, -, hord, -⟩ := C40_generation c ((min (drawInteger r.first 1 20) (drawInteger r.second 1 20) : Nat) : Int) hne
  rw [h]
  refine ⟨contestWithPlaceholdersFrom c ps, by rw [← hc]; rfl, ?_, ?_, ?_, ?_, ?_, ?_, ?_⟩
  · show 1 ≤ c.numberElected ∧ c.numberElected ≤ (c.ballotSelections.length : Int) ∧ c.ballotSelections.length ≤ 20
    rw [hn, hlen]
    omega
  · show c.votesAllowed = some c.numberElected
    rw [← hc]
  · show (ps.length : Int) = c.numberElected
    rw [hl, hn]; omega
  · exact hord
  · rintro o rfl
    show c.sequenceOrder = o
    rw [← hc]; rfl
  · rintro u rfl
    show c.electoralDistrictId = u
    rw [← hc]; rfl
  · unfold ContestWithPlaceholders.isValid
    rw [Bool.and_eq_true, ContestDescription.isValid_iff]
    have hph : decide (((contestWithPlaceholdersFrom c ps).placeholders.length : Int) = (contestWithPlaceholdersFrom c ps).numberElected) = true := by
      rw [decide_eq_true_eq]
      show (ps.length : Int) = c.numberElected
      rw [hl, hn]; omega
    rw [hph]
    have hs' : (contestWithPlaceholdersFrom c ps).ballotSelections = c.ballotSelections := rfl
    have hcand : c.ballotSelections.map SelectionDescription.candidateId = (List.range c.ballotSelections.length).map (fun i => (r.selection i).email) := by
      rw [hlen, hsel, List.map_map]; rfl
    have hids : c.ballotSelections.map SelectionDescription.objectId =
        (List.range c.ballotSelections.length).map (fun i => (r.selection i).email ++ "-selection-" ++ (r.selection i).uuid) := by
      rw [hlen, hsel, List.map_map]; rfl
    have hos : c.ballotSelections.map SelectionDescription.sequenceOrder = (List.range c.ballotSelections.length).map (fun i : Nat => (i : Int)) := by
      rw [hlen, hsel, List.map_map]; rfl
    constructor
    · rintro ⟨hok, -⟩
      have h1 := hok.candidates
      have h2 := hok.ids
      rw [hs', hcand, nodup_map_range] at h1
      rw [hs', hids, nodup_map_range] at h2
      exact ⟨h1, h2⟩
    · intro hd
      rw [hs'] at hd
      refine ⟨⟨?_, ?_, ?_, ?_, ?_, ?_⟩, rfl⟩
      · show c.numberElected ≤ (c.ballotSelections.length : Int)
        rw [hn, hlen]; omega
      · intro v hv
        have hv' : c.votesAllowed = some v := hv
        show c.numberElected ≤ v
        rw [← hc] at hv' ⊢
        cases hv'
        exact Int.le_refl _
      · rw [hs', hcand, nodup_map_range]; exact hd.candidates
      · rw [hs', hids, nodup_map_range]; exact hd.selections
      · rw [hs', hos, nodup_map_range]
        intro i _ j _ h
        exact Int.ofNat.inj h
      · have hvar : c.voteVariation = .n_of_m := by rw [← hc]
        show c.voteVariation ∈ _
        rw [hvar]; decide

/-- Draws with an address per selection, and with one address for all. -/
def toyContestDraw (emails : Nat → String) : DescriptionContestDraw := ⟨"e", 3, "d", 0, 2, fun i => ⟨emails i, 0, decStr i⟩, "n"⟩

/-- C121 The finding: with an address drawn twice the contest that is called well formed is not valid. -/
theorem C121_repeated_fails : ∃ (r : DescriptionContestDraw) (d : ContestWithPlaceholders),
    contestWellFormed none none r = .ok (d.objectId, d) ∧ d.isValid = false ∧
      (d.ballotSelections.map SelectionDescription.objectId).Nodup := by
  obtain ⟨d, hd, -⟩ := C121_contest_partial none none (toyContestDraw (fun _ => "a"))
  refine ⟨toyContestDraw (fun _ => "a"), d, hd, ?_⟩
  have he : (contestWellFormed none none (toyContestDraw (fun _ => "a"))).map (fun x => (x.2.isValid, x.2.ballotSelections.map SelectionDescription.objectId)) =
      .ok (false, ["a-selection-0", "a-selection-1", "a-selection-2"]) := by decide +kernel
  rw [hd] at he
  simp only [Except.map, Except.ok.injEq, Prod.mk.injEq] at he
  rw [he.1, he.2]
  exact ⟨rfl, by decide⟩

/-- A valid contest: three selections, one seat. -/
example : ∃ d, contestWellFormed (some 0) (some "u") (toyContestDraw (fun i => decStr i)) = .ok ("e-contest", d) ∧ d.isValid = true ∧
    d.ballotSelections.map SelectionDescription.objectId = ["0-selection-0", "1-selection-1", "2-selection-2"] ∧
    d.placeholders.map SelectionDescription.objectId = ["e-contest-3-placeholder"] := by
  obtain ⟨d, hd, -⟩ := C121_contest_partial (some 0) (some "u") (toyContestDraw (fun i => decStr i))
  have he : (contestWellFormed (some 0) (some "u") (toyContestDraw (fun i => decStr i))).map (fun x => (x.1, x.2.isValid,
      x.2.ballotSelections.map SelectionDescription.objectId, x.2.placeholders.map SelectionDescription.objectId)) =
      .ok ("e-contest", true, ["0-selection-0", "1-selection-1", "2-selection-2"], ["e-contest-3-placeholder"]) := by decide +kernel
  rw [hd] at he
  simp only [Except.map, Except.ok.injEq, Prod.mk.injEq] at he
  exact ⟨d, by rw [hd, he.1], he.2.1, he.2.2.1, he.2.2.2⟩

/-! ### Ballots -/

/-- C121 A fake ballot is made exactly for manifests with a style and two contests.
Partial: for a valid manifest with one contest there is none (`C121_one_contest_fails`). -/
theorem C121_fake_ballot_partial (m : Manifest) (ballotId : Option String) :
    (∃ b, electionFakeBallot m ballotId = .ok b) ↔ m.ballotStyles ≠ [] ∧ 2 ≤ m.contests.length := by
  unfold electionFakeBallot
  cases m.ballotStyles with
  | nil => simp
  | cons s ss =>
    match m.contests with
    | [] => simp
    | [c] => simp
    | c :: c' :: cs => simp

/-- C121 and its ids are those asked for and of the first style, its contests the first two, with all selections and not a single vote. -/
theorem C121_fake_ballot_blank (m : Manifest) (ballotId : Option String) (b : PlaintextBallot) (h : electionFakeBallot m ballotId = .ok b) :
    b.objectId = ballotId.getD "some-unique-ballot-id-123" ∧ m.ballotStyles.head?.map BallotStyle.objectId = some b.styleId ∧
    List.Forall₂ (fun (c : PlaintextContest) (d : ContestDescription) => c.objectId = d.objectId ∧
        c.ballotSelections.map PlaintextSelection.objectId = d.ballotSelections.map SelectionDescription.objectId ∧
        ∀ s ∈ c.ballotSelections, s.vote = 0 ∧ s.isPlaceholder = false ∧ s.writeIn = none) b.contests (m.contests.take 2) := by
  have hfrom : ∀ d : ContestDescription, (contestFrom d).objectId = d.objectId ∧
      (contestFrom d).ballotSelections.map PlaintextSelection.objectId = d.ballotSelections.map SelectionDescription.objectId ∧
      ∀ s ∈ (contestFrom d).ballotSelections, s.vote = 0 ∧ s.isPlaceholder = false ∧ s.writeIn = none := by
    intro d
    refine ⟨rfl, ?_, ?_⟩
    · unfold contestFrom; rw [List.map_map]; rfl
    · intro s hs
      obtain ⟨x, -, rfl⟩ := List.mem_map.1 hs
      exact ⟨rfl, rfl, rfl⟩
  unfold electionFakeBallot at h
  split at h
  · rename_i style _ c c' cs h1 h2
    cases h
    rw [h1, h2]
    exact ⟨rfl, rfl, .cons (hfrom c) (.cons (hfrom c') .nil)⟩
  · cases h

/-- C121 The finding: for a valid manifest with one contest there is no fake ballot. -/
theorem C121_one_contest_fails : ∃ m : Manifest, m.isValid = true ∧ m.ballotStyles ≠ [] ∧ ∀ i, electionFakeBallot m i = .error .index :=
  ⟨exManifest, by decide, by decide, fun _ => rfl⟩

theorem encryptContests_same {json : ContestData → Bytes} {b b' : PlaintextBallot} {key baseHash seed : Nat} {verify : Bool}
    {ds : List ContestWithPlaceholders} (h : ∀ d ∈ ds, b.voted d.toContestDescription = b'.voted d.toContestDescription) :
    encryptContests E json b key baseHash seed verify ds = encryptContests E json b' key baseHash seed verify ds := by
  induction ds with
  | nil => rfl
  | cons d ds ih =>
    have h1 := h d List.mem_cons_self
    rw [encryptContests_cons, encryptContests_cons, h1, ih (fun d hd => h d (List.mem_cons_of_mem _ hd))]

/-- C121 Encrypting it is encrypting a ballot with the same ids and no contests at all: both count as blank. -/
theorem C121_fake_ballot_encrypts (m : Manifest) (hm : (m.contests.map ContestDescription.objectId).Nodup) (im : InternalManifest)
    (him : mkInternalManifest E m = .ok im) (ballotId : Option String) (b : PlaintextBallot) (h : electionFakeBallot m ballotId = .ok b)
    (json : ContestData → Bytes) (ctx : Context) (seed nonce : Nat) (now : Int) (verify : Bool) :
    encryptBallot E json b im ctx seed nonce now verify = encryptBallot E json { b with contests := [] } im ctx seed nonce now verify := by
  have hmem : ∀ d ∈ im.contests, ∃ c ∈ m.contests, d.objectId = c.objectId ∧ d.ballotSelections = c.ballotSelections := by
    unfold mkInternalManifest generateContestsWithPlaceholders at him
    simp only [bindOk, pureOk] at him
    obtain ⟨cs, hcs, rfl⟩ := him
    intro d hd
    have hf := mapM_forall₂ hcs
    obtain ⟨c, hc, he⟩ := forall₂_mem_right hf hd
    simp only [bindOk, pureOk] at he
    obtain ⟨ps, -, rfl⟩ := he
    exact ⟨c, hc, rfl, rfl⟩
  have hvoted : ∀ d ∈ im.contests, b.voted d.toContestDescription = PlaintextBallot.voted { b with contests := [] } d.toContestDescription := by
    intro d hd
    obtain ⟨c0, hc0, e1, e2⟩ := hmem d hd
    have hb : PlaintextBallot.voted { b with contests := [] } d.toContestDescription = contestFrom c0 := by
      show PlaintextContest.mk d.objectId (d.ballotSelections.map _) = _
      rw [e1, e2]; rfl
    rw [hb]
    unfold PlaintextBallot.voted
    cases hf : b.contests.find? (fun c => c.objectId == d.objectId) with
    | none => show PlaintextContest.mk d.objectId (d.ballotSelections.map _) = _; rw [e1, e2]; rfl
    | some c =>
      have hcm := List.mem_of_find?_eq_some hf
      have hid : c.objectId = d.objectId := by simpa using List.find?_some hf
      have : ∃ c1 ∈ m.contests, c = contestFrom c1 := by
        unfold electionFakeBallot at h
        split at h
        · rename_i style _ c1 c2 cs h1 h2
          cases h
          rw [h2]
          simp only [List.mem_cons, List.not_mem_nil, or_false] at hcm
          rcases hcm with rfl | rfl
          · exact ⟨c1, by simp, rfl⟩
          · exact ⟨c2, by simp, rfl⟩
        · cases h
      obtain ⟨c1, hc1, rfl⟩ := this
      have hc : c1 = c0 := List.inj_on_of_nodup_map hm hc1 hc0 (by rw [← e1, ← hid]; rfl)
      rw [hc]
  unfold encryptBallot
  simp only [bind, Except.bind]
  cases im.getBallotStyle b.styleId with
  | error e => rfl
  | ok style =>
    simp only
    have hv : PlaintextBallot.isValid { b with contests := [] } style.objectId = b.isValid style.objectId := rfl
    rw [hv]
    split
    · rfl
    · rcases getContestsFor_eq im b.styleId with ⟨-, hds⟩ | ⟨ds, hds, -, hsub, -⟩
      · rw [hds]
      · rw [hds]
        simp only
        rw [encryptContests_same (b := b) (b' := { b with contests := [] }) (fun d hd => hvoted d (hsub.subset hd))]

/-- The fake manifest is valid, its internal manifest exists, and the fake ballot has its two contests, of two and three selections. -/
example (date : String) : (fakeManifest date).isValid = true ∧ (∃ im, mkInternalManifest E (fakeManifest date) = .ok im) ∧
    ((fakeManifest date).contests.map ContestDescription.objectId).Nodup ∧
    ∃ b, electionFakeBallot (fakeManifest date) (some "b") = .ok b ∧ b.objectId = "b" ∧ b.styleId = "some-ballot-style-id" ∧
      b.contests.map (fun c => c.ballotSelections.length) = [2, 3] := by
  have hv : (fakeManifest date).isValid = true := by
    have h : ∀ d, (fakeManifest d).isValid = (fakeManifest "").isValid := fun _ => rfl
    rw [h]; decide +kernel
  have hc : (fakeManifest date).contests = (fakeManifest "").contests := rfl
  refine ⟨hv, ?_, by rw [hc]; decide, _, rfl, rfl, rfl, rfl⟩
  obtain ⟨im, h, -⟩ := C40_internal_manifest_partial E (fakeManifest date) ((C41_iff_partial _).1 hv) (by rw [hc]; decide) (by rw [hc]; decide)
  exact ⟨im, h⟩

end EG
