import Verif.Lemmas.Strategies
import Verif.Props.Marking

/-!
# C118: the elections and ballots that the property tests draw
-/

namespace EG

variable {E : Env}

/-! ### Manifests -/

theorem strat_isValid_iff (maxP maxC : Nat) (r : ElectionDraws) :
    ManifestOk (stratManifest maxP maxC r) ↔ r.Distinct maxP maxC := by
  have hparty : ((stratManifest maxP maxC r).parties.map Party.objectId) = (List.range (r.partyCount maxP)).map (fun i => (r.party i).1) := by
    simp [stratManifest, strategyParties, Function.comp_def]
  have hcontest : ((stratManifest maxP maxC r).contests.map ContestDescription.objectId)
      = (List.range (r.contestCount maxC)).map (fun i => (r.contest i).uuid) := by
    simp [stratManifest, stratContest, Function.comp_def]
  have horder : ((stratManifest maxP maxC r).contests.map ContestDescription.sequenceOrder)
      = (List.range (r.contestCount maxC)).map (fun i : Nat => (i : Int)) := by
    simp [stratManifest, stratContest, Function.comp_def]
  have hcand := strat_candidate_ids maxP maxC r
  constructor
  · intro h
    have h1 := h.partyIds
    have h2 := h.contestIds
    have h3 := h.candidateIds
    rw [hparty, nodup_map_range] at h1
    rw [hcontest, nodup_map_range] at h2
    rw [hcand, List.nodup_flatMap] at h3
    refine ⟨h1, h2, ?_⟩
    intro i hi j hj k hk l hl he
    have hij : i = j := by
      by_contra hne
      have hpw := h3.2
      rcases Nat.lt_or_gt_of_ne hne with hlt | hlt
      · have := (List.pairwise_iff_getElem.1 hpw) i j (by simpa using hi) (by simpa using hj) hlt
        simp only [List.getElem_range, Function.onFun] at this
        exact this (List.mem_map.2 ⟨k, List.mem_range.2 hk, rfl⟩) (List.mem_map.2 ⟨l, List.mem_range.2 hl, he.symm⟩)
      · have := (List.pairwise_iff_getElem.1 hpw) j i (by simpa using hj) (by simpa using hi) hlt
        simp only [List.getElem_range, Function.onFun] at this
        exact this (List.mem_map.2 ⟨l, List.mem_range.2 hl, rfl⟩) (List.mem_map.2 ⟨k, List.mem_range.2 hk, he⟩)
    subst hij
    exact ⟨rfl, (nodup_map_range _ _).1 (h3.1 i (List.mem_range.2 hi)) k hk l hl he⟩
  · intro h
    have hmem : ∀ c ∈ (stratManifest maxP maxC r).contests, ∃ i < r.contestCount maxC,
        c = (stratContest (strategyParties r (r.partyCount maxP)) r.unit i (r.contest i)).2 := by
      intro c hc
      simp only [stratManifest, List.map_map, List.mem_map, List.mem_range] at hc
      obtain ⟨i, hi, rfl⟩ := hc
      exact ⟨i, hi, rfl⟩
    have hunit : (stratManifest maxP maxC r).HasUnit r.unit.objectId := ⟨r.unit, List.mem_singleton.2 rfl, rfl⟩
    constructor
    · exact List.nodup_singleton _
    · exact List.nodup_singleton _
    · rw [hparty, nodup_map_range]; exact h.party
    · rw [hcand, List.nodup_flatMap]
      refine ⟨fun i hi => (nodup_map_range _ _).2 (fun k hk l hl he =>
        (h.candidate i (List.mem_range.1 hi) i (List.mem_range.1 hi) k hk l hl he).2), ?_⟩
      rw [List.pairwise_iff_getElem]
      intro i j hi hj hlt x hx hy
      simp only [List.length_range] at hi hj
      simp only [List.getElem_range] at hx hy
      obtain ⟨k, hk, rfl⟩ := List.mem_map.1 hx
      obtain ⟨l, hl, he⟩ := List.mem_map.1 hy
      have := (h.candidate i hi j hj k (List.mem_range.1 hk) l (List.mem_range.1 hl) he.symm).1
      omega
    · rw [hcontest, nodup_map_range]; exact h.contest
    · rw [horder, nodup_map_range]; intro i _ j _ he; omega
    · intro s hs
      obtain rfl := List.mem_singleton.1 hs
      refine ⟨_, rfl, ?_⟩
      intro u hu
      simp only [List.map_cons, List.map_nil, List.mem_singleton] at hu
      subst hu
      exact hunit
    · intro c hc p hp
      simp only [stratManifest, List.map_map, List.mem_flatten, List.mem_map, List.mem_range] at hc
      obtain ⟨_, ⟨i, hi, rfl⟩, hc⟩ := hc
      simp only [Function.comp_apply, stratContest, ContestDraw.drawn, List.mem_map, List.mem_range] at hc
      obtain ⟨k, hk, rfl⟩ := hc
      simp only [strategyCandidate, Option.map_eq_some_iff] at hp
      obtain ⟨q, hq, rfl⟩ := hp
      have hq := drawFrom_mem hq
      split at hq
      · simp at hq
      · exact ⟨q, hq, rfl⟩
    · intro c hc
      obtain ⟨i, hi, rfl⟩ := hmem c hc
      have hd : ∀ k < (r.contest i).count, ∀ l < (r.contest i).count,
          ((r.contest i).candidates k).uuid = ((r.contest i).candidates l).uuid → k = l :=
        fun k hk l hl he => (h.candidate i hi i hi k hk l hl he).2
      constructor
      · simp only [stratContest, selections_length, ContestDraw.count]
        split <;> omega
      · intro v hv
        simp only [stratContest, Option.some.injEq] at hv ⊢
        omega
      · simp only [stratContest]
        rw [selections_candidates, nodup_map_range]
        exact hd
      · simp only [stratContest]
        rw [selections_ids, nodup_map_range]
        exact fun k hk l hl he => hd k hk l hl (cdash_inj he)
      · simp only [stratContest]
        rw [selections_orders, nodup_map_range]
        intro k _ l _ he
        omega
      · simp only [stratContest]
        split
        · simp
        · split <;> simp
    · intro c hc
      obtain ⟨i, hi, rfl⟩ := hmem c hc
      exact hunit
    · intro c hc ps hps p hp
      obtain ⟨i, hi, rfl⟩ := hmem c hc
      simp only [stratContest] at hps
      split at hps
      · cases hps
      · cases hps
        obtain ⟨q, hq, rfl⟩ := List.mem_map.1 hp
        exact ⟨q, hq, rfl⟩

/-- C118 A drawn manifest is valid exactly if the uuids of the parties, of the contests and of all candidates differ, as hypothesis promises. -/
theorem C118_valid_iff (maxP maxC : Nat) (r : ElectionDraws) (m : Manifest) (h : strategyManifest maxP maxC r = .ok m) :
    m.isValid = true ↔ r.Distinct maxP maxC := by
  have h0 : 0 < maxP ∧ 0 < maxC := by
    unfold strategyManifest at h
    split at h
    · cases h
    · omega
  rw [strategyManifest_eq h0.1 h0.2] at h
  cases h
  rw [C41_iff_partial, strat_isValid_iff]

/-- C118 A manifest is drawn whenever parties and contests are asked for; with different uuids of one length it is ready for an election.  It has the
numbers of parties and contests asked for, one ballot style that all contests are on, and contests of one to three seats with as many votes and up to three
more selections. -/
theorem C118_manifest (maxP maxC : Nat) (r : ElectionDraws) (hp : 0 < maxP) (hc : 0 < maxC) :
    ∃ m, strategyManifest maxP maxC r = .ok m ∧
      (1 ≤ m.parties.length ∧ m.parties.length ≤ maxP) ∧ (1 ≤ m.contests.length ∧ m.contests.length ≤ maxC) ∧
      m.geopoliticalUnits = [r.unit] ∧ (∀ c ∈ m.contests, c.Typical ∧ c.electoralDistrictId = r.unit.objectId) ∧
      (∃ s, m.ballotStyles = [s] ∧ s.objectId = r.style ∧ s.geopoliticalUnitIds = some [r.unit.objectId] ∧
        s.partyIds = some (m.parties.map Party.objectId)) ∧
      (r.Distinct maxP maxC → r.SameLength maxC → ManifestReady m) := by
  refine ⟨_, strategyManifest_eq hp hc r, ?_, ?_, rfl, ?_, ⟨_, rfl, rfl, rfl, rfl⟩, ?_⟩
  · have := Nat.mod_lt r.parties hp
    simp only [stratManifest, strategyParties, ElectionDraws.partyCount, List.length_map, List.length_range]
    omega
  · have := Nat.mod_lt r.contests hc
    simp only [stratManifest, ElectionDraws.contestCount, List.length_map, List.length_range]
    omega
  · intro c hc
    simp only [stratManifest, List.map_map, List.mem_map, List.mem_range] at hc
    obtain ⟨i, hi, rfl⟩ := hc
    have hn := Nat.mod_lt (r.contest i).n (show 0 < 3 by omega)
    have hm := Nat.mod_lt (r.contest i).more (show 0 < 4 by omega)
    refine ⟨⟨?_, rfl, ?_, ?_, ?_⟩, rfl⟩
    · simp only [Function.comp_apply, stratContest]
      split <;> omega
    · simp only [Function.comp_apply, stratContest, selections_length, ContestDraw.count]
      split <;> omega
    · simp only [Function.comp_apply, stratContest]
      omega
    · intro s hs
      have : s.sequenceOrder ∈ (List.range (r.contest i).count).map (fun k : Nat => (k : Int)) := by
        rw [← selections_orders (r.contest i) (if (r.contest i).referendum then [] else strategyParties r (r.partyCount maxP))]
        exact List.mem_map.2 ⟨s, hs, rfl⟩
      obtain ⟨k, -, hk⟩ := List.mem_map.1 this
      omega
  · intro hd hl
    have hok := (strat_isValid_iff maxP maxC r).2 hd
    have hmem : ∀ c ∈ (stratManifest maxP maxC r).contests, ∃ i < r.contestCount maxC,
        c = (stratContest (strategyParties r (r.partyCount maxP)) r.unit i (r.contest i)).2 := by
      intro c hc
      simp only [stratManifest, List.map_map, List.mem_map, List.mem_range] at hc
      obtain ⟨i, hi, rfl⟩ := hc
      exact ⟨i, hi, rfl⟩
    refine ⟨hok, ?_, ?_, ?_, ?_⟩
    · intro c hc
      obtain ⟨i, hi, rfl⟩ := hmem c hc
      rw [← List.length_pos_iff]
      simp only [stratContest, selections_length, ContestDraw.count]
      split <;> omega
    · intro c hc
      obtain ⟨i, hi, rfl⟩ := hmem c hc
      simp only [stratContest]
      split <;> omega
    · rw [List.pairwise_iff_getElem]
      intro i j hi hj hlt
      simp only [stratManifest, List.getElem_map, List.getElem_range, stratContest]
      omega
    · intro c hc s hs i he
      obtain ⟨j, hj, rfl⟩ := hmem c hc
      have : s.objectId ∈ (List.range (r.contest j).count).map (fun k => "c-" ++ ((r.contest j).candidates k).uuid) := by
        rw [← selections_ids (r.contest j) (if (r.contest j).referendum then [] else strategyParties r (r.partyCount maxP))]
        exact List.mem_map.2 ⟨s, hs, rfl⟩
      obtain ⟨k, hk, hk'⟩ := List.mem_map.1 this
      rw [← hk'] at he
      have hlen := congrArg String.length he
      have h1 := hl j hj k (List.mem_range.1 hk)
      simp only [stratContest, String.length_append] at hlen
      have e1 : "c-".length = 2 := by decide
      have e2 : "-placeholder".length = 12 := by decide
      have e3 : "-".length = 1 := by decide
      omega

/-- C118 Nothing is drawn if no parties or no contests are asked for. -/
theorem C118_nothing (maxP maxC : Nat) (r : ElectionDraws) (h : maxP = 0 ∨ maxC = 0) : strategyManifest maxP maxC r = .error .assertion := by
  unfold strategyManifest
  rw [if_pos h]

/-- C118 Every number of parties and every list of contest sizes within the bounds can be drawn, whatever the uuids. -/
theorem C118_any_shape (maxP maxC P : Nat) (shapes : List (Nat × Nat)) (hP : 1 ≤ P ∧ P ≤ maxP) (hC : 1 ≤ shapes.length ∧ shapes.length ≤ maxC)
    (hs : ∀ s ∈ shapes, (1 ≤ s.1 ∧ s.1 ≤ 3) ∧ s.1 ≤ s.2 ∧ s.2 ≤ s.1 + 3) (r0 : ElectionDraws) :
    ∃ r m, strategyManifest maxP maxC r = .ok m ∧ m.parties.length = P ∧
      m.contests.map (fun c => (c.numberElected, c.ballotSelections.length)) = shapes.map (fun s => ((s.1 : Int), s.2)) ∧
      (∀ i, r.party i = r0.party i) ∧ (∀ i, (r.contest i).uuid = (r0.contest i).uuid) ∧
      ∀ i k, (r.contest i).candidates k = (r0.contest i).candidates k := by
  refine ⟨{ r0 with
    parties := P - 1
    contests := shapes.length - 1
    contest := fun i => { r0.contest i with
      referendum := false
      n := (shapes[i]?.getD (1, 1)).1 - 1
      more := (shapes[i]?.getD (1, 1)).2 - (shapes[i]?.getD (1, 1)).1 } }, _, strategyManifest_eq (by omega) (by omega) _, ?_, ?_,
    fun _ => rfl, fun _ => rfl, fun _ _ => rfl⟩
  · simp only [stratManifest, strategyParties, ElectionDraws.partyCount, List.length_map, List.length_range]
    rw [Nat.mod_eq_of_lt (by omega)]
    omega
  · apply List.ext_getElem
    · simp only [stratManifest, ElectionDraws.contestCount, List.length_map, List.length_range]
      rw [Nat.mod_eq_of_lt (by omega)]
      omega
    · intro i h1 h2
      simp only [List.length_map] at h2
      have hi := hs shapes[i] (List.getElem_mem h2)
      simp only [stratManifest, List.getElem_map, List.getElem_range, stratContest, selections_length, ContestDraw.count,
        List.getElem?_eq_getElem h2, Option.getD_some, Bool.false_eq_true, if_false]
      rw [Nat.mod_eq_of_lt (by omega), Nat.mod_eq_of_lt (by omega)]
      rw [Prod.mk.injEq]
      omega

/-! ### Contests with room for overvoting -/

/-- C118 The contests drawn with room for overvoting have more selections than seats; those drawn without have such room exactly if more selections than
seats are drawn. -/
theorem C118_room (seq : Nat) (parties : List Party) (units : List GeopoliticalUnit) (r : ContestDraw) (cs : List Candidate) (c : ContestDescription) :
    (overvotingContest seq parties units r = .ok (cs, c) → c.RoomForOvervoting ∧ 1 ≤ c.numberElected ∧ c.votesAllowed = some c.numberElected) ∧
    (candidateContest seq parties units none none r = .ok (cs, c) → (c.RoomForOvervoting ↔ r.more % 4 ≠ 0)) := by
  have room : ∀ d : ContestDescription, d.RoomForOvervoting ↔ d.numberElected < d.ballotSelections.length := by
    intro d
    refine ⟨fun ⟨s, hs, hl⟩ => ?_, fun h => ⟨_, List.Sublist.refl _, h⟩⟩
    have := hs.length_le
    omega
  constructor
  · intro h
    unfold overvotingContest candidateContest at h
    simp only [Option.getD_some] at h
    split at h
    · cases h
    · cases h
      rw [room]
      simp only [selections_length]
      have h1 := drawInteger_le r.more 1 3 (by omega)
      have h2 := drawInteger_le r.n 1 3 (by omega)
      refine ⟨?_, ?_, trivial⟩ <;> omega
  · intro h
    unfold candidateContest at h
    simp only [Option.getD_none] at h
    split at h
    · cases h
    · cases h
      rw [room]
      simp only [selections_length, drawInteger]
      omega

/-! ### Ballots -/

theorem votedContest_iff {d : ContestWithPlaceholders} {c : PlaintextContest} :
    (∃ r, votedContest r d = .ok c) ↔ d.isValid = true ∧ c.VotedIn d := by
  constructor
  · rintro ⟨r, h⟩
    unfold votedContest at h
    split at h
    · cases h
    rename_i hv
    have hv : d.isValid = true := by simpa using hv
    split at h
    · cases h
    cases h
    obtain ⟨h0, hn⟩ := valid_seats hv
    refine ⟨hv, rfl, (shuffle r.shuffle d.ballotSelections).take (drawInteger r.cut 0 d.numberElected.toNat),
      (shuffle r.shuffle d.ballotSelections).drop (drawInteger r.cut 0 d.numberElected.toNat), ?_, ?_, rfl⟩
    · rw [List.take_append_drop]
      exact shuffle_perm _ _
    · have := (drawInteger_le r.cut 0 d.numberElected.toNat (Nat.zero_le _)).2
      rw [List.length_take]
      omega
  · rintro ⟨hv, hid, yes, no, hp, hl, hs⟩
    obtain ⟨h0, hn⟩ := valid_seats hv
    obtain ⟨draw, hd⟩ := shuffle_any hp.symm
    refine ⟨⟨draw, yes.length⟩, ?_⟩
    unfold votedContest
    rw [if_neg (by rw [hv]; decide), if_neg (by omega)]
    have hc : drawInteger yes.length 0 d.numberElected.toNat = yes.length := by
      unfold drawInteger
      rw [Nat.mod_eq_of_lt (by omega)]
      omega
    simp only [hd, hc, List.take_left, List.drop_left]
    cases c
    simp only at hid hs
    rw [hid, hs]
    rfl

/-- C118 The contests that are drawn on a valid contest are exactly those that list every selection once, with votes for at most as many as there are seats,
these first; on an invalid contest nothing is drawn. -/
theorem C118_contest (d : ContestWithPlaceholders) (c : PlaintextContest) : (∃ r, votedContest r d = .ok c) ↔ d.isValid = true ∧ c.VotedIn d :=
  votedContest_iff

theorem VotedIn.marked {c : PlaintextContest} {d : ContestWithPlaceholders} (h : c.VotedIn d) :
    ∃ k, c.Marked d k ∧ VotesAsked true true d.numberElected k ∧
      (c.ballotSelections.map PlaintextSelection.objectId).Perm (d.ballotSelections.map SelectionDescription.objectId) := by
  obtain ⟨yes, no, hp, hl, hs⟩ := h.split
  have hs' : c.ballotSelections = yes.map (fun s => selectionFrom s false true) ++ no.map (fun s => selectionFrom s false false) := hs
  have hperm : (c.ballotSelections.map PlaintextSelection.objectId).Perm (d.ballotSelections.map SelectionDescription.objectId) := by
    rw [hs, List.map_append, List.map_map, List.map_map]
    show (yes.map SelectionDescription.objectId ++ no.map SelectionDescription.objectId).Perm _
    rw [← List.map_append]
    exact hp.map _
  refine ⟨yes.length, ⟨h.id, ⟨[], by rw [List.append_nil]; exact hperm⟩, ?_, ?_, ?_⟩, ?_, hperm⟩
  · unfold PlaintextContest.chosen
    rw [hs', List.filter_append, List.length_append, chosen_yes, chosen_no]
    simp
  · intro s hs1
    rw [hs] at hs1
    rcases List.mem_append.1 hs1 with hh | hh <;> obtain ⟨x, -, rfl⟩ := List.mem_map.1 hh
    · exact Or.inr rfl
    · exact Or.inl rfl
  · intro s hs1
    rw [hs] at hs1
    rcases List.mem_append.1 hs1 with hh | hh <;> obtain ⟨x, -, rfl⟩ := List.mem_map.1 hh <;> exact ⟨rfl, rfl⟩
  · unfold VotesAsked
    by_cases h0 : yes.length = 0
    · exact Or.inr (Or.inl ⟨rfl, by omega⟩)
    · exact Or.inr (Or.inr ⟨rfl, by omega, hl⟩)

theorem votedContests_iff {i : Nat} {ds : List ContestWithPlaceholders} {cs : List PlaintextContest} :
    (∃ r, votedContests r i ds = .ok cs) ↔ List.Forall₂ (fun c d => d.isValid = true ∧ c.VotedIn d) cs ds := by
  have congr : ∀ {r r' : Nat → VoteDraws} {i : Nat} {ds : List ContestWithPlaceholders}, (∀ k, i ≤ k → r k = r' k) →
      votedContests r i ds = votedContests r' i ds := by
    intro r r' i ds h
    induction ds generalizing i with
    | nil => rfl
    | cons d ds ih =>
      unfold votedContests
      rw [h i (Nat.le_refl _), ih (fun k hk => h k (by omega))]
  induction ds generalizing i cs with
  | nil =>
    constructor
    · rintro ⟨r, h⟩
      cases h
      exact .nil
    · intro h
      cases h
      exact ⟨fun _ => ⟨fun _ => 0, 0⟩, rfl⟩
  | cons d ds ih =>
    constructor
    · rintro ⟨r, h⟩
      simp only [votedContests, bindOk, pureOk] at h
      obtain ⟨c, h1, cs', h2, rfl⟩ := h
      exact .cons (votedContest_iff.1 ⟨_, h1⟩) (ih.1 ⟨r, h2⟩)
    · intro h
      cases h with
      | cons h1 h2 =>
        obtain ⟨r0, h1⟩ := votedContest_iff.2 h1
        obtain ⟨r, h2⟩ := (ih (i := i + 1)).2 h2
        refine ⟨fun k => if k = i then r0 else r k, ?_⟩
        simp only [votedContests, bindOk, pureOk]
        refine ⟨_, by rw [if_pos trivial]; exact h1, _, ?_, rfl⟩
        rw [congr (r' := r) (fun k hk => by rw [if_neg (by omega)])]
        exact h2

/-- C118 The ballots that are drawn are exactly those that have a style of the manifest and its contests, of which there must be some, all valid and voted as
in `C118_contest`. -/
theorem C118_ballot (im : InternalManifest) (b : PlaintextBallot) :
    (∃ r, votedBallot im r = .ok b) ↔ b.styleId ∈ im.ballotStyles.map BallotStyle.objectId ∧
      im.contests.filter (im.onStyle b.styleId) ≠ [] ∧
      List.Forall₂ (fun c d => d.isValid = true ∧ c.VotedIn d) b.contests (im.contests.filter (im.onStyle b.styleId)) := by
  constructor
  · rintro ⟨r, h⟩
    unfold votedBallot at h
    split at h
    · cases h
    rename_i style hst
    have hm : style.objectId ∈ im.ballotStyles.map BallotStyle.objectId := List.mem_map.2 ⟨style, drawFrom_mem hst, rfl⟩
    rw [getContestsFor_filter hm] at h
    simp only [bind, Except.bind] at h
    split at h
    · cases h
    rename_i hne
    split at h
    · cases h
    rename_i cs hcs
    cases h
    exact ⟨hm, by simpa using hne, votedContests_iff.1 ⟨_, hcs⟩⟩
  · rintro ⟨hm, hne, hf⟩
    obtain ⟨style, hs, he⟩ := List.mem_map.1 hm
    obtain ⟨i, hi, hi'⟩ := List.mem_iff_getElem.1 hs
    obtain ⟨cr, hcr⟩ := (votedContests_iff (i := 0)).2 hf
    refine ⟨⟨i, cr, b.objectId⟩, ?_⟩
    have hd : drawFrom i im.ballotStyles = some style := by
      unfold drawFrom drawInteger
      rw [Nat.mod_eq_of_lt (by omega), Nat.zero_add, List.getElem?_eq_getElem hi, hi']
    unfold votedBallot
    simp only [hd, he]
    rw [getContestsFor_filter hm]
    simp only [bind, Except.bind]
    rw [if_neg (by simpa using hne), hcr]
    rfl

/-! ### Whole elections -/

/-- C118 With different uuids of one length, an election with ballots always comes out: the manifest is valid, the internal manifest and the context belong to
it, the secret belongs to the key, there are as many ballots as asked for, with the uuids drawn, and every ballot has all contests and can be encrypted,
unless a nonce is 0. -/
theorem C118_election (r : ElectionDraws) (hd : r.Distinct 3 3) (hl : r.SameLength 3) (votes : List VotedDraws) (secret commitment : Nat)
    (hs : 0 < secret ∧ secret < E.P.q) :
    ∃ m im bs s ctx, electionsAndBallots E r votes secret commitment = .ok (m, im, bs, s, ctx) ∧
      m.isValid = true ∧ mkInternalManifest E m = .ok im ∧ im.UniqueIds ∧ im.ballotStyles.map BallotStyle.objectId = [r.style] ∧
      ctx = makeContext E 1 1 (E.P.g ^ s % E.P.p) commitment (m.cryptoHash E) ∧ 2 ≤ s ∧ (secret ≠ 1 → s = secret) ∧
      bs.map (fun b => b.objectId) = votes.map (fun v => v.uuid) ∧
      ∀ b ∈ bs, b.styleId = r.style ∧ List.Forall₂ PlaintextContest.VotedIn b.contests im.contests ∧
        ∀ d ∈ im.contests, ∀ seed, NoncesUsable E d seed → Encryptable E contestDataJson (b.voted d.toContestDescription) d seed := by
  obtain ⟨m, hm, -, hcl, -, htyp, ⟨st, hst, hsid, hsu, -⟩, hready⟩ := C118_manifest 3 3 r (by omega) (by omega)
  have hr := hready hd hl
  obtain ⟨im, him, huniq, -, hstyles, -, hmap, hval⟩ := C40_unique_ids_partial E m hr
  have hdist : ∀ d ∈ im.contests, ∃ c ∈ m.contests, d.toContestDescription = { c with primaryPartyIds := none } := by
    intro d hd
    have : d.toContestDescription ∈ im.contests.map (fun d => d.toContestDescription) := List.mem_map.2 ⟨d, hd, rfl⟩
    rw [hmap] at this
    obtain ⟨c, hc, he⟩ := List.mem_map.1 this
    exact ⟨c, hc, he.symm⟩
  have hon : ∀ d ∈ im.contests, im.onStyle r.style d = true := by
    intro d hd
    obtain ⟨c, hc, he⟩ := hdist d hd
    have e1 : d.electoralDistrictId = c.electoralDistrictId := by rw [he]
    unfold InternalManifest.onStyle
    rw [hstyles, hst]
    simp only [List.find?_cons, hsid, beq_self_eq_true, hsu, List.mem_singleton, decide_eq_true_eq]
    rw [e1]
    exact (htyp c hc).2
  have hfilter : im.contests.filter (im.onStyle r.style) = im.contests := List.filter_eq_self.2 hon
  have hne : im.contests ≠ [] := by
    have h1 := congrArg List.length hmap
    rw [List.length_map, List.length_map] at h1
    rw [← List.length_pos_iff]
    omega
  have hids : im.ballotStyles.map BallotStyle.objectId = [r.style] := by rw [hstyles, hst, ← hsid]; rfl
  have hballots : ∀ vs : List VotedDraws, ∃ bs, vs.mapM (votedBallot im) = .ok bs ∧ bs.map (fun b => b.objectId) = vs.map (fun v => v.uuid) ∧
      ∀ b ∈ bs, ∃ v, votedBallot im v = .ok b := by
    intro vs
    induction vs with
    | nil => exact ⟨[], rfl, rfl, by simp⟩
    | cons v vs ih =>
      obtain ⟨bs, h1, h2, h3⟩ := ih
      have hb : ∃ b, votedBallot im v = .ok b ∧ b.objectId = v.uuid := by
        have hdr : drawFrom v.style im.ballotStyles = some st := by rw [hstyles, hst, drawFrom_single]
        have hone : ∀ (q : VoteDraws) (d : ContestWithPlaceholders), d ∈ im.contests → ∃ c, votedContest q d = .ok c := by
          intro q d hd
          obtain ⟨-, hn⟩ := valid_seats (hval d hd).1
          unfold votedContest
          rw [if_neg (by rw [(hval d hd).1]; decide), if_neg (by omega)]
          exact ⟨_, rfl⟩
        have hall : ∀ (ds : List ContestWithPlaceholders) (i : Nat), (∀ d ∈ ds, d ∈ im.contests) → ∃ cs, votedContests v.contests i ds = .ok cs := by
          intro ds
          induction ds with
          | nil => intro i _; exact ⟨[], rfl⟩
          | cons d ds ih =>
            intro i hds
            obtain ⟨c, hc⟩ := hone (v.contests i) d (hds d List.mem_cons_self)
            obtain ⟨cs, hcs⟩ := ih (i + 1) (fun x hx => hds x (List.mem_cons_of_mem _ hx))
            exact ⟨c :: cs, by simp only [votedContests, hc, hcs, bind, Except.bind, pure, Except.pure]⟩
        obtain ⟨cs, hcs⟩ := hall im.contests 0 (fun _ h => h)
        refine ⟨⟨v.uuid, st.objectId, cs⟩, ?_, rfl⟩
        unfold votedBallot
        rw [hdr]
        simp only
        rw [getContestsFor_filter (by rw [hids, hsid]; exact List.mem_singleton.2 rfl), hsid, hfilter]
        simp only [bind, Except.bind]
        rw [if_neg (by simpa using hne), hcs]
        rfl
      obtain ⟨b, hb, hbid⟩ := hb
      refine ⟨b :: bs, ?_, by simp [h2, hbid], ?_⟩
      · rw [List.mapM_cons, hb, h1]
        rfl
      · intro x hx
        rcases List.mem_cons.1 hx with rfl | hx
        · exact ⟨v, hb⟩
        · exact h3 x hx
  obtain ⟨bs, hbs, hbid, hb⟩ := hballots votes
  refine ⟨m, im, bs, (if secret = 1 then 2 else secret), _, ?_, (C41_iff_partial m).2 hr.ok, him, huniq, hids, rfl, ?_, ?_, hbid, ?_⟩
  · unfold electionsAndBallots
    simp only [hm, him, hbs, bind, Except.bind, pure, Except.pure, strategyContext, gPowP, powP]
  · split <;> omega
  · intro h
    rw [if_neg h]
  · intro b hbm
    obtain ⟨v, hv⟩ := hb b hbm
    obtain ⟨h1, h2, h3⟩ := (C118_ballot im b).1 ⟨v, hv⟩
    rw [hids, List.mem_singleton] at h1
    rw [h1, hfilter] at h3
    have hf3 : List.Forall₂ PlaintextContest.VotedIn b.contests im.contests := h3.imp (fun _ _ h => h.2)
    refine ⟨h1, hf3, ?_⟩
    intro d hd seed hn
    obtain ⟨c, hc, he⟩ := hdist d hd
    have ht := (htyp c hc).1
    have hfill : b.FilledIn im true true := by
      unfold PlaintextBallot.FilledIn
      rw [h1, hfilter]
      exact hf3.imp (fun c d h => by obtain ⟨k, a1, a2, -⟩ := VotedIn.marked h; exact ⟨k, a1, a2⟩)
    refine C87_encryptable_partial im huniq true true b hfill d ?_ (hval d hd).1 (hval d hd).2 ?_ ?_ seed hn
    · exact (onStyle_iff im _ d hd).1 (by rw [h1]; exact hon d hd)
    · intro w hw
      have e1 : d.votesAllowed = c.votesAllowed := by rw [he]
      have e2 : d.numberElected = c.numberElected := by rw [he]
      rw [e1, ht.votes] at hw
      cases hw
      omega
    · obtain ⟨im', him', -, -, -, hf'⟩ := C40_internal_manifest_partial E m hr.ok hr.nonempty hr.seats
      rw [him] at him'
      cases him'
      obtain ⟨c', hc', k1, -, -, -, -, k6, -⟩ := forall₂_mem_right hf' hd
      have ht' := (htyp c' hc').1
      have e1 : d.sequenceOrder = c'.sequenceOrder := by rw [k1]
      have e2 : d.ballotSelections = c'.ballotSelections := by rw [k1]
      refine ⟨by rw [e1]; exact ht'.order, fun sd hsd => ?_⟩
      rcases List.mem_append.1 hsd with h | h
      · rw [e2] at h
        exact ht'.orders sd h
      · obtain ⟨x, hx⟩ := List.exists_mem_of_ne_nil _ (hr.nonempty c' hc')
        have h1 := k6 sd h x hx
        have h2 := ht'.orders x hx
        omega

/-! ### A case -/

/-- Two contests, one of them a referendum, of two candidates each. -/
def toyElectionDraws : ElectionDraws where
  unit := ⟨"u", "unit", "county", none⟩
  parties := 1
  party := fun i => (if i = 0 then "p" else "q", "logo")
  contests := 1
  contest := fun i =>
    { referendum := decide (i = 0)
      n := 1
      more := 0
      candidates := fun k => ⟨if i = 0 then (if k = 0 then "a" else "b") else (if k = 0 then "c" else "d"), ⟨[]⟩, k, none⟩
      uuid := if i = 0 then "x" else "y"
      unit := 5
      name := "contest"
      title := ⟨[]⟩
      subtitle := ⟨[]⟩ }
  style := "s"
  styleImage := "image"
  date := "2026"
  scope := "scope"
  name := ⟨[]⟩
  contact := ⟨none, none, none, none⟩

theorem toyElectionDraws_distinct : toyElectionDraws.Distinct 3 3 :=
  (strat_isValid_iff 3 3 _).1 ((C41_iff_partial _).1 (by decide +kernel))

theorem toyElectionDraws_length : toyElectionDraws.SameLength 3 := by
  unfold ElectionDraws.SameLength
  decide +kernel

example : ∃ m, strategyManifest 3 3 toyElectionDraws = .ok m ∧ m.isValid = true ∧ m.parties.map Party.objectId = ["p", "q"] ∧
    m.contests.map (fun c => (c.objectId, c.numberElected, c.ballotSelections.length)) = [("x", 1, 2), ("y", 2, 2)] ∧
    m.contests.map (fun c => c.ballotSelections.map SelectionDescription.objectId) = [["c-a", "c-b"], ["c-c", "c-d"]] ∧
    m.candidates.map (fun c => (c.objectId, c.partyId)) = [("a", none), ("b", none), ("c", some "p"), ("d", some "q")] :=
  ⟨_, strategyManifest_eq (by omega) (by omega) _, by decide +kernel, by decide +kernel, by decide +kernel, by decide +kernel, by decide +kernel⟩

/-- C118 Were a uuid drawn twice, for candidates of different contests even, the manifest would be refused. -/
theorem C118_repeated : ∃ r m, strategyManifest 3 3 r = .ok m ∧ r.SameLength 3 ∧ m.isValid = false ∧
    ∃ i j, i ≠ j ∧ ((r.contest i).candidates 0).uuid = ((r.contest j).candidates 0).uuid := by
  refine ⟨{ toyElectionDraws with contest := fun i => { toyElectionDraws.contest i with candidates := (toyElectionDraws.contest 0).candidates } }, _,
    strategyManifest_eq (by omega) (by omega) _, ?_, ?_, 0, 1, by omega, rfl⟩
  · unfold ElectionDraws.SameLength
    decide +kernel
  · decide +kernel

/-- The ballots of the toy election with one vote on each contest. -/
def toyVotedDraws : VotedDraws := ⟨7, fun i => ⟨fun _ => i, 1⟩, "ballot"⟩

example (E : Env) (hE : 2 < E.P.q) : ∃ m im bs s ctx, electionsAndBallots E toyElectionDraws [toyVotedDraws, toyVotedDraws] 1 5 = .ok (m, im, bs, s, ctx) ∧
    m.isValid = true ∧ bs.map (fun b => b.objectId) = ["ballot", "ballot"] := by
  obtain ⟨m, im, bs, s, ctx, h1, h2, -, -, -, -, -, -, h3, -⟩ := C118_election (E := E) toyElectionDraws toyElectionDraws_distinct toyElectionDraws_length
    [toyVotedDraws, toyVotedDraws] 1 5 (by omega)
  exact ⟨m, im, bs, s, ctx, h1, h2, h3⟩

example : (electionsAndBallots toyEnv toyElectionDraws [toyVotedDraws] 1 5).toOption.map (fun x => (x.2.2.1, x.2.2.2.1))
    = some ([⟨"ballot", "s", [⟨"x", [⟨"c-b", 1, false, none⟩, ⟨"c-a", 0, false, none⟩]⟩, ⟨"y", [⟨"c-c", 1, false, none⟩, ⟨"c-d", 0, false, none⟩]⟩]⟩], 2) := by
  decide +kernel

end EG
