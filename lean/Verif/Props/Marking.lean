import Verif.Lemmas.Marking
import Verif.Props.CliText

/-!
# C87: ballots marked by `mark-ballots`
-/

namespace EG

variable {E : Env}

/-! ### Contests -/

/-- C87 A contest filled in at random is filled in as asked: described selections only, each at most once, and as many votes as are asked for. -/
theorem C87_contest (r : ContestDraws) (d : ContestWithPlaceholders) (allowNull allowUnder : Bool) (c : PlaintextContest)
    (h : getRandomContest r d allowNull allowUnder = .ok c) :
    d.isValid = true ∧ ∃ k, c.Marked d k ∧ VotesAsked allowNull allowUnder d.numberElected k := getRandomContest_marked h

/-- C87 and every contest filled in as asked can come out.
Partial: with no seats, and neither null votes nor full votes only (`C87_no_seats_fails`), nothing comes out. -/
theorem C87_any_contest_partial (d : ContestWithPlaceholders) (allowNull allowUnder : Bool) (hs : d.numberElected = 0 → allowNull = true ∨ allowUnder = false)
    (c : PlaintextContest) :
    (∃ r, getRandomContest r d allowNull allowUnder = .ok c) ↔
      d.isValid = true ∧ ∃ k, c.Marked d k ∧ VotesAsked allowNull allowUnder d.numberElected k :=
  ⟨fun ⟨_, h⟩ => getRandomContest_marked h, fun ⟨hv, _, hm, ha⟩ => getRandomContest_any hv hm ha hs⟩

theorem getRandomContest_returns (r : ContestDraws) {d : ContestWithPlaceholders} {an au : Bool} (hv : d.isValid = true)
    (hs : d.numberElected = 0 → an = true ∨ au = false) : ∃ c, getRandomContest r d an au = .ok c := by
  unfold getRandomContest
  rw [if_neg (by rw [hv]; decide)]
  have hc : ∃ k, cutPoint r.cut d.numberElected an au = .ok k := by
    obtain ⟨h0, -⟩ := valid_seats hv
    unfold cutPoint
    split
    · exact ⟨_, rfl⟩
    · rename_i hc
      unfold randint
      rw [if_neg]
      · exact ⟨_, rfl⟩
      · cases an <;> cases au <;> simp at hs hc ⊢ <;> omega
  obtain ⟨k, hk⟩ := hc
  simp only [hk, bind, Except.bind, pure, Except.pure]
  exact ⟨_, rfl⟩

/-- C87 fails for contests without seats, with the defaults of the factory: `random.randint(1, 0)` raises, although the blank contest is in order. -/
theorem C87_no_seats_fails (r : ContestDraws) (d : ContestWithPlaceholders) (hv : d.isValid = true) (h0 : d.numberElected = 0) :
    getRandomContest r d false true = .error .value ∧ (PlaintextContest.mk d.objectId []).Marked d 0 ∧ VotesAsked false true d.numberElected 0 := by
  refine ⟨?_, ⟨rfl, ⟨_, List.Perm.refl _⟩, rfl, by simp, by simp⟩, Or.inl h0.symm⟩
  unfold getRandomContest
  rw [if_neg (by rw [hv]; decide), h0]
  rfl

/-! ### Ballots -/

theorem getRandomContests_congr {r r' : Nat → ContestDraws} {an au : Bool} {i : Nat} {ds : List ContestWithPlaceholders} (h : ∀ k, i ≤ k → r k = r' k) :
    getRandomContests r an au i ds = getRandomContests r' an au i ds := by
  induction ds generalizing i with
  | nil => rfl
  | cons d ds ih =>
    unfold getRandomContests
    rw [h i (Nat.le_refl _), ih (fun k hk => h k (by omega))]

theorem getRandomContests_iff {an au : Bool} {i : Nat} {ds : List ContestWithPlaceholders} {cs : List PlaintextContest} :
    (∃ r, getRandomContests r an au i ds = .ok cs) ↔ List.Forall₂ (fun c d => ∃ r, getRandomContest r d an au = .ok c) cs ds := by
  induction ds generalizing i cs with
  | nil =>
    constructor
    · rintro ⟨r, h⟩
      cases h
      exact .nil
    · intro h
      cases h
      exact ⟨fun _ => ⟨fun _ => 0, 0, fun _ => false, fun _ => 0⟩, rfl⟩
  | cons d ds ih =>
    constructor
    · rintro ⟨r, h⟩
      simp only [getRandomContests, bindOk, pureOk] at h
      obtain ⟨c, h1, cs', h2, rfl⟩ := h
      exact .cons ⟨_, h1⟩ (ih.1 ⟨r, h2⟩)
    · intro h
      cases h with
      | cons h1 h2 =>
        obtain ⟨r0, h1⟩ := h1
        obtain ⟨r, h2⟩ := (ih (i := i + 1)).2 h2
        refine ⟨fun k => if k = i then r0 else r k, ?_⟩
        simp only [getRandomContests, bindOk, pureOk]
        refine ⟨_, by rw [if_pos trivial]; exact h1, _, ?_, rfl⟩
        rw [getRandomContests_congr (r' := r) (fun k hk => by rw [if_neg (by omega)])]
        exact h2

theorem getRandomContests_returns (r : Nat → ContestDraws) {an au : Bool} {i : Nat} {ds : List ContestWithPlaceholders}
    (h : ∀ d ∈ ds, d.isValid = true ∧ (d.numberElected = 0 → an = true ∨ au = false)) : ∃ cs, getRandomContests r an au i ds = .ok cs := by
  induction ds generalizing i with
  | nil => exact ⟨[], rfl⟩
  | cons d ds ih =>
    obtain ⟨h1, h2⟩ := h d List.mem_cons_self
    obtain ⟨c, hc⟩ := getRandomContest_returns (r i) h1 h2
    obtain ⟨cs, hcs⟩ := ih (i := i + 1) (fun d hd => h d (List.mem_cons_of_mem _ hd))
    refine ⟨c :: cs, ?_⟩
    simp only [getRandomContests, hc, hcs, bind, Except.bind, pure, Except.pure]

theorem getContestsFor_filter {im : InternalManifest} {sid : String} (h : sid ∈ im.ballotStyles.map BallotStyle.objectId) :
    im.getContestsFor sid = .ok (im.contests.filter (im.onStyle sid)) := by
  unfold InternalManifest.getContestsFor
  rw [getBallotStyle_eq]
  cases hf : im.ballotStyles.find? (fun s => s.objectId == sid) with
  | none =>
    obtain ⟨s, hs, rfl⟩ := List.mem_map.1 h
    have := List.find?_eq_none.1 hf s hs
    simp at this
  | some s =>
    simp only [bind, Except.bind]
    have : im.onStyle sid = fun d => match s.geopoliticalUnitIds with
        | none => false
        | some us => decide (d.electoralDistrictId ∈ us) := by
      funext d
      unfold InternalManifest.onStyle
      rw [hf]
      rfl
    rw [this]
    cases s.geopoliticalUnitIds with
    | none => simp [pure, Except.pure]
    | some us => rfl

theorem getBallotStyle_ok {im : InternalManifest} {sid : String} {s : BallotStyle} (h : im.getBallotStyle sid = .ok s) :
    s ∈ im.ballotStyles ∧ s.objectId = sid := by
  rw [getBallotStyle_eq] at h
  cases hf : im.ballotStyles.find? (fun s => s.objectId == sid) with
  | none => rw [hf] at h; cases h
  | some s' =>
    rw [hf] at h
    cases h
    exact ⟨List.mem_of_find?_eq_some hf, by simpa using List.find?_some hf⟩

theorem fakeBallot_parts {im : InternalManifest} {asked : Option String} {an au : Bool} {r : BallotDraws} {b : PlaintextBallot}
    (h : fakeBallot im asked an au r = .ok b) :
    b.objectId = r.id ∧ StyleAsked im asked b.styleId ∧
      getRandomContests r.contests an au 0 (im.contests.filter (im.onStyle b.styleId)) = .ok b.contests := by
  unfold fakeBallot at h
  cases asked with
  | some id =>
    simp only [bindOk, pureOk] at h
    obtain ⟨s, hs, ds, hds, cs, hcs, rfl⟩ := h
    obtain ⟨h1, h2⟩ := getBallotStyle_ok hs
    have hm : s.objectId ∈ im.ballotStyles.map BallotStyle.objectId := List.mem_map_of_mem h1
    rw [getContestsFor_filter hm] at hds
    cases hds
    exact ⟨rfl, ⟨fun _ h => by cases h; exact h2, hm⟩, hcs⟩
  | none =>
    cases hr : randint r.style 0 ((im.ballotStyles.length : Int) - 1) with
    | error e => simp only [hr] at h; cases h
    | ok i =>
    cases hg : im.ballotStyles[i.toNat]? with
    | none => simp only [hr, hg, bind, Except.bind] at h; cases h
    | some s =>
    have h : (im.getContestsFor s.objectId >>= fun ds => getRandomContests r.contests an au 0 ds >>= fun cs =>
        pure (⟨r.id, s.objectId, cs⟩ : PlaintextBallot)) = (.ok b : R PlaintextBallot) := by
      simp only [hr, hg, bind, Except.bind, pure, Except.pure] at h ⊢
      exact h
    simp only [bindOk, pureOk] at h
    obtain ⟨ds, hds, cs, hcs, rfl⟩ := h
    have hs : s ∈ im.ballotStyles := List.mem_of_getElem? hg
    have hm : s.objectId ∈ im.ballotStyles.map BallotStyle.objectId := List.mem_map_of_mem hs
    rw [getContestsFor_filter hm] at hds
    cases hds
    exact ⟨rfl, ⟨fun _ h => (by cases h), hm⟩, hcs⟩

/-- C87 The ballots: one for each draw, with the ids that are drawn, of the style that is asked for or of some style of the manifest, with exactly
the contests of this style, each filled in as asked. -/
theorem C87_ballots (im : InternalManifest) (draws : List BallotDraws) (asked : Option String) (allowNull allowUnder : Bool)
    (bs : List PlaintextBallot) (h : generateFakeBallots im draws asked allowNull allowUnder = .ok bs) :
    bs.map (fun b => b.objectId) = draws.map (fun r => r.id) ∧
    ∀ b ∈ bs, StyleAsked im asked b.styleId ∧ b.FilledIn im allowNull allowUnder := by
  unfold generateFakeBallots at h
  induction draws generalizing bs with
  | nil => cases h; exact ⟨rfl, by simp⟩
  | cons r draws ih =>
    simp only [List.mapM_cons, bindOk, pureOk] at h
    obtain ⟨b, hb, bs', hbs, rfl⟩ := h
    obtain ⟨h1, h2, h3⟩ := fakeBallot_parts hb
    obtain ⟨ih1, ih2⟩ := ih bs' hbs
    refine ⟨by rw [List.map_cons, List.map_cons, h1, ih1], fun b' hb' => ?_⟩
    rcases List.mem_cons.1 hb' with rfl | hb'
    · exact ⟨h2, (getRandomContests_iff.1 ⟨_, h3⟩).imp (fun c d ⟨r, hr⟩ => (getRandomContest_marked hr).2)⟩
    · exact ih2 b' hb'

theorem style_any {im : InternalManifest} {asked : Option String} {sid : String} (h : StyleAsked im asked sid) :
    ∃ n, ∀ an au id (rs : Nat → ContestDraws), fakeBallot im asked an au ⟨n, id, rs⟩
      = (getRandomContests rs an au 0 (im.contests.filter (im.onStyle sid))).map (fun cs => ⟨id, sid, cs⟩) := by
  obtain ⟨h1, h2⟩ := h
  obtain ⟨s, hs, rfl⟩ := List.mem_map.1 h2
  cases asked with
  | some id' =>
    have := h1 id' rfl
    subst this
    refine ⟨0, fun an au id rs => ?_⟩
    unfold fakeBallot
    have : ∃ s', im.getBallotStyle s.objectId = .ok s' := by
      rw [getBallotStyle_eq]
      cases hf : im.ballotStyles.find? (fun t => t.objectId == s.objectId) with
      | none =>
        have := List.find?_eq_none.1 hf s hs
        simp at this
      | some s' => exact ⟨s', rfl⟩
    obtain ⟨s', hs'⟩ := this
    obtain ⟨-, he⟩ := getBallotStyle_ok hs'
    simp only [hs', he, getContestsFor_filter h2, bind, Except.bind, pure, Except.pure]
    cases getRandomContests rs an au 0 (im.contests.filter (im.onStyle s.objectId)) <;> rfl
  | none =>
    obtain ⟨i, hi, hget⟩ := List.mem_iff_getElem.1 hs
    obtain ⟨n, hn⟩ := (randint_iff (lo := 0) (hi := (im.ballotStyles.length : Int) - 1) (k := i)).2 (by omega)
    refine ⟨n, fun an au id rs => ?_⟩
    unfold fakeBallot
    simp only [hn, bind, Except.bind, pure, Except.pure, Int.toNat_natCast, List.getElem?_eq_getElem hi, hget, getContestsFor_filter h2]
    cases getRandomContests rs an au 0 (im.contests.filter (im.onStyle s.objectId)) <;> rfl

/-- C87 and all such ballots can come out, together.
Partial: as `C87_any_contest_partial`. -/
theorem C87_any_ballots_partial (im : InternalManifest) (asked : Option String) (allowNull allowUnder : Bool)
    (hv : ∀ d ∈ im.contests, d.isValid = true ∧ (d.numberElected = 0 → allowNull = true ∨ allowUnder = false)) (bs : List PlaintextBallot)
    (h : ∀ b ∈ bs, StyleAsked im asked b.styleId ∧ b.FilledIn im allowNull allowUnder) :
    ∃ draws, generateFakeBallots im draws asked allowNull allowUnder = .ok bs := by
  induction bs with
  | nil => exact ⟨[], rfl⟩
  | cons b bs ih =>
    obtain ⟨draws, hd⟩ := ih (fun b hb => h b (List.mem_cons_of_mem _ hb))
    obtain ⟨h1, h2⟩ := h b List.mem_cons_self
    obtain ⟨n, hn⟩ := style_any h1
    have hf : List.Forall₂ (fun c d => ∃ r, getRandomContest r d allowNull allowUnder = .ok c) b.contests (im.contests.filter (im.onStyle b.styleId)) := by
      unfold PlaintextBallot.FilledIn at h2
      have hv' : ∀ d ∈ im.contests.filter (im.onStyle b.styleId), d.isValid = true ∧ (d.numberElected = 0 → allowNull = true ∨ allowUnder = false) :=
        fun d hd => hv d (List.mem_filter.1 hd).1
      clear hn h1
      generalize im.contests.filter (im.onStyle b.styleId) = ds at h2 hv'
      generalize b.contests = cs at h2 ⊢
      induction h2 with
      | nil => exact .nil
      | cons hx _ ih =>
        obtain ⟨k, hm, ha⟩ := hx
        obtain ⟨h3, h4⟩ := hv' _ List.mem_cons_self
        exact .cons (getRandomContest_any h3 hm ha h4) (ih (fun d hd => hv' d (List.mem_cons_of_mem _ hd)))
    obtain ⟨rs, hrs⟩ := (getRandomContests_iff (i := 0)).2 hf
    refine ⟨⟨n, b.objectId, rs⟩ :: draws, ?_⟩
    unfold generateFakeBallots at hd ⊢
    simp only [List.mapM_cons, hn, hrs, hd, Except.map, bind, Except.bind, pure, Except.pure]

/-- C87 When the ballots come out: for any draws, if the manifest has the style that is asked for, or some style. -/
theorem C87_returns_partial (im : InternalManifest) (draws : List BallotDraws) (asked : Option String) (allowNull allowUnder : Bool)
    (hv : ∀ d ∈ im.contests, d.isValid = true ∧ (d.numberElected = 0 → allowNull = true ∨ allowUnder = false))
    (h : ∃ sid, StyleAsked im asked sid) : ∃ bs, generateFakeBallots im draws asked allowNull allowUnder = .ok bs := by
  unfold generateFakeBallots
  suffices h' : ∀ r ∈ draws, ∃ b, fakeBallot im asked allowNull allowUnder r = .ok b by
    obtain ⟨bs, hbs, -⟩ := mapM_relates (p := fun _ _ => True) draws (fun r hr => by
      obtain ⟨b, hb⟩ := h' r hr
      exact ⟨b, hb, trivial⟩)
    exact ⟨bs, hbs⟩
  intro r _
  have hc : ∀ sid, ∃ cs, getRandomContests r.contests allowNull allowUnder 0 (im.contests.filter (im.onStyle sid)) = .ok cs :=
    fun sid => getRandomContests_returns _ (fun d hd => hv d (List.mem_filter.1 hd).1)
  unfold fakeBallot
  obtain ⟨sid, h1, h2⟩ := h
  cases asked with
  | some id =>
    have := h1 id rfl
    subst this
    obtain ⟨n, hn⟩ := style_any (asked := some sid) ⟨h1, h2⟩
    obtain ⟨cs, hcs⟩ := hc sid
    have := hn allowNull allowUnder r.id r.contests
    rw [hcs] at this
    exact ⟨_, this⟩
  | none =>
    obtain ⟨s, hs, -⟩ := List.mem_map.1 h2
    have hpos : 0 < im.ballotStyles.length := List.length_pos_of_mem hs
    have : ∃ i : Nat, randint r.style 0 ((im.ballotStyles.length : Int) - 1) = .ok (i : Int) ∧ i < im.ballotStyles.length := by
      unfold randint
      rw [if_neg (by omega)]
      have e : (im.ballotStyles.length : Int) - 1 - 0 + 1 = (im.ballotStyles.length : Int) := by omega
      rw [e, ← Int.natCast_emod, zero_add]
      exact ⟨_, rfl, Nat.mod_lt _ hpos⟩
    obtain ⟨i, hi, hlt⟩ := this
    have hm : im.ballotStyles[i].objectId ∈ im.ballotStyles.map BallotStyle.objectId := List.mem_map_of_mem (List.getElem_mem hlt)
    obtain ⟨cs, hcs⟩ := hc im.ballotStyles[i].objectId
    simp only [hi, bind, Except.bind, pure, Except.pure, Int.toNat_natCast, List.getElem?_eq_getElem hlt, getContestsFor_filter hm, hcs]
    exact ⟨_, rfl⟩

/-- C87 Otherwise the first ballot raises: `IndexError` for a style that the manifest does not have, `ValueError` if it has none. -/
theorem C87_no_style (im : InternalManifest) (r : BallotDraws) (draws : List BallotDraws) (allowNull allowUnder : Bool) :
    (∀ id, id ∉ im.ballotStyles.map BallotStyle.objectId → generateFakeBallots im (r :: draws) (some id) allowNull allowUnder = .error .index) ∧
    (im.ballotStyles = [] → generateFakeBallots im (r :: draws) none allowNull allowUnder = .error .value) := by
  refine ⟨fun id h => ?_, fun h => ?_⟩
  · have : im.getBallotStyle id = .error .index := by
      rw [getBallotStyle_eq]
      cases hf : im.ballotStyles.find? (fun t => t.objectId == id) with
      | none => rfl
      | some s =>
        refine absurd (List.mem_map.2 ⟨s, List.mem_of_find?_eq_some hf, ?_⟩) h
        simpa using List.find?_some hf
    simp only [generateFakeBallots, List.mapM_cons, fakeBallot, this, bind, Except.bind]
  · simp only [generateFakeBallots, List.mapM_cons, fakeBallot, h, List.length_nil, bind, Except.bind]
    rfl

/-- C87 The single ballot of `get_fake_ballot`: of the first style of the manifest, with exactly its contests, undervotes allowed; without any style it
raises. -/
theorem C87_fake_ballot (im : InternalManifest) (id : Option String) (allowNull : Bool) (r : Nat → ContestDraws) :
    (im.ballotStyles = [] → getFakeBallot im id allowNull r = .error .index) ∧
    ∀ b, getFakeBallot im id allowNull r = .ok b →
      b.objectId = id.getD "some-unique-ballot-id-123" ∧ some b.styleId = im.ballotStyles.head?.map BallotStyle.objectId ∧ b.FilledIn im allowNull true := by
  unfold getFakeBallot
  refine ⟨fun h => by rw [h], fun b h => ?_⟩
  cases hs : im.ballotStyles with
  | nil => rw [hs] at h; cases h
  | cons s ss =>
    rw [hs] at h
    simp only [bindOk, pureOk] at h
    obtain ⟨ds, hds, cs, hcs, rfl⟩ := h
    rw [getContestsFor_filter (by rw [hs]; simp)] at hds
    cases hds
    exact ⟨rfl, rfl, (getRandomContests_iff.1 ⟨_, hcs⟩).imp (fun c d ⟨r, hr⟩ => (getRandomContest_marked hr).2)⟩

/-! ### Encryption -/

theorem Marked.count {c : PlaintextContest} {d : ContestWithPlaceholders} {k : Int} (h : c.Marked d k) :
    c.ballotSelections.length ≤ d.ballotSelections.length := by
  obtain ⟨rest, hr⟩ := h.once
  have := hr.length_eq
  simp only [List.length_append, List.length_map] at this
  omega

theorem Marked.belongs {c : PlaintextContest} {d : ContestWithPlaceholders} {k : Int} (h : c.Marked d k) (hv : d.isValid = true) : c.Belongs d := by
  refine ⟨h.id, Marked.count h, hv, fun s hs => ?_⟩
  obtain ⟨rest, hr⟩ := h.once
  have : s.objectId ∈ d.ballotSelections.map SelectionDescription.objectId :=
    hr.subset (List.mem_append_left _ (List.mem_map_of_mem hs))
  obtain ⟨sd, hsd, he⟩ := List.mem_map.1 this
  exact ⟨sd, hsd, he⟩

theorem sum_binary {l : List PlaintextSelection} (h : ∀ s ∈ l, s.vote = 0 ∨ s.vote = 1) :
    (l.map PlaintextSelection.vote).sum = ((l.filter (fun s => decide (0 < s.vote))).length : Int) := by
  induction l with
  | nil => rfl
  | cons s l ih =>
    have ih := ih (fun s hs => h s (List.mem_cons_of_mem _ hs))
    rw [List.map_cons, List.sum_cons, ih, List.filter_cons]
    rcases h s List.mem_cons_self with h | h
    · rw [h]; simp
    · rw [h]; simp; omega

theorem Marked.voteSum {c : PlaintextContest} {d : ContestWithPlaceholders} {k : Int} (h : c.Marked d k) : c.voteSum = k := by
  rw [← h.votes]
  exact sum_binary h.binary

theorem Marked.not_over {c : PlaintextContest} {d : ContestWithPlaceholders} {k : Int} (h : c.Marked d k) (hk : k ≤ d.numberElected) 
    (hv : ∀ v, d.votesAllowed = some v → d.numberElected ≤ v) : c.over d = false := by
  unfold PlaintextContest.over
  have e1 := h.votes
  have e2 := Marked.voteSum h
  rw [e1, e2]
  cases hva : d.votesAllowed with
  | none => simp; omega
  | some v =>
    have := hv v hva
    simp
    omega

theorem foldl_same {α β : Type} {f : β → α → β} {l : List α} (h : ∀ acc, ∀ x ∈ l, f acc x = acc) (acc : β) : l.foldl f acc = acc := by
  induction l with
  | nil => rfl
  | cons x l ih => rw [List.foldl_cons, h acc x List.mem_cons_self, ih (fun acc x hx => h acc x (List.mem_cons_of_mem _ hx))]

theorem Marked.writeIns {c : PlaintextContest} {d : ContestWithPlaceholders} {k : Int} (h : c.Marked d k) : c.writeIns = none := by
  unfold PlaintextContest.writeIns
  rw [foldl_same (fun acc s hs => by rw [(h.plain s hs).2])]
  rfl

theorem valid_allowed {d : ContestWithPlaceholders} (h : d.isValid = true) {v : Int} (hv : d.votesAllowed = some v) : d.numberElected ≤ v := by
  unfold ContestWithPlaceholders.isValid ContestDescription.isValid at h
  simp only [Bool.and_eq_true, decide_eq_true_eq, hv] at h
  omega

theorem find_contest {R : PlaintextContest → ContestWithPlaceholders → Prop} {cs : List PlaintextContest} {ds : List ContestWithPlaceholders}
    (h : List.Forall₂ R cs ds) (hid : ∀ c d, R c d → c.objectId = d.objectId) (hn : (ds.map (fun d => d.objectId)).Nodup)
    {d : ContestWithPlaceholders} (hd : d ∈ ds) : ∃ c, cs.find? (fun c => c.objectId == d.objectId) = some c ∧ R c d := by
  induction h with
  | nil => cases hd
  | cons hx hxs ih =>
    rename_i c d' cs ds
    rw [List.map_cons, List.nodup_cons] at hn
    rcases List.mem_cons.1 hd with rfl | hd
    · exact ⟨c, by rw [List.find?_cons_of_pos (by simp [hid _ _ hx])], hx⟩
    · obtain ⟨c', h1, h2⟩ := ih hn.2 hd
      refine ⟨c', ?_, h2⟩
      rw [List.find?_cons_of_neg, h1]
      intro he
      rw [beq_iff_eq, hid _ _ hx] at he
      exact hn.1 (he ▸ List.mem_map_of_mem hd)

theorem FilledIn.voted {b : PlaintextBallot} {im : InternalManifest} {an au : Bool} (h : b.FilledIn im an au) (hid : im.UniqueIds)
    {d : ContestWithPlaceholders} (hd : d ∈ im.contests) (hs : im.onStyle b.styleId d = true) :
    ∃ k, (b.voted d.toContestDescription).Marked d k ∧ VotesAsked an au d.numberElected k := by
  obtain ⟨c, h1, k, h2, h3⟩ := find_contest h (fun c d ⟨k, hk, _⟩ => hk.id)
    ((hid.1).sublist (List.filter_sublist.map _)) (List.mem_filter.2 ⟨hd, hs⟩)
  refine ⟨k, ?_, h3⟩
  unfold PlaintextBallot.voted
  rw [h1]
  exact h2

/-- C87 The ballots can be encrypted, if the contests allow no more votes than there are seats.
Partial: with more votes allowed, fully voted ones cannot (`C87_votes_allowed_fails`); the orders in the manifest must not be negative, and no nonce
may be 0. -/
theorem C87_encryptable_partial (im : InternalManifest) (hid : im.UniqueIds) (an au : Bool) (b : PlaintextBallot) (h : b.FilledIn im an au)
    (d : ContestWithPlaceholders) (hs : im.StyleHas b.styleId d) (hv : d.isValid = true) (hne : d.ballotSelections ≠ [])
    (hall : ∀ v, d.votesAllowed = some v → v ≤ d.numberElected) (ho : OrdersUsable d) (seed : Nat) (hn : NoncesUsable E d seed) :
    Encryptable E contestDataJson (b.voted d.toContestDescription) d seed := by
  have hd : d ∈ im.contests := by obtain ⟨_, _, _, _, hd, _⟩ := hs; exact hd
  obtain ⟨k, hm, ha⟩ := FilledIn.voted h hid hd ((onStyle_iff im _ d hd).2 hs)
  have hk : k ≤ d.numberElected := by
    have := valid_seats hv
    unfold VotesAsked at ha
    omega
  have hov := Marked.not_over hm hk (fun v hva => valid_allowed hv hva)
  refine ⟨Marked.belongs hm hv, fun he _ v hva => Or.inl (by rw [he]; exact hall v hva), fun _ => hm.binary, ?_, ho.1, ho.2, hn, ?_, ?_⟩
  · simp [hne]
  · intro _ err
    rw [Marked.writeIns hm]
    rcases err with _ | _ | _ | _ <;> decide +kernel
  · intro h
    rw [hov] at h
    cases h

theorem encryptContests_refused {json : ContestData → Bytes} {b : PlaintextBallot} {key base seed : Nat} {verify : Bool}
    {ds : List ContestWithPlaceholders} {d : ContestWithPlaceholders} (hd : d ∈ ds)
    (h : (b.voted d.toContestDescription).valid d = some .default) : ∀ cs, encryptContests E json b key base seed verify ds ≠ .ok (some cs) := by
  induction ds with
  | nil => cases hd
  | cons d' ds ih =>
    intro cs hc
    unfold encryptContests at hc
    simp only [bindOk] at hc
    obtain ⟨enc, h1, h2⟩ := hc
    rcases List.mem_cons.1 hd with rfl | hd
    · have : encryptContest E json (b.voted d.toContestDescription) d key base seed verify = .ok none := by
        unfold encryptContest
        rw [h]
        rfl
      have h1' : encryptContest E json (b.voted d.toContestDescription) d key base seed verify = .ok enc := h1
      rw [this] at h1'
      cases h1'
      cases h2
    · cases enc with
      | none => cases h2
      | some c =>
        simp only [bindOk] at h2
        obtain ⟨rest, h3, h4⟩ := h2
        cases rest with
        | none => cases h4
        | some cs' => exact ih hd cs' h3

/-- C87 fails for contests that allow more votes than there are seats: `mark-ballots` marks such a contest with a vote for each seat, and no ballot
with such a contest can be encrypted, whatever the numbers drawn. -/
theorem C87_votes_allowed_fails (json : ContestData → Bytes) (im : InternalManifest) (hid : im.UniqueIds) (draws : List BallotDraws)
    (asked : Option String) (bs : List PlaintextBallot) (hg : generateFakeBallots im draws asked false false = .ok bs) (b : PlaintextBallot) (hb : b ∈ bs)
    (d : ContestWithPlaceholders) (hs : im.StyleHas b.styleId d) (hv : d.isValid = true) (h1 : 1 ≤ d.numberElected) (v : Int)
    (hva : d.votesAllowed = some v) (hmore : d.numberElected < v) (ctx : Context) (seed nonce : Nat) (now : Int) (verify : Bool) (enc : CBallot) :
    encryptBallot E json b im ctx seed nonce now verify ≠ .ok (some enc) := by
  obtain ⟨-, hf⟩ := C87_ballots im draws asked false false bs hg
  have hd : d ∈ im.contests := by obtain ⟨_, _, _, _, hd, _⟩ := hs; exact hd
  obtain ⟨k, hm, ha⟩ := FilledIn.voted (hf b hb).2 hid hd ((onStyle_iff im _ d hd).2 hs)
  have hk : k = d.numberElected := by
    unfold VotesAsked at ha
    simpa using ha
  subst hk
  obtain ⟨-, -, -, -, hdef⟩ := C55_classification_partial _ d (Marked.belongs hm hv)
  have hdef := hdef.2 ⟨by rw [hm.votes]; omega, hm.votes, v, hva, by rw [Marked.voteSum hm]; omega, by rw [hm.votes]; exact hmore⟩
  intro h
  unfold encryptBallot at h
  simp only [bindOk] at h
  obtain ⟨style, -, h⟩ := h
  split at h
  · cases h
  · simp only [bindOk] at h
    obtain ⟨ds, hds, cs, hcs, h⟩ := h
    have hmem : d ∈ ds := by
      rcases getContestsFor_eq im b.styleId with ⟨-, he⟩ | ⟨ds', he, hiff, -⟩
      · rw [he] at hds; cases hds
      · rw [he] at hds
        cases hds
        exact (hiff d).2 hs
    cases cs with
    | none => cases h
    | some cs => exact encryptContests_refused hmem hdef cs hcs

/-! ### Votes -/

theorem marked_sum {c : PlaintextContest} {d : ContestWithPlaceholders} {k : Int} (h : c.Marked d k)
    (hn : (d.ballotSelections.map SelectionDescription.objectId).Nodup) :
    ((d.ballotSelections.map (fun sd => c.marked sd.objectId)).sum : Int) = k := by
  obtain ⟨rest, hr⟩ := h.once
  have e : (d.ballotSelections.map (fun sd => c.marked sd.objectId)).sum
      = ((c.ballotSelections.map PlaintextSelection.objectId ++ rest).map c.marked).sum := by
    rw [(hr.map c.marked).sum_eq, List.map_map]
    rfl
  rw [e, List.map_append, List.sum_append]
  have hnd := hr.nodup_iff.2 hn
  rw [List.nodup_append] at hnd
  obtain ⟨hn1, -, hdis⟩ := hnd
  have h0 : (rest.map c.marked).sum = 0 := by
    rw [List.sum_eq_zero]
    intro x hx
    obtain ⟨i, hi, rfl⟩ := List.mem_map.1 hx
    unfold PlaintextContest.marked
    have : c.ballotSelections.find? (fun s => s.objectId == i) = none := by
      rw [List.find?_eq_none]
      intro s hs he
      exact hdis _ (List.mem_map_of_mem hs) _ hi (by simpa using he)
    rw [this]
  rw [h0, List.map_map]
  have h1 : ∀ s ∈ c.ballotSelections, (c.marked ∘ PlaintextSelection.objectId) s = s.vote.toNat := by
    intro s hs
    show c.marked s.objectId = _
    unfold PlaintextContest.marked
    rw [find?_of_nodup _ hn1 hs]
  rw [List.map_congr_left h1, ← Marked.voteSum h]
  have : ∀ l : List PlaintextSelection, (∀ s ∈ l, s.vote = 0 ∨ s.vote = 1) →
      (((l.map (fun s => s.vote.toNat)).sum : Nat) : Int) = (l.map PlaintextSelection.vote).sum := by
    intro l hl
    induction l with
    | nil => rfl
    | cons s l ih =>
      have := ih (fun s hs => hl s (List.mem_cons_of_mem _ hs))
      rw [List.map_cons, List.map_cons, List.sum_cons, List.sum_cons]
      rw [Nat.cast_add, this, Int.toNat_of_nonneg]
      rcases hl s List.mem_cons_self with h | h <;> omega
  rw [add_zero]
  exact this _ h.binary

theorem filled_votes {b : PlaintextBallot} {im : InternalManifest} (h : b.FilledIn im false false) (hid : im.UniqueIds) {d : ContestWithPlaceholders}
    (hd : d ∈ im.contests) (hv : d.isValid = true) :
    ((d.ballotSelections.map (fun sd => b.votesFor im d sd.objectId)).sum : Int) = if im.onStyle b.styleId d then d.numberElected else 0 := by
  unfold PlaintextBallot.votesFor
  by_cases hs : im.onStyle b.styleId d = true
  · simp only [if_pos hs]
    obtain ⟨k, hm, ha⟩ := FilledIn.voted h hid hd hs
    have hk : k = d.numberElected := by
      unfold VotesAsked at ha
      simpa using ha
    subst hk
    have hov := Marked.not_over hm (le_refl _) (fun v hva => valid_allowed hv hva)
    unfold PlaintextContest.effective
    rw [hov]
    refine marked_sum hm ?_
    have := hid.2 d hd
    rw [List.map_append] at this
    exact (List.nodup_append.1 this).1
  · simp only [if_neg hs]
    simp

/-- C87 In an election with such ballots the votes of a contest add up to the number of seats for each ballot that has the contest: there are no
undervotes. -/
theorem C87_sum (im : InternalManifest) (hid : im.UniqueIds) (cast : List PlaintextBallot) (hf : ∀ b ∈ cast, b.FilledIn im false false)
    (pt : PlaintextTally) (hp : pt.Counts im cast) (d : ContestWithPlaceholders) (hd : d ∈ im.contests) (hv : d.isValid = true) :
    ∃ counts : List Nat, List.Forall₂ (fun sd n => pt.Reports d.objectId sd.objectId n) d.ballotSelections counts ∧
      (counts.sum : Int) = d.numberElected * (cast.filter (fun b => im.onStyle b.styleId d)).length := by
  refine ⟨d.ballotSelections.map (fun sd => (cast.map (fun b => b.votesFor im d sd.objectId)).sum), ?_, ?_⟩
  · rw [List.forall₂_map_right_iff, List.forall₂_same]
    exact fun sd hsd => (hp _ _ _).2 ⟨d, hd, rfl, List.mem_map_of_mem hsd, rfl⟩
  · clear hp
    induction cast with
    | nil => simp
    | cons b cast ih =>
      have ih := ih (fun b hb => hf b (List.mem_cons_of_mem _ hb))
      have h1 := filled_votes (hf b List.mem_cons_self) hid hd hv
      have e : (d.ballotSelections.map (fun sd => ((b :: cast).map (fun b => b.votesFor im d sd.objectId)).sum)).sum
          = (d.ballotSelections.map (fun sd => b.votesFor im d sd.objectId)).sum
            + (d.ballotSelections.map (fun sd => (cast.map (fun b => b.votesFor im d sd.objectId)).sum)).sum := by
        generalize d.ballotSelections = l
        induction l with
        | nil => rfl
        | cons x l ih =>
          simp only [List.map_cons, List.sum_cons] at ih ⊢
          omega
      rw [e, Nat.cast_add, ih, h1, List.filter_cons]
      by_cases hs : im.onStyle b.styleId d = true
      · simp only [if_pos hs, List.length_cons]
        push_cast
        ring
      · simp only [if_neg hs]
        omega

/-! ### The command -/

/-- C87 `mark-ballots` over texts: the ballots that the factory makes from the manifest, with neither null votes nor undervotes. -/
theorem C87_command (raw context : List Char) (m : Manifest) (hm : fromRaw Manifest.ofJson raw = .ok m) (hv : m.isValid = true) (hnamed : m.Named)
    (im : InternalManifest) (him : mkInternalManifest E m = .ok im) (c : ContextFile) (hc : fromRaw (ContextFile.ofJson E.P) context = .ok c)
    (draws : List BallotDraws) (asked : Option String) :
    (markCommandText E raw context draws asked none = (generateFakeBallots im draws asked false false).map (fun bs => (bs, none))) ∧
    ∀ dir, markCommandText E raw context draws asked (some dir)
      = (generateFakeBallots im draws asked false false).map (fun bs => (bs, some (bs.foldl
          (fun dir b => dset dir (b.objectId ++ ".json") (toRaw PlaintextBallot.toJson b)) dir))) := by
  have hb : buildWithContext E m c.context c.extendedData = .ok (im, makeContext E c.context.numberOfGuardians c.context.quorum
      c.context.elgamalPublicKey c.context.commitmentHash (m.cryptoHash E),
      (dget (c.extendedData.getD []) "verification_url").map (fun u => [("verification_url", u)])) := by
    unfold buildWithContext
    rw [buildElection_eq hv, him]
    rfl
  have hget : cliGetManifest m = .ok m := (cliGetManifest_iff m m).2 ⟨rfl, hv, hnamed⟩
  unfold markCommandText cliReadManifest
  simp only [hm, hget, hc, hb, bind, Except.bind, pure, Except.pure]
  cases generateFakeBallots im draws asked false false with
  | error e => exact ⟨rfl, fun _ => rfl⟩
  | ok bs => exact ⟨rfl, fun _ => rfl⟩

theorem marked_files (bs : List PlaintextBallot) (hn : (bs.map (fun b => b.objectId)).Nodup) :
    bs.foldl (fun dir b => dset dir (b.objectId ++ ".json") (toRaw PlaintextBallot.toJson b)) []
      = bs.map (fun b => (b.objectId ++ ".json", toRaw PlaintextBallot.toJson b)) := by
  have hn' : (bs.map (fun b => b.objectId ++ ".json")).Nodup := by
    have : bs.map (fun b => b.objectId ++ ".json") = (bs.map (fun b => b.objectId)).map (fun i => i ++ ".json") := by rw [List.map_map]; rfl
    rw [this]
    exact hn.map (fun a b h => name_inj' (suf := ".json") h)
  rw [foldl_dset_map (fun b : PlaintextBallot => b.objectId ++ ".json") (toRaw PlaintextBallot.toJson) bs [] hn' (by simp [dkeys]), List.nil_append]

/-- C87 The files of an empty directory, for ballots with distinct ids: one for each ballot, and reading them in any order gives the ballots. -/
theorem C87_files (bs : List PlaintextBallot) (hn : (bs.map (fun b => b.objectId)).Nodup) (files : List (List Char))
    (h : files.Perm ((bs.foldl (fun dir b => dset dir (b.objectId ++ ".json") (toRaw PlaintextBallot.toJson b)) []).map (fun e => e.2))) :
    ∃ bs', (CliPath.dir files).read PlaintextBallot.ofJson = .ok bs' ∧ bs'.Perm bs := by
  rw [marked_files bs hn, List.map_map] at h
  obtain ⟨bs', h1, rfl⟩ := perm_map_any (toRaw PlaintextBallot.toJson) h.symm bs rfl
  refine ⟨bs', ?_, h1.symm⟩
  show (bs'.map (toRaw PlaintextBallot.toJson)).mapM (fromRaw PlaintextBallot.ofJson) = .ok bs'
  have := mapM_map_ok (fromRaw PlaintextBallot.ofJson) (toRaw PlaintextBallot.toJson) id bs' (fun b _ => raw_trip (PlaintextBallot.trip b))
  rwa [List.map_id] at this

/-- C87 From the manifest to the results, without a ballot of anybody's: `setup`, then `mark-ballots` with any draws, then the files of the marked
ballots in any order to `encrypt-ballots`, then the files of the encrypted ballots, parted in any way, to `submit-ballots`, then
`import-ballots`.  Every command succeeds; the tally has the votes of the marked ballots that are cast, each spoiled ballot is published with
its votes, and the votes of every contest add up to the number of seats for each cast ballot that has the contest.
Partial: as `C75_pipeline_partial` and `C87_encryptable_partial`. -/
theorem C87_pipeline_partial (hv : E.P.Valid) (hpq : (E.P.q - 1) * (E.P.q - 1) < E.P.p) (hlen : HmacLen E) (hq : E.P.q ≤ 256 ^ 246)
    (maxE : Nat) (hmaxE : 1 ≤ maxE) (n quorum : Nat) (hquorum : 0 < quorum) (hmany : quorum ≤ n) (hn : n < E.P.q)
    (hpow : ∀ i < quorum, n ^ i < E.P.p) (rands : Nat → List (Nat × Nat)) (hr : ∀ i < n, (rands i).length = quorum)
    (hrange : PolynomialsInRange E.P rands) (nonces : String → Nat → Nat) (raw : List Char) (m : Manifest)
    (hm : fromRaw Manifest.ofJson raw = .ok m) (im : InternalManifest) (he : ElectionReady E m im) (hnamed : m.Named)
    (hall : ∀ d ∈ im.contests, ∀ v, d.votesAllowed = some v → v ≤ d.numberElected) (ho : ∀ d ∈ im.contests, OrdersUsable d)
    (hstyles : ∀ s ∈ im.ballotStyles, ∃ d, im.StyleHas s.objectId d)
    (url : Option String) (constants : Constants) (hk : constants.params = E.P) :
    ∃ pkg keys, setupCommandText E constants rands nonces n quorum raw url [] = .ok (pkg, keys) ∧
      ∀ (draws : List BallotDraws) (asked : Option String), (∃ sid, StyleAsked im asked sid) →
        (draws.map (fun r => r.id)).Nodup → "device" ∉ draws.map (fun r => r.id) →
        ∃ bs mdir, markCommandText E pkg.manifest pkg.context draws asked (some []) = .ok (bs, some mdir) ∧
          generateFakeBallots im draws asked false false = .ok bs ∧
          mdir = bs.map (fun b => (b.objectId ++ ".json", toRaw PlaintextBallot.toJson b)) ∧
          bs.map (fun b => b.objectId) = draws.map (fun r => r.id) ∧
          (∀ b ∈ bs, StyleAsked im asked b.styleId ∧ b.FilledIn im false false) ∧
          ∀ files : List (List Char), files.Perm (mdir.map (fun e => e.2)) → ∀ (d : Device) (rnd : List (Nat × Int)),
            rnd.length = files.length → (∀ r ∈ rnd, r.1 < E.P.q) →
            (∀ b ∈ bs, ∀ r ∈ rnd, ∀ d ∈ im.contests, NoncesUsable E d (nonceSeed E im.manifestHash b.objectId r.1)) →
            ∃ dir, encryptCommandText E d pkg.manifest pkg.context (.dir files) rnd [] = .ok dir ∧
              (dir.map (fun e => e.1)).Perm ("device.json" :: bs.map (fun b => b.objectId ++ ".json")) ∧
              dir.head? = some ("device.json", toRaw Device.toJson d) ∧
              ∀ castDir spoilDir : TextDir, (("device.json", toRaw Device.toJson d) :: castDir ++ spoilDir).Perm dir →
                castDir.length < E.P.q → castDir.length ≤ maxE →
                ∃ sdir, submitCommandText E pkg.manifest pkg.context (.dir (castDir.map (fun e => e.2)))
                    (some (.dir (spoilDir.map (fun e => e.2)))) [] = .ok sdir ∧
                  ∀ ballotFiles keyFiles : List (List Char), ballotFiles.Perm (sdir.map (fun e => e.2)) →
                    keyFiles.Perm (keys.map (fun e => e.2)) → ∀ sd : TallySeeds,
                    ∃ r cast spoiled, importCommandText E constants maxE sd pkg.manifest pkg.context (.dir ballotFiles) keyFiles
                        (some (toRaw Device.toJson d)) true = .ok r ∧
                      cast.Perm (ballotsNamed castDir bs) ∧ spoiled.Perm (ballotsNamed spoilDir bs) ∧
                      r.results.Right im cast spoiled ∧
                      ∀ d ∈ im.contests, ∃ counts : List Nat,
                        List.Forall₂ (fun sd n => r.results.tally.Reports d.objectId sd.objectId n) d.ballotSelections counts ∧
                        (counts.sum : Int) = d.numberElected * ((ballotsNamed castDir bs).filter (fun b => im.onStyle b.styleId d)).length := by
  have hmv : m.isValid = true := (C41_iff_partial m).2 he.manifest.ok
  obtain ⟨im', him', huniq, -, -, -, -, hvalid⟩ := C40_unique_ids_partial E m he.manifest
  rw [he.internal] at him'
  cases him'
  obtain ⟨pkg, keys, h1, h2⟩ := C86_pipeline_partial hv hpq hlen hq maxE hmaxE n quorum hquorum hmany hn hpow rands hr hrange nonces raw m hm im he hnamed
    url constants hk
  refine ⟨pkg, keys, h1, ?_⟩
  obtain ⟨hpm, c, hpc⟩ : fromRaw Manifest.ofJson pkg.manifest = .ok m ∧ ∃ c, fromRaw (ContextFile.ofJson E.P) pkg.context = .ok c := by
    rw [show ([] : TextDir) = Dir.toText [] from rfl, C86_setup constants rands nonces n quorum raw m hm url []] at h1
    cases hs : setupCommand E loadsCoordinate rands nonces n quorum m url [] with
    | error e => rw [hs] at h1; cases h1
    | ok x =>
      rw [hs] at h1
      cases h1
      obtain ⟨hpkg, -⟩ := setup_typed hv hrange hm (by simp) hs constants
      refine ⟨?_, _, hpkg.context⟩
      have : x.1.manifest = m := by
        simp only [setupCommand, bindOk, pureOk] at hs
        obtain ⟨gs0, -, m', hm', gj, -, bc, -, rfl⟩ := hs
        obtain ⟨rfl, -⟩ := (cliGetManifest_iff _ _).1 hm'
        rfl
      rw [← this]
      exact hpkg.manifest
  intro draws asked hasked hnd hdev
  obtain ⟨bs, hbs⟩ := C87_returns_partial im draws asked false false (fun d hd => ⟨(hvalid d hd).1, fun _ => Or.inr rfl⟩) hasked
  obtain ⟨hids, hfill⟩ := C87_ballots im draws asked false false bs hbs
  have hcmd := (C87_command (E := E) _ _ m hpm hmv hnamed im he.internal c hpc draws asked).2 []
  rw [hbs] at hcmd
  refine ⟨bs, _, hcmd, hbs, marked_files bs (hids ▸ hnd), hids, hfill, ?_⟩
  intro files hfiles d rnd hlen' hrnd hnonces
  obtain ⟨bs', hread, hperm⟩ := C87_files bs (hids ▸ hnd) files hfiles
  have hl : files.length = bs'.length := (mapM_forall₂ hread).length_eq
  have hids' : (bs'.map (fun b => b.objectId)).Perm (draws.map (fun r => r.id)) := hids ▸ hperm.map _
  have hst : ∀ b ∈ bs', ∃ d, im.StyleHas b.styleId d := by
    intro b hb
    obtain ⟨-, hmem⟩ := (hfill b (hperm.subset hb)).1
    obtain ⟨s, hs, hse⟩ := List.mem_map.1 hmem
    rw [← hse]
    exact hstyles s hs
  obtain ⟨dir, h3, h4, h5, h6⟩ := h2 d (.dir files) bs' rnd hread (by omega) hrnd (hids'.nodup_iff.2 hnd) (fun h => hdev (hids'.subset h)) hst
    (fun c hc d' hd' => by
      have hb := hperm.subset (List.of_mem_zip hc).1
      have hd'' : d' ∈ im.contests := by obtain ⟨_, _, _, _, hd, _⟩ := hd'; exact hd
      exact C87_encryptable_partial im huniq false false c.1 (hfill c.1 hb).2 d' hd' (hvalid d' hd'').1 (hvalid d' hd'').2 (hall d' hd'') (ho d' hd'') _
        (hnonces c.1 hb c.2 (List.of_mem_zip hc).2 d' hd''))
  refine ⟨dir, h3, ?_, h5, ?_⟩
  · rw [h4]
    exact (hperm.map _).cons _
  · intro castDir spoilDir hp hc1 hc2
    obtain ⟨sdir, h7, h8⟩ := h6 castDir spoilDir hp hc1 hc2
    refine ⟨sdir, h7, fun ballotFiles keyFiles hb hk sd => ?_⟩
    obtain ⟨r, cast, spoiled, texts, rec, h9, h10, h11, h12, -⟩ := h8 ballotFiles keyFiles hb hk sd
    have hcast : cast.Perm (ballotsNamed castDir bs) := h10.trans (hperm.filter _)
    refine ⟨r, cast, spoiled, h9, hcast, h11.trans (hperm.filter _), h12, fun d hd => ?_⟩
    obtain ⟨counts, h13, h14⟩ := C87_sum im huniq cast (fun b hb => (hfill b (List.mem_filter.1 (hcast.subset hb)).1).2) r.results.tally h12.tally d hd
      (hvalid d hd).1
    exact ⟨counts, h13, by rw [h14, (hcast.filter _).length_eq]⟩

end EG
