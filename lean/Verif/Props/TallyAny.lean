import Verif.Props.Tally

/-!
# C35, C38 and C39 for ballots of any shape

What a tally holds after any history of appends, of regular ballots or not: which contests of which ballots are in it.
-/

namespace EG

/-- The contest can be added to a tally for the manifest: it is one of the contests of the manifest, and it has a
selection that is not a placeholder for each selection of that contest. -/
def CContest.complete (m : InternalManifest) (c : CContest) : Bool :=
  match m.contests.find? (fun d => d.objectId == c.objectId) with
  | none => false
  | some d => !c.ballotSelections.isEmpty && d.ballotSelections.all (fun sd =>
      c.ballotSelections.any (fun s => s.objectId == sd.objectId && !s.isPlaceholder))

/-- The contests of a ballot before the first that cannot be added. -/
def CBallot.leading (m : InternalManifest) (b : CBallot) : List CContest := b.contests.takeWhile (CContest.complete m)

/-- The dicts of the tally are exactly those of the manifest. -/
structure KeyShape (m : InternalManifest) (tcs : List (String × TallyContest)) : Prop where
  wf : WFContests tcs
  none : ∀ cid, m.contests.find? (fun d => d.objectId == cid) = none → dget tcs cid = none
  some : ∀ cid d, m.contests.find? (fun d => d.objectId == cid) = some d → ∃ tc, dget tcs cid = some tc ∧
    ∀ k, k ∈ dkeys tc.selections ↔ k ∈ d.ballotSelections.map SelectionDescription.objectId

/-- No selection of the manifest has the empty text as its id. -/
def InternalManifest.NamedSelections (m : InternalManifest) : Prop :=
  ∀ d ∈ m.contests, ∀ sd ∈ d.ballotSelections, sd.objectId ≠ ""

theorem KeyShape.bump {m : InternalManifest} {tcs : List (String × TallyContest)} (h : KeyShape m tcs) (P : Params)
    (f : String → String → List Ciphertext) : KeyShape m (bump P f tcs) where
  wf := bump_wf f h.wf
  none := fun cid hc => by rw [dget_bump, h.none cid hc]; rfl
  some := fun cid d hd => by
    obtain ⟨tc, h1, h2⟩ := h.some cid d hd
    refine ⟨_, by rw [dget_bump, h1]; rfl, fun k => ?_⟩
    rw [← h2]
    simp [dkeys, List.map_map, Function.comp_def]

theorem newTally_keyShape (E : Env) (m : InternalManifest) (hm : TallyManifest m) :
    KeyShape m (buildTallyCollection E m) where
  wf := newTally_wf E m
  none := by
    intro cid h
    cases hg : dget (buildTallyCollection E m) cid with
    | none => rfl
    | some tc =>
      obtain ⟨d, hd, h1, -⟩ := (newTally_shape E m).sels cid tc hg
      exact absurd h1 (by simpa using List.find?_eq_none.mp h d hd)
  some := by
    intro cid d h
    have hd := List.mem_of_find?_eq_some h
    have hid : d.objectId = cid := by simpa using List.find?_some h
    obtain ⟨tc, htc⟩ := (newTally_shape E m).contests d hd
    rw [hid] at htc
    refine ⟨tc, htc, fun k => ⟨fun hk => ?_, fun hk => ?_⟩⟩
    · obtain ⟨d', hd', h1, h2⟩ := (newTally_shape E m).sels cid tc htc
      have : d' = d := eq_of_id hm.ids hd' hd (by rw [h1, hid])
      subst this
      obtain ⟨sd, hsd, rfl⟩ := h2 k hk
      exact List.mem_map_of_mem hsd
    · obtain ⟨sd, hsd, rfl⟩ := List.mem_map.mp hk
      have ht := newTally_total E "" m hm cid sd.objectId
      rw [if_pos ⟨d, hd, hid, sd, hsd, rfl⟩] at ht
      unfold newTally Tally.total at ht
      simp only [htc, Option.bind_some] at ht
      rw [mem_dkeys_iff]
      cases hx : dget tc.selections sd.objectId with
      | none => rw [hx] at ht; cases ht
      | some x => exact ⟨x, rfl⟩

/-- Adding one contest succeeds or changes nothing. -/
theorem accumulate_or {P : Params} {tc : TallyContest} {ss : List CSelection} (hn : (dkeys tc.selections).Nodup)
    (hne : "" ∉ dkeys tc.selections) :
    (ss ≠ [] ∧ (∀ k ∈ dkeys tc.selections, ∃ s ∈ ss, s.objectId = k ∧ s.isPlaceholder = false) ∧
      (accumulateContest P true tc ss).1 = true) ∨
    (¬ (ss ≠ [] ∧ ∀ k ∈ dkeys tc.selections, ∃ s ∈ ss, s.objectId = k ∧ s.isPlaceholder = false) ∧
      accumulateContest P true tc ss = (false, tc)) := by
  by_cases h : ss ≠ [] ∧ ∀ k ∈ dkeys tc.selections, ∃ s ∈ ss, s.objectId = k ∧ s.isPlaceholder = false
  · exact Or.inl ⟨h.1, h.2, accumulate_ok hn h.1 h.2⟩
  · refine Or.inr ⟨h, ?_⟩
    unfold accumulateContest
    by_cases h0 : ss = []
    · rw [if_pos (by simp [h0])]
    · rw [if_neg (by simpa using h0)]
      simp only
      rw [if_pos]
      have : ∃ k ∈ dkeys tc.selections, ¬ ∃ s ∈ ss, s.objectId = k ∧ s.isPlaceholder = false := by
        by_contra hc
        refine h ⟨h0, fun k hk => ?_⟩
        by_contra hc'
        exact hc ⟨k, hk, hc'⟩
      obtain ⟨k, hk, hno⟩ := this
      rw [List.any_eq_true]
      refine ⟨k, List.mem_filter.mpr ⟨hk, ?_⟩, ?_⟩
      · simp only [Bool.not_eq_true', decide_eq_false_iff_not, List.mem_map, List.mem_filter, Bool.not_eq_true',
          not_exists, not_and, and_imp]
        intro s hs hp hid
        exact hno ⟨s, hs, hid, hp⟩
      · rw [bne_iff_ne]; rintro rfl; exact hne hk

theorem complete_iff {m : InternalManifest} {tcs : List (String × TallyContest)} (h : KeyShape m tcs) {c : CContest}
    {tc : TallyContest} (hg : dget tcs c.objectId = some tc) : c.complete m = true ↔ c.ballotSelections ≠ [] ∧
      ∀ k ∈ dkeys tc.selections, ∃ s ∈ c.ballotSelections, s.objectId = k ∧ s.isPlaceholder = false := by
  unfold CContest.complete
  cases hf : m.contests.find? (fun d => d.objectId == c.objectId) with
  | none => rw [h.none _ hf] at hg; cases hg
  | some d =>
    obtain ⟨tc', h1, h2⟩ := h.some _ d hf
    rw [hg] at h1; cases h1
    simp only [Bool.and_eq_true, Bool.not_eq_true', List.isEmpty_eq_false_iff, List.all_eq_true, List.any_eq_true,
      beq_iff_eq]
    refine and_congr Iff.rfl ⟨fun hh k hk => ?_, fun hh sd hsd => hh _ ((h2 _).mpr (List.mem_map_of_mem hsd))⟩
    obtain ⟨sd, hsd, rfl⟩ := List.mem_map.mp ((h2 k).mp hk)
    exact hh sd hsd

theorem complete_false {m : InternalManifest} {tcs : List (String × TallyContest)} (h : KeyShape m tcs) {c : CContest}
    (hg : dget tcs c.objectId = none) : c.complete m = false := by
  unfold CContest.complete
  cases hf : m.contests.find? (fun d => d.objectId == c.objectId) with
  | none => rfl
  | some d =>
    obtain ⟨tc', h1, -⟩ := h.some _ d hf
    rw [hg] at h1; cases h1

theorem addCastLoop_single {P : Params} {c : CContest} {tcs : List (String × TallyContest)} {tc : TallyContest}
    (hg : dget tcs c.objectId = some tc) (h : (accumulateContest P true tc c.ballotSelections).1 = true)
    (cs : List CContest) : addCastLoop P true (c :: cs) tcs =
      addCastLoop P true cs (addCastLoop P true [c] tcs).2 ∧ (addCastLoop P true [c] tcs).1 = true := by
  constructor
  · rw [addCastLoop, hg]
    simp only [h, Bool.true_eq_false, if_false]
    congr 1
    rw [addCastLoop, hg]
    simp only [h, Bool.true_eq_false, if_false]
    rfl
  · rw [addCastLoop, hg]
    simp only [h, Bool.true_eq_false, if_false]
    rfl

/-- The loop over the contests of any ballot adds the leading contests, and succeeds if these are all. -/
theorem addCastLoop_any {P : Params} {m : InternalManifest} (hn : m.NamedSelections) (cs : List CContest) :
    ∀ tcs : List (String × TallyContest), KeyShape m tcs →
    addCastLoop P true cs tcs = (cs.all (CContest.complete m),
      bump P (contribution (cs.takeWhile (CContest.complete m))) tcs) := by
  induction cs with
  | nil =>
    intro tcs _
    have : contribution ([] : List CContest) = fun _ _ => [] := rfl
    simp only [addCastLoop, List.all_nil, List.takeWhile_nil, this, bump_nil]
  | cons c cs ih =>
    intro tcs hk
    have hnil : contribution ([] : List CContest) = fun _ _ => [] := rfl
    cases hg : dget tcs c.objectId with
    | none =>
      have hf := complete_false hk hg
      rw [addCastLoop, hg]
      simp only [List.all_cons, hf, Bool.false_and, List.takeWhile_cons, Bool.false_eq_true, if_false, hnil, bump_nil]
    | some tc =>
      have hnk : "" ∉ dkeys tc.selections := by
        intro hc
        cases hf : m.contests.find? (fun d => d.objectId == c.objectId) with
        | none => rw [hk.none _ hf] at hg; cases hg
        | some d =>
          obtain ⟨tc', h1, h2⟩ := hk.some _ d hf
          rw [hg] at h1; cases h1
          obtain ⟨sd, hsd, h3⟩ := List.mem_map.mp ((h2 _).mp hc)
          exact hn d (List.mem_of_find?_eq_some hf) sd hsd h3
      rcases accumulate_or (P := P) (ss := c.ballotSelections) (hk.wf.sels _ (mem_of_dget hg)) hnk with
        ⟨h1, h2, h3⟩ | ⟨h1, h2⟩
      · have hc := (complete_iff hk hg).mpr ⟨h1, h2⟩
        obtain ⟨e1, e2⟩ := addCastLoop_single hg h3 cs
        have e3 : (addCastLoop P true [c] tcs).2 = bump P (contribution [c]) tcs :=
          addCastLoop_true hk.wf (Prod.ext e2 rfl)
        rw [e1, e3, ih _ (hk.bump P _), bump_bump]
        simp only [List.all_cons, hc, Bool.true_and, List.takeWhile_cons, if_true]
        congr 2
        funext cid sid
        rw [contribution_cons c (cs.takeWhile _), contribution_cons c []]
        simp [contribution]
      · have hf : c.complete m = false := by
          rw [← Bool.not_eq_true]
          exact fun h => h1 ((complete_iff hk hg).mp h)
        rw [addCastLoop, hg]
        simp only [h2, if_true, List.all_cons, hf, Bool.false_and, List.takeWhile_cons, Bool.false_eq_true, if_false,
          hnil, bump_nil]
        have : dset tcs c.objectId tc = tcs := by
          rw [dset_eq_map hg]
          conv_rhs => rw [← List.map_id tcs]
          refine List.map_congr_left (fun e he => ?_)
          by_cases hh : e.1 = c.objectId
          · have : dget tcs e.1 = some e.2 := dget_of_mem hk.wf.keys (by simpa using he)
            rw [hh, hg] at this
            rw [if_pos hh]; cases this; rfl
          · rw [if_neg hh]; rfl
        rw [this]

/-- What `append` does with any ballot, for a tally with the dicts of the manifest. -/
theorem append_any {E : Env} {m : InternalManifest} (hn : m.NamedSelections) (ctx : Context) (t : Tally)
    (hk : KeyShape m t.contests) (b : SBallot) (validate : Bool) :
    ((b.state ≠ .unknown ∧ t.contains b = false ∧ ballotIsValidForElection E b.toCBallot m ctx validate = .ok true) ∧
      ((b.state = .spoiled ∧ t.append E m ctx true b validate = (.ok true, addSpoiled t b)) ∨
       (b.state = .cast ∧ t.append E m ctx true b validate = (.ok (b.contests.all (CContest.complete m)), { t with
          contests := bump E.P (contribution (b.toCBallot.leading m)) t.contests
          castIds := if b.contests.all (CContest.complete m) then setAdd t.castIds b.objectId else t.castIds })))) ∨
    (¬ (b.state ≠ .unknown ∧ t.contains b = false ∧
        ballotIsValidForElection E b.toCBallot m ctx validate = .ok true) ∧
      (t.append E m ctx true b validate).1 ≠ .ok true ∧ (t.append E m ctx true b validate).2 = t) := by
  unfold Tally.append
  by_cases hu : b.state = .unknown
  · right; rw [if_pos hu]; simp [hu]
  · rw [if_neg hu]
    cases hc : t.contains b with
    | true => right; simp
    | false =>
      simp only [Bool.false_eq_true, if_false]
      cases hv : ballotIsValidForElection E b.toCBallot m ctx validate with
      | error e => right; simp
      | ok r =>
        cases r with
        | false => right; simp
        | true =>
          left
          refine ⟨⟨hu, by simp, by simp⟩, ?_⟩
          cases hst : b.state with
          | unknown => exact absurd hst hu
          | spoiled => left; exact ⟨rfl, rfl⟩
          | cast =>
            right
            refine ⟨rfl, ?_⟩
            simp only [addCast, addCastLoop_any hn b.contests t.contests hk]
            cases b.contests.all (CContest.complete m) <;> rfl

/-- Every tally made by appends has the dicts of the manifest. -/
theorem append_keyShape {E : Env} {m : InternalManifest} (hn : m.NamedSelections) (ctx : Context) (t : Tally)
    (hk : KeyShape m t.contests) (b : SBallot) (validate : Bool) :
    KeyShape m (t.append E m ctx true b validate).2.contests := by
  rcases append_any (E := E) hn ctx t hk b validate with ⟨-, ⟨-, h⟩ | ⟨-, h⟩⟩ | ⟨-, -, h⟩
  · rw [h]; exact hk
  · rw [h]; exact hk.bump E.P _
  · rw [h]; exact hk

theorem runAppends_keyShape {E : Env} {m : InternalManifest} (hn : m.NamedSelections) (ctx : Context) (validate : Bool)
    (bs : List SBallot) (t : Tally) (hk : KeyShape m t.contests) :
    KeyShape m (runAppends E m ctx true validate t bs).2.contests := by
  induction bs generalizing t with
  | nil => exact hk
  | cons b bs ih => exact ih _ (append_keyShape hn ctx t hk b validate)

/-- **C38 (partial).**  After any history of appends, of whatever ballots: a ballot is accepted exactly when it is cast or
spoiled, not yet in the tally and valid, and, if cast, all its contests can be added.  If it is rejected, the sets stay,
and the totals stay too, except that a cast ballot that is new and valid leaves its contests before the first
one that cannot be added in the totals (`C38_half_added_fails` is such a case).  Partial: no selection has the empty text
as its id. -/
theorem C38_any_partial (E : Env) (m : InternalManifest) (hm : TallyManifest m) (hn : m.NamedSelections) (ctx : Context)
    (id : String) (validate validate' : Bool) (bs : List SBallot) (b : SBallot) :
    let t := (runAppends E m ctx true validate (newTally E id m) bs).2
    let r := t.append E m ctx true b validate'
    (r.1 = .ok true ↔ b.state ≠ .unknown ∧ t.contains b = false ∧
      ballotIsValidForElection E b.toCBallot m ctx validate' = .ok true ∧
      (b.state = .cast → ∀ c ∈ b.contests, c.complete m = true)) ∧
    (r.1 ≠ .ok true → r.2.castIds = t.castIds ∧ r.2.spoiledIds = t.spoiledIds ∧
      (r.2 = t ∨ b.state = .cast ∧ t.contains b = false ∧
        ballotIsValidForElection E b.toCBallot m ctx validate' = .ok true ∧
        ∀ cid sid, r.2.total cid sid = (t.total cid sid).map (fun x =>
          (contribution (b.toCBallot.leading m) cid sid).foldl (ctMul E.P) x))) := by
  intro t r
  have hk : KeyShape m t.contests := runAppends_keyShape hn ctx validate bs _ (newTally_keyShape E m hm)
  rcases append_any (E := E) hn ctx t hk b validate' with ⟨⟨h1, h2, h3⟩, ⟨hs, h⟩ | ⟨hs, h⟩⟩ | ⟨hno, h1, h2⟩
  · have hr : r = (.ok true, addSpoiled t b) := h
    rw [hr]
    refine ⟨⟨fun _ => ⟨h1, h2, h3, fun hc => by rw [hs] at hc; cases hc⟩, fun _ => rfl⟩, fun hc => absurd rfl hc⟩
  · have hr : r = _ := h
    rw [hr]
    refine ⟨⟨fun ht => ⟨h1, h2, h3, fun _ => ?_⟩, fun ht => ?_⟩, fun hf => ?_⟩
    · simp only [Except.ok.injEq] at ht
      exact List.all_eq_true.mp ht
    · simp only [Except.ok.injEq]
      exact List.all_eq_true.mpr (ht.2.2.2 hs)
    · have hall : b.contests.all (CContest.complete m) = false := by
        cases hh : b.contests.all (CContest.complete m) with
        | false => rfl
        | true => rw [hh] at hf; exact absurd rfl hf
      refine ⟨by simp [hall], rfl, Or.inr ⟨hs, h2, h3, fun cid sid => ?_⟩⟩
      exact total_bump _ _ t.contests rfl cid sid
  · refine ⟨⟨fun hc => absurd hc h1, fun hc => absurd ⟨hc.1, hc.2.1, hc.2.2.1⟩ hno⟩, fun _ => ?_⟩
    have : r.2 = t := h2
    rw [this]
    exact ⟨rfl, rfl, Or.inl rfl⟩

/-- Appends of any ballots: what is in the totals. -/
theorem run_any {E : Env} {m : InternalManifest} (hn : m.NamedSelections) (ctx : Context) (validate : Bool)
    (bs : List SBallot) : ∀ t : Tally, KeyShape m t.contests →
    ∃ tried : List SBallot, tried.Sublist bs ∧
      (∀ b ∈ tried, b.state = .cast ∧ ballotIsValidForElection E b.toCBallot m ctx validate = .ok true) ∧
      castOf (runAppends E m ctx true validate t bs).1 =
        tried.filter (fun b => b.contests.all (CContest.complete m)) ∧
      (runAppends E m ctx true validate t bs).2.contests =
        bump E.P (fun cid sid => tried.flatMap (fun b => contribution (b.toCBallot.leading m) cid sid)) t.contests := by
  induction bs with
  | nil =>
    intro t hk
    exact ⟨[], List.Sublist.refl _, by simp, rfl, by simp only [List.flatMap_nil, bump_nil]; rfl⟩
  | cons b bs ih =>
    intro t hk
    have hk' := append_keyShape (E := E) hn ctx t hk b validate
    obtain ⟨tried, i1, i2, i3, i4⟩ := ih _ hk'
    have hrun : runAppends E m ctx true validate t (b :: bs) =
        (if (t.append E m ctx true b validate).1 = .ok true then
            b :: (runAppends E m ctx true validate (t.append E m ctx true b validate).2 bs).1
          else (runAppends E m ctx true validate (t.append E m ctx true b validate).2 bs).1,
        (runAppends E m ctx true validate (t.append E m ctx true b validate).2 bs).2) := rfl
    rw [hrun]
    simp only
    rcases append_any (E := E) hn ctx t hk b validate with ⟨⟨h1, h2, h3⟩, ⟨hs, h⟩ | ⟨hs, h⟩⟩ | ⟨-, h1, h2⟩
    · refine ⟨tried, i1.trans (List.sublist_cons_self b bs), i2, ?_, ?_⟩
      · rw [if_pos (by rw [h]), ← i3]
        unfold castOf
        rw [List.filter_cons_of_neg (by simp [hs])]
      · rw [i4, h]; rfl
    · refine ⟨b :: tried, i1.cons_cons b, ?_, ?_, ?_⟩
      · intro x hx
        rcases List.mem_cons.mp hx with rfl | hx
        · exact ⟨hs, h3⟩
        · exact i2 x hx
      · cases hall : b.contests.all (CContest.complete m) with
        | true =>
          rw [if_pos (by rw [h, hall]), List.filter_cons_of_pos (by simpa using hall), ← i3]
          unfold castOf
          rw [List.filter_cons_of_pos (by simp [hs])]
        | false =>
          rw [if_neg (by rw [h, hall]; simp), List.filter_cons_of_neg (by simp [hall]), ← i3]
      · rw [i4, h]
        simp only [bump_bump, List.flatMap_cons]
    · refine ⟨tried, i1.trans (List.sublist_cons_self b bs), i2, ?_, ?_⟩
      · rw [if_neg h1, ← i3]
      · rw [i4, h2]

/-- **C35 (partial).**  After appending any ballots, in whatever shape: the total of every selection of the manifest is the
product of what the tried ballots hold for it in their leading contests.  The tried ballots are among those appended,
cast and valid; those of them whose contests can all be added are exactly the accepted cast ballots.  Partial: no selection
has the empty text as its id. -/
theorem C35_any_partial (E : Env) (hp : 1 < E.P.p) (m : InternalManifest) (hm : TallyManifest m)
    (hn : m.NamedSelections) (ctx : Context) (id : String) (validate : Bool) (bs : List SBallot) :
    let r := runAppends E m ctx true validate (newTally E id m) bs
    ∃ tried : List SBallot, tried.Sublist bs ∧
      (∀ b ∈ tried, b.state = .cast ∧ ballotIsValidForElection E b.toCBallot m ctx validate = .ok true) ∧
      castOf r.1 = tried.filter (fun b => b.contests.all (CContest.complete m)) ∧
      ∀ d ∈ m.contests, ∀ sd ∈ d.ballotSelections, ∃ c, r.2.total d.objectId sd.objectId = some c ∧
        IsProduct E.P c (tried.flatMap (fun b => contribution (b.toCBallot.leading m) d.objectId sd.objectId)) := by
  intro r
  obtain ⟨tried, h1, h2, h3, h4⟩ := run_any hn ctx validate bs (newTally E id m) (newTally_keyShape E m hm)
  refine ⟨tried, h1, h2, h3, fun d hd sd hsd => ?_⟩
  have ht := total_bump _ r.2 _ h4 d.objectId sd.objectId
  have h0 := newTally_total E id m hm d.objectId sd.objectId
  rw [if_pos ⟨d, hd, rfl, sd, hsd, rfl⟩] at h0
  unfold Tally.total at h0
  rw [h0] at ht
  exact ⟨_, ht, foldl_ctMul_product hp _⟩

/-! ## Order -/

/-- A tally tries to add the contests of the ballot: it is cast, new and valid. -/
def Tally.tries (E : Env) (m : InternalManifest) (ctx : Context) (validate : Bool) (t : Tally) (b : SBallot) : Bool :=
  decide (b.state = .cast ∧ t.contains b = false ∧ ballotIsValidForElection E b.toCBallot m ctx validate = .ok true)

/-- A tally accepts the ballot. -/
def Tally.takes (E : Env) (m : InternalManifest) (ctx : Context) (validate : Bool) (t : Tally) (b : SBallot) : Bool :=
  decide (b.state ≠ .unknown ∧ t.contains b = false ∧ ballotIsValidForElection E b.toCBallot m ctx validate = .ok true ∧
    (b.state = .cast → b.contests.all (CContest.complete m) = true))

/-- Appends of ballots with distinct ids, whatever their shape. -/
theorem run_distinct {E : Env} {m : InternalManifest} (hn : m.NamedSelections) (ctx : Context) (validate : Bool)
    (bs : List SBallot) (hid : (bs.map (fun b => b.objectId)).Nodup) : ∀ t : Tally, KeyShape m t.contests →
    let r := runAppends E m ctx true validate t bs
    r.1 = bs.filter (t.takes E m ctx validate) ∧
    r.2.contests = bump E.P (fun cid sid => (bs.filter (t.tries E m ctx validate)).flatMap
      (fun b => contribution (b.toCBallot.leading m) cid sid)) t.contests ∧
    (∀ x, x ∈ r.2.castIds ↔ x ∈ t.castIds ∨ ∃ b ∈ r.1, b.state = .cast ∧ b.objectId = x) ∧
    (∀ x, x ∈ r.2.spoiledIds ↔ x ∈ t.spoiledIds ∨ ∃ b ∈ r.1, b.state = .spoiled ∧ b.objectId = x) := by
  induction bs with
  | nil =>
    intro t hk
    exact ⟨rfl, by simp only [List.filter_nil, List.flatMap_nil, bump_nil]; rfl,
      fun x => by simp [runAppends], fun x => by simp [runAppends]⟩
  | cons b bs ih =>
    intro t hk
    rw [List.map_cons, List.nodup_cons] at hid
    have hne : ∀ x ∈ bs, x.objectId ≠ b.objectId := fun x hx h => hid.1 (List.mem_map.2 ⟨x, hx, h⟩)
    have hk' := append_keyShape (E := E) hn ctx t hk b validate
    have hrun : runAppends E m ctx true validate t (b :: bs) =
        (if (t.append E m ctx true b validate).1 = .ok true then
            b :: (runAppends E m ctx true validate (t.append E m ctx true b validate).2 bs).1
          else (runAppends E m ctx true validate (t.append E m ctx true b validate).2 bs).1,
        (runAppends E m ctx true validate (t.append E m ctx true b validate).2 bs).2) := rfl
    obtain ⟨i1, i2, i3, i4⟩ := ih hid.2 _ hk'
    rw [hrun]
    simp only
    have hcont : ∀ x ∈ bs, (t.append E m ctx true b validate).2.contains x = t.contains x := by
      intro x hx
      rcases append_any (E := E) hn ctx t hk b validate with ⟨-, ⟨-, h⟩ | ⟨-, h⟩⟩ | ⟨-, -, h⟩
      · rw [h]; simp [Tally.contains, addSpoiled, setAdd_mem, hne x hx]
      · rw [h]
        simp only [Tally.contains]
        split <;> simp [setAdd_mem, hne x hx]
      · rw [h]
    have e1 : bs.filter ((t.append E m ctx true b validate).2.takes E m ctx validate) =
        bs.filter (t.takes E m ctx validate) :=
      List.filter_congr (fun x hx => by unfold Tally.takes; rw [hcont x hx])
    have e2 : bs.filter ((t.append E m ctx true b validate).2.tries E m ctx validate) =
        bs.filter (t.tries E m ctx validate) :=
      List.filter_congr (fun x hx => by unfold Tally.tries; rw [hcont x hx])
    rw [e1] at i1
    rw [e2] at i2
    rcases append_any (E := E) hn ctx t hk b validate with ⟨⟨h1, h2, h3⟩, ⟨hs, h⟩ | ⟨hs, h⟩⟩ | ⟨hno, h1, h2⟩
    · have ht : t.takes E m ctx validate b = true := by simp [Tally.takes, hs, h2, h3]
      have hf : t.tries E m ctx validate b = false := by simp [Tally.tries, hs]
      refine ⟨?_, ?_, ?_, ?_⟩
      · rw [if_pos (by rw [h]), i1, List.filter_cons, if_pos ht]
      · rw [i2, h, List.filter_cons, hf]; rfl
      · intro x; rw [if_pos (by rw [h]), i3, h]; simp [addSpoiled, hs]
      · intro x; rw [if_pos (by rw [h]), i4, h]; simp [addSpoiled, setAdd_mem, hs, or_assoc, eq_comm]
    · have hf : t.tries E m ctx validate b = true := by simp [Tally.tries, hs, h2, h3]
      have hcon : (runAppends E m ctx true validate (t.append E m ctx true b validate).2 bs).2.contests =
          bump E.P (fun cid sid => ((b :: bs).filter (t.tries E m ctx validate)).flatMap
            (fun b => contribution (b.toCBallot.leading m) cid sid)) t.contests := by
        rw [i2, h, List.filter_cons, hf]
        simp only [if_true, bump_bump, List.flatMap_cons]
      cases hall : b.contests.all (CContest.complete m) with
      | true =>
        have ht : t.takes E m ctx validate b = true := by
          unfold Tally.takes; rw [hs, h2, h3, hall]; simp
        have hok : (t.append E m ctx true b validate).1 = .ok true := by rw [h, hall]
        refine ⟨?_, hcon, ?_, ?_⟩
        · rw [if_pos hok, i1, List.filter_cons, if_pos ht]
        · intro x; rw [if_pos hok, i3, h, hall]; simp [setAdd_mem, hs, or_assoc, eq_comm]
        · intro x; rw [if_pos hok, i4, h]; simp [hs]
      | false =>
        have ht : t.takes E m ctx validate b = false := by
          unfold Tally.takes; rw [hs, h2, h3, hall]; simp
        have hok : ¬ (t.append E m ctx true b validate).1 = .ok true := by rw [h, hall]; simp
        refine ⟨?_, hcon, ?_, ?_⟩
        · rw [if_neg hok, i1, List.filter_cons, ht]; rfl
        · intro x; rw [if_neg hok, i3, h, hall]; simp
        · intro x; rw [if_neg hok, i4, h]
    · have ht : t.takes E m ctx validate b = false := by
        unfold Tally.takes
        rw [decide_eq_false_iff_not]
        rintro ⟨a1, a2, a3, -⟩
        exact hno ⟨a1, a2, a3⟩
      have hf : t.tries E m ctx validate b = false := by
        unfold Tally.tries
        rw [decide_eq_false_iff_not]
        rintro ⟨a1, a2, a3⟩
        exact hno ⟨by rw [a1]; simp, a2, a3⟩
      refine ⟨?_, ?_, ?_, ?_⟩
      · rw [if_neg h1, i1, List.filter_cons, ht]; rfl
      · rw [i2, h2, List.filter_cons, hf]; rfl
      · intro x; rw [if_neg h1, i3, h2]
      · intro x; rw [if_neg h1, i4, h2]

/-- **C39 (partial).**  After any history of appends, appending ballots of any shape in another order accepts the same
ballots and gives the same totals and the same sets, rejected ballots included.  Partial: the ballots have distinct ids
(of two ballots with the same id the first is taken), and no selection has the empty text as its id. -/
theorem C39_any_partial (E : Env) (m : InternalManifest) (hm : TallyManifest m) (hn : m.NamedSelections) (ctx : Context)
    (id : String) (validate validate' : Bool) (before bs bs' : List SBallot) (hp : bs.Perm bs')
    (hid : (bs.map (fun b => b.objectId)).Nodup) :
    let t := (runAppends E m ctx true validate (newTally E id m) before).2
    let r := runAppends E m ctx true validate' t bs
    let r' := runAppends E m ctx true validate' t bs'
    r.1.Perm r'.1 ∧ r.2.contests = r'.2.contests ∧ (∀ x, x ∈ r.2.castIds ↔ x ∈ r'.2.castIds) ∧
      (∀ x, x ∈ r.2.spoiledIds ↔ x ∈ r'.2.spoiledIds) := by
  intro t r r'
  have hk : KeyShape m t.contests := runAppends_keyShape hn ctx validate before _ (newTally_keyShape E m hm)
  have hid' : (bs'.map (fun b => b.objectId)).Nodup := (hp.map _).nodup_iff.1 hid
  obtain ⟨i1, i2, i3, i4⟩ := run_distinct (E := E) hn ctx validate' bs hid t hk
  obtain ⟨j1, j2, j3, j4⟩ := run_distinct (E := E) hn ctx validate' bs' hid' t hk
  have hperm : r.1.Perm r'.1 := by
    show (runAppends E m ctx true validate' t bs).1.Perm (runAppends E m ctx true validate' t bs').1
    rw [i1, j1]; exact hp.filter _
  refine ⟨hperm, ?_, ?_, ?_⟩
  · show (runAppends E m ctx true validate' t bs).2.contests = (runAppends E m ctx true validate' t bs').2.contests
    rw [i2, j2]
    refine bump_congr (fun e _ s _ x => foldl_ctMul_perm ?_ x)
    exact (hp.filter _).flatMap_right _
  · intro x
    have a := i3 x
    have b := j3 x
    show x ∈ (runAppends E m ctx true validate' t bs).2.castIds ↔ x ∈ (runAppends E m ctx true validate' t bs').2.castIds
    rw [a, b]
    refine or_congr Iff.rfl (exists_congr fun y => and_congr ?_ Iff.rfl)
    exact hperm.mem_iff
  · intro x
    have a := i4 x
    have b := j4 x
    show x ∈ (runAppends E m ctx true validate' t bs).2.spoiledIds ↔ x ∈ (runAppends E m ctx true validate' t bs').2.spoiledIds
    rw [a, b]
    refine or_congr Iff.rfl (exists_congr fun y => and_congr ?_ Iff.rfl)
    exact hperm.mem_iff

/-- The toy manifest has no unnamed selections. -/
theorem toyNamed : toyIM.NamedSelections := by unfold InternalManifest.NamedSelections; decide +kernel

/-- The ballot with an unknown contest is tried and not accepted; its leading contest is in the totals. -/
example : toyForeign.toCBallot.leading toyIM = toyForeign.contests.take 1 ∧
    toyForeign.contests.all (CContest.complete toyIM) = false := by decide +kernel

/-- A ballot with an unknown contest, rejected in either order, and an honest one. -/
example :
    let bs := [toyForeign, toySubmit "b2" "s" 1 0 0 3 .cast]
    (bs.map (fun b => b.objectId)).Nodup ∧
    ((runAppends toyEnv toyIM toyCtx true true (newTally toyEnv "t" toyIM) bs).1).length = 1 ∧
    (runAppends toyEnv toyIM toyCtx true true (newTally toyEnv "t" toyIM) bs).2 =
      (runAppends toyEnv toyIM toyCtx true true (newTally toyEnv "t" toyIM) bs.reverse).2 := by decide +kernel

end EG
