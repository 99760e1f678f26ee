import Verif.Props.Tally

/-!
# C37: appending a batch
-/

namespace EG

private theorem dset_new {α : Type} {d : List (String × α)} {k : String} (h : k ∉ dkeys d) (v : α) :
    dset d k v = d ++ [(k, v)] := by
  unfold dset
  rw [if_neg]
  simp only [List.any_eq_true, beq_iff_eq, not_exists, not_and]
  intro e he hk
  exact h (List.mem_map.2 ⟨e, he, hk⟩)

/-- A dict entry that holds a list, absent when the list is empty. -/
private def entry {α : Type} (l : List α) : Option (List α) := if l = [] then none else some l

private theorem entry_getD {α : Type} (l : List α) : (entry l).getD [] = l := by
  unfold entry; split <;> simp_all

/-- The selections of a ballot. -/
private def flat (b : SBallot) : List CSelection := b.contests.flatMap (fun c => c.ballotSelections)

/-- What a ballot adds to the entry of a selection. -/
private def given (sid : String) (b : SBallot) : List (String × Ciphertext) :=
  ((flat b).find? (fun s => s.objectId == sid)).toList.map (fun s => (b.objectId, s.ciphertext))

private theorem collect_get (b : SBallot) (hn : ((flat b).map (fun s => s.objectId)).Nodup) (d : BatchDict) (sid : String)
    (l : List (String × Ciphertext)) (hd : dget d sid = entry l) (hb : b.objectId ∉ dkeys l) :
    dget (collectBallot b d) sid = entry (l ++ given sid b) := by
  have h0 : collectBallot b d = (flat b).foldl (fun d s =>
      dset d s.objectId (dset ((dget d s.objectId).getD []) b.objectId s.ciphertext)) d := by
    unfold collectBallot flat
    rw [List.foldl_flatMap]
  rw [h0]
  clear h0
  unfold given
  generalize flat b = fs at hn
  induction fs generalizing d with
  | nil => simpa using hd
  | cons s fs ih =>
    rw [List.map_cons, List.nodup_cons] at hn
    rw [List.foldl_cons]
    by_cases hs : s.objectId = sid
    · have hnone : fs.find? (fun s => s.objectId == sid) = none := by
        rw [List.find?_eq_none]
        intro x hx hxs
        refine hn.1 (List.mem_map.2 ⟨x, hx, ?_⟩)
        rw [hs]; simpa using hxs
      have step : ∀ (fs : List CSelection) (d : BatchDict), fs.find? (fun s => s.objectId == sid) = none →
          dget (fs.foldl (fun d s => dset d s.objectId
            (dset ((dget d s.objectId).getD []) b.objectId s.ciphertext)) d) sid = dget d sid := by
        intro fs
        induction fs with
        | nil => intros; rfl
        | cons x fs ih =>
          intro d hx
          rw [List.find?_cons] at hx
          split at hx
          · cases hx
          · rename_i hne
            rw [List.foldl_cons, ih _ hx, dget_dset, if_neg (by simpa using hne)]
      rw [step fs _ hnone, dget_dset, if_pos hs, List.find?_cons]
      simp only [hs, beq_self_eq_true, Option.toList_some, List.map_cons, List.map_nil]
      rw [hd, entry_getD, dset_new hb]
      simp [entry]
    · rw [ih _ (by rw [dget_dset, if_neg hs]; exact hd) hn.2, List.find?_cons]
      have : (s.objectId == sid) = false := by simpa using hs
      simp [this]

private theorem collectAll_get (bs : List SBallot)
    (hn : ∀ b ∈ bs, ((flat b).map (fun s => s.objectId)).Nodup)
    (hid : (bs.map (fun b => b.objectId)).Nodup) (sid : String) :
    ∀ (d : BatchDict) (l : List (String × Ciphertext)), dget d sid = entry l →
      (∀ b ∈ bs, b.objectId ∉ dkeys l) →
      dget (bs.foldl (fun d b => collectBallot b d) d) sid = entry (l ++ bs.flatMap (given sid)) := by
  induction bs with
  | nil => intro d l hd _; simpa using hd
  | cons b bs ih =>
    intro d l hd hl
    rw [List.map_cons, List.nodup_cons] at hid
    have h1 := collect_get b (hn b List.mem_cons_self) d sid l hd (hl b List.mem_cons_self)
    rw [List.foldl_cons, ih (fun x hx => hn x (List.mem_cons_of_mem _ hx)) hid.2 _ _ h1, List.flatMap_cons,
      List.append_assoc]
    intro x hx hmem
    simp only [dkeys, List.map_append, List.mem_append] at hmem
    rcases hmem with hmem | hmem
    · exact hl x (List.mem_cons_of_mem _ hx) hmem
    · simp only [given, List.map_map, List.mem_map] at hmem
      obtain ⟨s, -, he⟩ := hmem
      exact hid.1 (List.mem_map.2 ⟨x, hx, he.symm⟩)

private theorem batchSum_eq (P : Params) (x : Ciphertext) (l : List (String × Ciphertext)) (hne : l ≠ []) :
    ctMul P x (batchSum P l) = (l.map (fun e => e.2)).foldl (ctMul P) x := by
  cases l with
  | nil => exact absurd rfl hne
  | cons c cs =>
    have : batchSum P (c :: cs) = (cs.map (fun e => e.2)).foldl (ctMul P) c.2 := by
      rw [batchSum, List.foldl_map]
    rw [this, ctMul_foldl, List.map_cons, List.foldl_cons]

private theorem batchLoop_eq (E : Env) (m : InternalManifest) (ctx : Context) (validate : Bool) (bs : List SBallot)
    (he : ∀ b ∈ bs, ∃ r, ballotIsValidForElection E b.toCBallot m ctx validate = .ok r) :
    ∀ (t : Tally) (d : BatchDict), batchLoop E m ctx validate bs t d =
      (.ok ((bs.filter (fun b => decide (b.state = .cast ∧
          ballotIsValidForElection E b.toCBallot m ctx validate = .ok true))).foldl (fun d b => collectBallot b d) d),
        (bs.filter (fun b => decide (b.state = .spoiled ∧
          ballotIsValidForElection E b.toCBallot m ctx validate = .ok true))).foldl addSpoiled t) := by
  induction bs with
  | nil => intros; rfl
  | cons b bs ih =>
    intro t d
    have ih := ih (fun x hx => he x (List.mem_cons_of_mem _ hx))
    obtain ⟨r, hr⟩ := he b List.mem_cons_self
    rw [batchLoop, hr]
    cases r with
    | false => simp only [List.filter_cons, hr]; simp [ih]
    | true =>
      cases hst : b.state with
      | cast => simp only [List.filter_cons, hr, hst]; simp [ih]
      | spoiled => simp only [List.filter_cons, hr, hst]; simp [ih]
      | unknown => simp only [List.filter_cons, hr, hst]; simp [ih]

private theorem recordCast_eq (bs : List SBallot) (s : List String) :
    recordCast bs s = ((castOf bs).map (fun b => b.objectId)).foldl setAdd s := by
  induction bs generalizing s with
  | nil => rfl
  | cons b bs ih =>
    rw [recordCast, ih]
    by_cases h : b.state = .cast <;> simp [h, castOf]

private theorem foldl_addSpoiled (bs : List SBallot) (t : Tally) :
    bs.foldl addSpoiled t = { t with spoiledIds := (bs.map (fun b => b.objectId)).foldl setAdd t.spoiledIds } := by
  induction bs generalizing t with
  | nil => rfl
  | cons b bs ih => rw [List.foldl_cons, ih]; rfl

/-- The sets after a sequence of appends, in order. -/
private theorem run_sets (E : Env) (m : InternalManifest) (hm : TallyManifest m) (ctx : Context) (validate : Bool)
    (bs : List SBallot) : ∀ t : Tally, WFContests t.contests → Shape m t.contests →
    (∀ b ∈ bs, b.toCBallot.Regular m) →
    let r := runAppends E m ctx true validate t bs
    r.2.objectId = t.objectId ∧
    r.2.castIds = ((castOf r.1).map (fun b => b.objectId)).foldl setAdd t.castIds ∧
    r.2.spoiledIds = ((r.1.filter (fun b => decide (b.state = .spoiled))).map (fun b => b.objectId)).foldl setAdd
      t.spoiledIds := by
  induction bs with
  | nil => intro t _ _ _; exact ⟨rfl, rfl, rfl⟩
  | cons b bs ih =>
    intro t hw hs hb
    simp only [runAppends]
    obtain ⟨hw', hs'⟩ := append_keeps E m ctx true t b validate hw hs
    obtain ⟨i0, i1, i2⟩ := ih _ hw' hs' (fun x hx => hb x (List.mem_cons_of_mem _ hx))
    by_cases hr : (t.append E m ctx true b validate).1 = .ok true
    · rw [if_pos hr, i0, i1, i2]
      obtain ⟨-, -, ⟨hst, h⟩ | ⟨hst, h⟩⟩ := append_true hw hr
      · rw [h]; simp [castOf, hst, addSpoiled]
      · rw [h]; simp [castOf, hst]
    · rw [if_neg hr, i0, i1, i2,
        C38_rejected_unchanged_partial E m hm ctx t hw hs b (hb b List.mem_cons_self) validate hr]
      exact ⟨rfl, rfl, rfl⟩

private theorem given_eq (b : SBallot) (m : InternalManifest) (hsep : b.toCBallot.Separate m)
    (d : ContestWithPlaceholders) (hd : d ∈ m.contests) (sd : SelectionDescription) (hsd : sd ∈ d.ballotSelections) :
    (given sd.objectId b).map (fun e => e.2) = contribution b.contests d.objectId sd.objectId := by
  have hids : (b.contests.flatMap (fun c => c.ballotSelections.map (fun s => s.objectId))).Nodup := hsep.ids
  have hc : ∀ c ∈ b.contests, ∀ s ∈ c.ballotSelections, s.objectId = sd.objectId → c.objectId = d.objectId :=
    fun c hc s hs h => (hsep.contest c hc s hs d hd sd hsd h.symm).symm
  unfold given flat
  rw [List.map_map]
  generalize b.contests = cs at hids hc
  induction cs with
  | nil => rfl
  | cons c cs ih =>
    rw [List.flatMap_cons, List.find?_append, contribution_cons]
    rw [List.flatMap_cons, List.nodup_append] at hids
    have ih := ih hids.2.1 (fun x hx => hc x (List.mem_cons_of_mem _ hx))
    cases hf : c.ballotSelections.find? (fun s => s.objectId == sd.objectId) with
    | none =>
      rw [Option.none_or, ih]
      have : firstCt c.ballotSelections sd.objectId = none := by simp [firstCt, hf]
      rw [this]; simp
    | some s =>
      have hs := List.mem_of_find?_eq_some hf
      have hsi : s.objectId = sd.objectId := by simpa using List.find?_some hf
      have h1 := hc c List.mem_cons_self s hs hsi
      have : firstCt c.ballotSelections sd.objectId = some s.ciphertext := by simp [firstCt, hf]
      rw [if_pos h1, this]
      have hnil : contribution cs d.objectId sd.objectId = [] := by
        unfold contribution
        rw [List.filterMap_eq_nil_iff]
        intro x hx
        rw [Option.map_eq_none_iff, List.find?_eq_none]
        intro y hy hye
        have hye : y.objectId = sd.objectId := by simpa using hye
        refine hids.2.2 s.objectId (List.mem_map_of_mem hs) y.objectId ?_ (hsi.trans hye.symm)
        exact List.mem_flatMap.2 ⟨x, (List.mem_filter.1 hx).1, List.mem_map_of_mem hy⟩
      rw [hnil]
      simp

/-- C37: appending a batch gives exactly the tally that appending its ballots one by one gives.  Partial: the ballots
of the batch have distinct ids and were not tallied before, validating them does not raise, the cast ones among
them are valid, no real selection id is used twice on a ballot or in a foreign contest, and they are regular as in
C38.  The `_fails` theorems show that the first three conditions are needed. -/
theorem C37_batch_partial (E : Env) (m : InternalManifest) (hm : TallyManifest m) (ctx : Context) (validate : Bool)
    (t : Tally) (hw : WFContests t.contests) (hs : Shape m t.contests) (bs : List SBallot)
    (hb : ∀ b ∈ bs, b.toCBallot.Regular m) (hsep : ∀ b ∈ bs, b.toCBallot.Separate m)
    (hid : (bs.map (fun b => b.objectId)).Nodup) (hnew : ∀ b ∈ bs, t.contains b = false)
    (he : ∀ b ∈ bs, ∃ r, ballotIsValidForElection E b.toCBallot m ctx validate = .ok r)
    (hval : ∀ b ∈ bs, b.state = .cast → ballotIsValidForElection E b.toCBallot m ctx validate = .ok true) :
    t.batchAppend E m ctx true bs validate = (.ok true, (runAppends E m ctx true validate t bs).2) := by
  have hacc := accepted_eq E m hm ctx validate bs hid t hw hs hb
  have hcast : castOf (runAppends E m ctx true validate t bs).1 = castOf bs := by
    rw [hacc, castOf, List.filter_filter, castOf]
    refine List.filter_congr (fun b hb' => ?_)
    by_cases hst : b.state = .cast
    · simp [hst, hnew b hb', hval b hb' hst]
    · simp [hst]
  have hspoil : (runAppends E m ctx true validate t bs).1.filter (fun b => decide (b.state = .spoiled))
      = bs.filter (fun b => decide (b.state = .spoiled ∧
          ballotIsValidForElection E b.toCBallot m ctx validate = .ok true)) := by
    rw [hacc, List.filter_filter]
    refine List.filter_congr (fun b hb' => ?_)
    by_cases hst : b.state = .spoiled
    · simp [hst, hnew b hb']
    · simp [hst]
  have hvc : bs.filter (fun b => decide (b.state = .cast ∧
      ballotIsValidForElection E b.toCBallot m ctx validate = .ok true)) = castOf bs := by
    rw [castOf]
    refine List.filter_congr (fun b hb' => ?_)
    by_cases hst : b.state = .cast
    · simp [hst, hval b hb' hst]
    · simp [hst]
  obtain ⟨r1, -⟩ := run_spec E m hm ctx validate bs t hw hs hb
  obtain ⟨s0, s1, s2⟩ := run_sets E m hm ctx validate bs t hw hs hb
  unfold Tally.batchAppend Tally.batchAppendIter
  rw [batchLoop_eq E m ctx validate bs he t []]
  simp only [Prod.mk.injEq, true_and]
  rw [hvc, foldl_addSpoiled, ← hspoil]
  simp only
  have hfin : ∀ (x y : Tally), x.objectId = y.objectId → x.castIds = y.castIds → x.spoiledIds = y.spoiledIds →
      x.contests = y.contests → x = y := by
    rintro ⟨⟩ ⟨⟩ h1 h2 h3 h4; simp_all
  refine hfin _ _ s0.symm ?_ s2.symm ?_
  · rw [s1, hcast, recordCast_eq]
  · rw [r1, hcast]
    unfold executeAccumulate bump
    simp only [schedule, if_true]
    refine List.map_congr_left (fun e hemem => ?_)
    have hinner : e.2.selections.map (fun s =>
        match dget (((castOf bs).foldl (fun d b => collectBallot b d) []).map
            (fun e : String × List (String × Ciphertext) => (e.1, batchSum E.P e.2))) s.1 with
        | none => s
        | some c => (s.1, { s.2 with ciphertext := ctMul E.P s.2.ciphertext c }))
        = e.2.selections.map (fun s => (s.1, { s.2 with
          ciphertext := ((castOf bs).flatMap (fun b => contribution b.contests e.1 s.1)).foldl (ctMul E.P)
            s.2.ciphertext })) := by
      refine List.map_congr_left (fun s hsmem => ?_)
      obtain ⟨d, hd, hde, hks⟩ := hs.sels e.1 e.2 (dget_of_mem hw.keys hemem)
      obtain ⟨sd, hsd, hsde⟩ := hks s.1 (List.mem_map_of_mem hsmem)
      have hsub : ∀ b ∈ castOf bs, b ∈ bs := fun b hb => (List.mem_filter.1 hb).1
      have hget := collectAll_get (castOf bs) (fun b hb' => by
          have := (hsep b (hsub b hb')).ids
          rw [flat, List.map_flatMap]; exact this)
        (hid.sublist (List.filter_sublist.map _)) s.1 [] [] rfl (by simp [dkeys])
      rw [List.nil_append] at hget
      rw [dget_map_snd' _ (fun e : String × List (String × Ciphertext) => batchSum E.P e.2), hget]
      have hvals : ((castOf bs).flatMap (given s.1)).map (fun e => e.2)
          = (castOf bs).flatMap (fun b => contribution b.contests e.1 s.1) := by
        rw [List.map_flatMap]
        rw [← hde, ← hsde]
        have : ∀ l : List SBallot, (∀ b ∈ l, b ∈ bs) →
            l.flatMap (fun b => (given sd.objectId b).map (fun e => e.2))
              = l.flatMap (fun b => contribution b.contests d.objectId sd.objectId) := by
          intro l hl
          induction l with
          | nil => rfl
          | cons b l ih =>
            rw [List.flatMap_cons, List.flatMap_cons, ih (fun x hx => hl x (List.mem_cons_of_mem _ hx)),
              given_eq b m (hsep b (hl b List.mem_cons_self)) d hd sd hsd]
        exact this _ hsub
      rw [← hvals]
      unfold entry
      split
      · rename_i h
        split at h
        · rename_i h'; rw [h']; rfl
        · cases h
      · rename_i c h
        split at h
        · cases h
        · rename_i hne
          simp only [Option.map_some, Option.some.injEq] at h
          rw [← h, batchSum_eq E.P _ _ hne]
    exact congrArg (fun l => (e.1, { e.2 with selections := l })) hinner

/-- A batch of two honest ballots satisfies the conditions, and both ways give two votes. -/
example :
    let bs := [toySubmit "b" "t" 1 0 1 0 .cast, toySubmit "b2" "s" 1 0 0 3 .cast]
    let t := newTally toyEnv "t" toyIM
    (bs.map (fun b => b.objectId)).Nodup ∧ (∀ b ∈ bs, t.contains b = false ∧
      ballotIsValidForElection toyEnv b.toCBallot toyIM toyCtx true = .ok true) ∧
    ((t.batchAppend toyEnv toyIM toyCtx true bs true).2.total "c" "sx").map
      (fun c => (c.decrypt extraSmall 10 5).toOption) = some (some 2) ∧
    ((runAppends toyEnv toyIM toyCtx true true t bs).2.total "c" "sx").map
      (fun c => (c.decrypt extraSmall 10 5).toOption) = some (some 2) := by decide +kernel

private theorem toy_tallied_twice :
    let b := toySubmit "b" "t" 1 0 1 0 .cast
    let t := ((newTally toyEnv "t" toyIM).append toyEnv toyIM toyCtx true b true).2
    ((t.batchAppend toyEnv toyIM toyCtx true [b] true).2.total "c" "sx").map
      (fun c => (c.decrypt extraSmall 10 5).toOption) = some (some 2) ∧
    ((runAppends toyEnv toyIM toyCtx true true t [b]).2.total "c" "sx").map
      (fun c => (c.decrypt extraSmall 10 5).toOption) = some (some 1) := by decide +kernel

/-- C37 fails for a ballot that was tallied before: the batch counts it a second time. -/
theorem C37_tallied_before_fails : ∃ (E : Env) (m : InternalManifest) (ctx : Context) (t : Tally) (b : SBallot) (a : Nat),
    E.P.Valid ∧ t = ((newTally E "t" m).append E m ctx true b true).2 ∧
    ((t.batchAppend E m ctx true [b] true).2.total "c" "sx").map (fun c => (c.decrypt E.P 10 a).toOption)
      = some (some 2) ∧
    ((runAppends E m ctx true true t [b]).2.total "c" "sx").map (fun c => (c.decrypt E.P 10 a).toOption)
      = some (some 1) :=
  ⟨toyEnv, toyIM, toyCtx, _, toySubmit "b" "t" 1 0 1 0 .cast, 5, extraSmall_valid, rfl, toy_tallied_twice⟩

/-- A cast ballot whose contests were removed. -/
def toyEmptied : SBallot := { toySubmit "b" "t" 1 0 1 0 .cast with contests := [] }

private theorem toy_invalid_recorded :
    ((newTally toyEnv "t" toyIM).batchAppend toyEnv toyIM toyCtx true [toyEmptied] true).2.castIds = ["b"] ∧
    (runAppends toyEnv toyIM toyCtx true true (newTally toyEnv "t" toyIM) [toyEmptied]).2.castIds = [] := by
  decide +kernel

/-- C37 fails for an invalid cast ballot: the batch records its id as cast, so that a valid ballot with this id is
refused later; appending it does not record it. -/
theorem C37_invalid_recorded_fails : ∃ (E : Env) (m : InternalManifest) (ctx : Context) (t : Tally) (b : SBallot),
    E.P.Valid ∧ (t.batchAppend E m ctx true [b] true).2.castIds = ["b"] ∧
    (runAppends E m ctx true true t [b]).2.castIds = [] :=
  ⟨toyEnv, toyIM, toyCtx, newTally toyEnv "t" toyIM, toyEmptied, extraSmall_valid, toy_invalid_recorded⟩

private theorem toy_one_shot :
    let b := toySubmit "b" "t" 1 0 1 0 .cast
    let r := (newTally toyEnv "t" toyIM).batchAppendIter toyEnv toyIM toyCtx true [b] [] true
    r.1 = .ok true ∧ r.2.castIds = [] ∧
    (r.2.total "c" "sx").map (fun c => (c.decrypt extraSmall 10 5).toOption) = some (some 1) := by decide +kernel

/-- C37 fails for an iterator that can be consumed only once: the votes are counted, but the id is not recorded. -/
theorem C37_one_shot_iterator_fails : ∃ (E : Env) (m : InternalManifest) (ctx : Context) (t : Tally) (b : SBallot)
    (a : Nat), E.P.Valid ∧
    let r := t.batchAppendIter E m ctx true [b] [] true
    r.1 = .ok true ∧ r.2.castIds = [] ∧
    (r.2.total "c" "sx").map (fun c => (c.decrypt E.P 10 a).toOption) = some (some 1) :=
  ⟨toyEnv, toyIM, toyCtx, newTally toyEnv "t" toyIM, toySubmit "b" "t" 1 0 1 0 .cast, 5, extraSmall_valid, toy_one_shot⟩

/-! ## Batches of any ballots -/

/-- Everything that the given ballots hold for a selection id, in any contest, placeholders too: the ballot ids with the
ciphertexts, in order. -/
def heldFor (bs : List SBallot) (sid : String) : List (String × Ciphertext) :=
  bs.flatMap (fun b => (b.contests.flatMap (fun c => c.ballotSelections.filter (fun s => s.objectId == sid))).map
    (fun s => (b.objectId, s.ciphertext)))

/-- The last ciphertext with a ballot id in a list. -/
def lastFor (l : List (String × Ciphertext)) (k : String) : Option Ciphertext :=
  ((l.filter (fun e => e.1 == k)).getLast?).map (fun e => e.2)

private theorem foldl_dset_get (l : List (String × Ciphertext)) : ∀ (d : List (String × Ciphertext)) (k : String),
    dget (l.foldl (fun d e => dset d e.1 e.2) d) k = (lastFor l k).or (dget d k) := by
  induction l with
  | nil => intros; simp [lastFor]
  | cons e l ih =>
    intro d k
    rw [List.foldl_cons, ih, dget_dset]
    unfold lastFor
    rw [List.filter_cons]
    by_cases h : e.1 = k
    · rw [if_pos h, if_pos (by simpa using h), List.getLast?_cons]
      cases (l.filter (fun e => e.1 == k)).getLast? <;> simp
    · rw [if_neg h, if_neg (by simpa using h)]

private theorem foldl_dset_keys (l : List (String × Ciphertext)) : ∀ (d : List (String × Ciphertext)),
    (dkeys d).Nodup → (dkeys (l.foldl (fun d e => dset d e.1 e.2) d)).Nodup := by
  induction l with
  | nil => intro d h; exact h
  | cons e l ih => intro d h; exact ih _ (dset_nodup h _ _)

private theorem collect_any (b : SBallot) (d : BatchDict) (sid : String) (l : List (String × Ciphertext))
    (hd : dget d sid = entry l) :
    dget (collectBallot b d) sid = entry ((heldFor [b] sid).foldl (fun d e => dset d e.1 e.2) l) := by
  have h0 : collectBallot b d = (flat b).foldl (fun d s =>
      dset d s.objectId (dset ((dget d s.objectId).getD []) b.objectId s.ciphertext)) d := by
    unfold collectBallot flat
    rw [List.foldl_flatMap]
  have h1 : heldFor [b] sid = ((flat b).filter (fun s => s.objectId == sid)).map (fun s => (b.objectId, s.ciphertext)) := by
    unfold heldFor flat
    rw [List.flatMap_cons, List.flatMap_nil, List.append_nil, List.filter_flatMap]
  rw [h0, h1]
  clear h0 h1
  generalize flat b = fs
  induction fs generalizing d l with
  | nil => simpa using hd
  | cons s fs ih =>
    rw [List.foldl_cons, List.filter_cons]
    by_cases hs : s.objectId = sid
    · rw [if_pos (by simpa using hs), List.map_cons, List.foldl_cons]
      refine ih _ _ ?_
      rw [dget_dset, if_pos hs, hs, hd, entry_getD]
      unfold entry
      rw [if_neg]
      intro hc
      have := dget_dset l b.objectId b.objectId s.ciphertext
      rw [hc, if_pos rfl] at this
      cases this
    · rw [if_neg (by simpa using hs)]
      exact ih _ _ (by rw [dget_dset, if_neg hs]; exact hd)

private theorem collectAll_any (bs : List SBallot) (sid : String) : ∀ (d : BatchDict) (l : List (String × Ciphertext)),
    dget d sid = entry l → dget (bs.foldl (fun d b => collectBallot b d) d) sid =
      entry ((heldFor bs sid).foldl (fun d e => dset d e.1 e.2) l) := by
  induction bs with
  | nil => intro d l h; simpa [heldFor] using h
  | cons b bs ih =>
    intro d l h
    have : heldFor (b :: bs) sid = heldFor [b] sid ++ heldFor bs sid := by simp [heldFor]
    rw [List.foldl_cons, ih _ _ (collect_any b d sid l h), this, List.foldl_append]

private theorem mem_foldl_setAdd (l : List String) : ∀ (s : List String) (x : String),
    x ∈ l.foldl setAdd s ↔ x ∈ s ∨ x ∈ l := by
  induction l with
  | nil => intros; simp
  | cons y l ih => intro s x; rw [List.foldl_cons, ih, setAdd_mem, List.mem_cons]; tauto

private def updated (P : Params) (results : List (String × Ciphertext)) (e : String × TallySelection) : TallySelection :=
  match dget results e.1 with
  | none => e.2
  | some c => { e.2 with ciphertext := ctMul P e.2.ciphertext c }

/-- **C37 for any ballots**, whatever their shape and their ids, in a batch whose validation does not raise: `batch_append`
answers True; the total of a selection is multiplied, for each ballot id, by the *last* ciphertext that the valid cast
ballots of the batch hold for the selection id — in whatever contest; the ids of all cast ballots, valid or not, are
recorded as cast, and those of the valid spoiled ballots as spoiled. -/
theorem C37_any (E : Env) (m : InternalManifest) (ctx : Context) (validate : Bool) (t : Tally) (bs : List SBallot)
    (he : ∀ b ∈ bs, ∃ r, ballotIsValidForElection E b.toCBallot m ctx validate = .ok r) :
    let r := t.batchAppend E m ctx true bs validate
    let counted := bs.filter (fun b => decide (b.state = .cast ∧
      ballotIsValidForElection E b.toCBallot m ctx validate = .ok true))
    r.1 = .ok true ∧
    (∀ x, x ∈ r.2.castIds ↔ x ∈ t.castIds ∨ ∃ b ∈ bs, b.state = .cast ∧ b.objectId = x) ∧
    (∀ x, x ∈ r.2.spoiledIds ↔ x ∈ t.spoiledIds ∨ ∃ b ∈ bs, b.state = .spoiled ∧ b.objectId = x ∧
      ballotIsValidForElection E b.toCBallot m ctx validate = .ok true) ∧
    ∀ sid, ∃ l : List (String × Ciphertext), (dkeys l).Nodup ∧
      (∀ k c, (k, c) ∈ l ↔ lastFor (heldFor counted sid) k = some c) ∧
      ∀ cid, r.2.total cid sid = (t.total cid sid).map (fun x => (l.map (fun e => e.2)).foldl (ctMul E.P) x) := by
  intro r counted
  have hr : r = t.batchAppendIter E m ctx true bs bs validate := rfl
  unfold Tally.batchAppendIter at hr
  rw [batchLoop_eq E m ctx validate bs he t [], foldl_addSpoiled] at hr
  simp only at hr
  rw [hr]
  refine ⟨rfl, fun x => ?_, fun x => ?_, fun sid => ?_⟩
  · simp only [recordCast_eq, mem_foldl_setAdd, castOf, List.mem_map, List.mem_filter, decide_eq_true_eq, and_assoc]
  · simp only [mem_foldl_setAdd, List.mem_map, List.mem_filter, decide_eq_true_eq]
    refine or_congr Iff.rfl (exists_congr fun b => ?_)
    tauto
  · refine ⟨(heldFor counted sid).foldl (fun d e => dset d e.1 e.2) [], foldl_dset_keys _ _ (by simp [dkeys]), ?_, ?_⟩
    · intro k c
      have hn := foldl_dset_keys (heldFor counted sid) [] (by simp [dkeys])
      have hg := foldl_dset_get (heldFor counted sid) [] k
      rw [dget_nil, Option.or_none] at hg
      rw [← hg]
      exact ⟨fun h => dget_of_mem hn h, fun h => mem_of_dget h⟩
    · intro cid
      have hget := collectAll_any counted sid [] [] rfl
      generalize (heldFor counted sid).foldl (fun d e => dset d e.1 e.2) [] = l at hget
      unfold Tally.total executeAccumulate
      simp only [schedule, if_true]
      rw [dget_map_snd' _ (fun tc : String × TallyContest => ({ tc.2 with selections := _ } : TallyContest))]
      cases dget t.contests cid with
      | none => rfl
      | some tc =>
        simp only [Option.map_some, Option.bind_some]
        have hre : tc.selections.map (fun e =>
            match dget ((counted.foldl (fun d b => collectBallot b d) []).map
                (fun e : String × List (String × Ciphertext) => (e.1, batchSum E.P e.2))) e.1 with
            | none => e
            | some c => (e.1, { e.2 with ciphertext := ctMul E.P e.2.ciphertext c }))
            = tc.selections.map (fun e => (e.1, updated E.P ((counted.foldl (fun d b => collectBallot b d) []).map
                (fun e : String × List (String × Ciphertext) => (e.1, batchSum E.P e.2))) e)) := by
          refine List.map_congr_left (fun e _ => ?_)
          unfold updated
          split <;> rename_i h <;> rfl
        have hre' := congrArg (fun x => (dget x sid).map TallySelection.ciphertext) hre
        refine hre'.trans ?_
        rw [dget_map_snd' tc.selections (updated E.P _)]
        rw [Option.map_map, Option.map_map]
        congr 1
        funext ts
        simp only [Function.comp_apply, updated]
        rw [dget_map_snd' _ (fun e : String × List (String × Ciphertext) => batchSum E.P e.2), hget]
        unfold entry
        by_cases hl : l = []
        · simp [hl]
        · rw [if_neg hl]
          simp only [Option.map_some]
          exact batchSum_eq E.P _ l hl

/-- C37 When the validation of a ballot of the batch raises, `batch_append` raises, the totals and the cast set stay, and the
valid spoiled ballots before it are recorded. -/
theorem C37_raises (E : Env) (m : InternalManifest) (ctx : Context) (validate : Bool) (t : Tally)
    (pre post : List SBallot) (b : SBallot) (e : Err)
    (hp : ∀ x ∈ pre, ∃ r, ballotIsValidForElection E x.toCBallot m ctx validate = .ok r)
    (hb : ballotIsValidForElection E b.toCBallot m ctx validate = .error e) :
    let r := t.batchAppend E m ctx true (pre ++ b :: post) validate
    r.1 = .error e ∧ r.2.contests = t.contests ∧ r.2.castIds = t.castIds ∧
    ∀ x, x ∈ r.2.spoiledIds ↔ x ∈ t.spoiledIds ∨ ∃ y ∈ pre, y.state = .spoiled ∧ y.objectId = x ∧
      ballotIsValidForElection E y.toCBallot m ctx validate = .ok true := by
  intro r
  have hloop : ∀ (pre : List SBallot) (t : Tally) (d : BatchDict),
      (∀ x ∈ pre, ∃ r, ballotIsValidForElection E x.toCBallot m ctx validate = .ok r) →
      batchLoop E m ctx validate (pre ++ b :: post) t d = (.error e,
        (pre.filter (fun b => decide (b.state = .spoiled ∧
          ballotIsValidForElection E b.toCBallot m ctx validate = .ok true))).foldl addSpoiled t) := by
    intro pre
    induction pre with
    | nil => intro t d _; simp [batchLoop, hb]
    | cons x pre ih =>
      intro t d hx
      have ih := fun t d => ih t d (fun y hy => hx y (List.mem_cons_of_mem _ hy))
      obtain ⟨r, hr⟩ := hx x List.mem_cons_self
      rw [List.cons_append, batchLoop, hr]
      cases r with
      | false => simp only [List.filter_cons, hr]; simp [ih]
      | true => cases hst : x.state <;> simp only [List.filter_cons, hr, hst] <;> simp [ih]
  have hr : r = t.batchAppendIter E m ctx true (pre ++ b :: post) (pre ++ b :: post) validate := rfl
  unfold Tally.batchAppendIter at hr
  rw [hloop pre t [] hp, foldl_addSpoiled] at hr
  simp only at hr
  rw [hr]
  refine ⟨rfl, rfl, rfl, fun x => ?_⟩
  simp only [mem_foldl_setAdd, List.mem_map, List.mem_filter, decide_eq_true_eq]
  refine or_congr Iff.rfl (exists_congr fun b => ?_)
  tauto

/-- A ballot of the batch with the contest of another one repeated, and two ballots with the same id: only the last
ciphertext of each id is counted. -/
example :
    let bs := [toySubmit "b" "s" 1 0 0 3 .cast, toySubmit "b" "s" 0 1 0 1 .cast]
    (bs.all (fun b => decide (ballotIsValidForElection toyEnv b.toCBallot toyIM toyCtx true = .ok true))) = true ∧
    (heldFor bs "sx").length = 2 ∧
    lastFor (heldFor bs "sx") "b" = ((heldFor [toySubmit "b" "s" 0 1 0 1 .cast] "sx").map (fun e => e.2)).head? ∧
    (((newTally toyEnv "t" toyIM).batchAppend toyEnv toyIM toyCtx true bs true).2.total "c" "sx").map
      (fun c => (c.decrypt extraSmall 10 5).toOption) = some (some 0) := by decide +kernel

end EG
