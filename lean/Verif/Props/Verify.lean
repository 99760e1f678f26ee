import Verif.Spec.Verify
import Verif.Props.Batch
import Mathlib.Data.List.Perm.Subperm

/-!
# C56: the aggregation verifier
-/

namespace EG

variable {E : Env}

theorem setEq_iff {a b : List String} (ha : a.Nodup) (hb : b.Nodup) : setEq a b = true ↔ ∀ x, x ∈ a ↔ x ∈ b := by
  unfold setEq
  rw [Bool.and_eq_true, beq_iff_eq, List.all_eq_true]
  simp only [decide_eq_true_eq]
  constructor
  · rintro ⟨h1, h2⟩ x
    exact ((List.subperm_of_subset ha h2).perm_of_length_le (by omega)).mem_iff
  · intro h
    exact ⟨((List.perm_ext_iff_of_nodup ha hb).2 h).length_eq, fun x hx => (h x).1 hx⟩

theorem dictEq_iff {β : Type} {eq : β → β → Bool} {a b : List (String × β)} (ha : (dkeys a).Nodup)
    (hb : (dkeys b).Nodup) : dictEq eq a b = true ↔ ∀ k, (dget a k = none ∧ dget b k = none) ∨
      ∃ x y, dget a k = some x ∧ dget b k = some y ∧ eq x y = true := by
  have hlen : ∀ d : List (String × β), d.length = (dkeys d).length := fun d => by simp [dkeys]
  unfold dictEq
  rw [Bool.and_eq_true, beq_iff_eq, List.all_eq_true, hlen a, hlen b]
  constructor
  · rintro ⟨h1, h2⟩
    have hsub : ∀ k ∈ dkeys a, k ∈ dkeys b := by
      intro k hk
      obtain ⟨v, hv⟩ := (mem_dkeys_iff a k).1 hk
      have := h2 _ (mem_of_dget hv)
      simp only at this
      cases hd : dget b k with
      | none => rw [hd] at this; cases this
      | some w => exact (mem_dkeys_iff b k).2 ⟨w, hd⟩
    have hperm := (List.subperm_of_subset ha hsub).perm_of_length_le (by omega)
    intro k
    cases hk : dget a k with
    | none =>
      left
      refine ⟨rfl, ?_⟩
      rw [dget_eq_none_iff, ← hperm.mem_iff, ← dget_eq_none_iff]
      exact hk
    | some x =>
      right
      have := h2 _ (mem_of_dget hk)
      simp only at this
      cases hd : dget b k with
      | none => rw [hd] at this; cases this
      | some y => rw [hd] at this; exact ⟨x, y, rfl, rfl, this⟩
  · intro h
    have hkeys : ∀ k, k ∈ dkeys a ↔ k ∈ dkeys b := by
      intro k
      rw [mem_dkeys_iff, mem_dkeys_iff]
      rcases h k with ⟨h1, h2⟩ | ⟨x, y, h1, h2, -⟩
      · rw [h1, h2]
      · rw [h1, h2]; exact ⟨fun _ => ⟨y, rfl⟩, fun _ => ⟨x, rfl⟩⟩
    refine ⟨((List.perm_ext_iff_of_nodup ha hb).2 hkeys).length_eq, ?_⟩
    intro e he
    have he' := dget_of_mem ha (k := e.1) (v := e.2) he
    rcases h e.1 with ⟨h1, -⟩ | ⟨x, y, h1, h2, h3⟩
    · rw [h1] at he'; cases he'
    · rw [h1] at he'; cases he'
      rw [h2]; exact h3

theorem TallySelection.eq_iff (a b : TallySelection) : TallySelection.eq a b = true ↔ a = b := by
  obtain ⟨a1, a2, a3, a4, a5⟩ := a
  obtain ⟨b1, b2, b3, b4, b5⟩ := b
  simp [TallySelection.eq, and_assoc]

theorem TallyContest.eq_iff {a b : TallyContest} (ha : (dkeys a.selections).Nodup) (hb : (dkeys b.selections).Nodup) :
    TallyContest.eq a b = true ↔ SameContest a b := by
  unfold TallyContest.eq
  rw [Bool.and_eq_true, Bool.and_eq_true, Bool.and_eq_true, beq_iff_eq, beq_iff_eq, beq_iff_eq, dictEq_iff ha hb]
  constructor
  · rintro ⟨⟨⟨h1, h2⟩, h3⟩, h4⟩
    refine ⟨h1, h2, h3, fun sid => ?_⟩
    rcases h4 sid with ⟨g1, g2⟩ | ⟨x, y, g1, g2, g3⟩
    · rw [g1, g2]
    · rw [g1, g2, (TallySelection.eq_iff x y).1 g3]
  · rintro ⟨h1, h2, h3, h4⟩
    refine ⟨⟨⟨h1, h2⟩, h3⟩, fun sid => ?_⟩
    cases hs : dget a.selections sid with
    | none => exact Or.inl ⟨rfl, by rw [← h4 sid]; exact hs⟩
    | some x => exact Or.inr ⟨x, x, rfl, by rw [← h4 sid]; exact hs, (TallySelection.eq_iff x x).2 rfl⟩

theorem sameTally_iff {a b : Tally} (ha : a.WF) (hb : b.WF) :
    (setEq a.castIds b.castIds && setEq a.spoiledIds b.spoiledIds && dictEq TallyContest.eq a.contests b.contests)
      = true ↔ SameTally a b := by
  rw [Bool.and_eq_true, Bool.and_eq_true, setEq_iff ha.cast hb.cast, setEq_iff ha.spoiled hb.spoiled,
    dictEq_iff ha.contests.keys hb.contests.keys]
  have hc : ∀ cid x y, dget a.contests cid = some x → dget b.contests cid = some y →
      (TallyContest.eq x y = true ↔ SameContest x y) := fun cid x y hx hy =>
    TallyContest.eq_iff (ha.contests.sels _ (mem_of_dget hx)) (hb.contests.sels _ (mem_of_dget hy))
  constructor
  · rintro ⟨⟨h1, h2⟩, h3⟩
    refine ⟨h1, h2, fun cid => ?_⟩
    rcases h3 cid with g | ⟨x, y, g1, g2, g3⟩
    · exact Or.inl g
    · exact Or.inr ⟨x, y, g1, g2, (hc cid x y g1 g2).1 g3⟩
  · rintro ⟨h1, h2, h3⟩
    refine ⟨⟨h1, h2⟩, fun cid => ?_⟩
    rcases h3 cid with g | ⟨x, y, g1, g2, g3⟩
    · exact Or.inl g
    · exact Or.inr ⟨x, y, g1, g2, (hc cid x y g1 g2).2 g3⟩

theorem setAdd_nodup {s : List String} (h : s.Nodup) (x : String) : (setAdd s x).Nodup := by
  unfold setAdd
  split
  · exact h
  · rename_i hx
    rw [List.nodup_append]
    refine ⟨h, List.nodup_singleton x, ?_⟩
    intro a ha b hb
    rw [List.mem_singleton] at hb
    subst hb
    rintro rfl
    exact hx ha

theorem append_wf (m : InternalManifest) (ctx : Context) (up : Bool) (t : Tally) (b : SBallot) (validate : Bool)
    (h : t.WF) (hs : Shape m t.contests) : (t.append E m ctx up b validate).2.WF := by
  refine ⟨?_, ?_, (append_keeps E m ctx up t b validate h.contests hs).1⟩
  all_goals
    unfold Tally.append
    split
    · first | exact h.cast | exact h.spoiled
    · split
      · first | exact h.cast | exact h.spoiled
      · split
        · first | exact h.cast | exact h.spoiled
        · first | exact h.cast | exact h.spoiled
        · split
          · simp only [addCast]
            split
            · first | exact setAdd_nodup h.cast _ | exact h.spoiled
            · first | exact h.cast | exact h.spoiled
          · first | exact setAdd_nodup h.spoiled _ | exact h.cast
          · first | exact h.cast | exact h.spoiled

theorem runAppends_wf (m : InternalManifest) (ctx : Context) (up validate : Bool) (bs : List SBallot) (t : Tally)
    (h : t.WF) (hs : Shape m t.contests) : (runAppends E m ctx up validate t bs).2.WF := by
  induction bs generalizing t with
  | nil => exact h
  | cons b bs ih =>
    exact ih _ (append_wf m ctx up t b validate h hs) (append_keeps E m ctx up t b validate h.contests hs).2

theorem newTally_WF (id : String) (m : InternalManifest) : (newTally E id m).WF :=
  ⟨List.nodup_nil, List.nodup_nil, newTally_wf E m⟩

/-- No call of `append` in the sequence raises. -/
def NoRaise (E : Env) (m : InternalManifest) (ctx : Context) (up : Bool) (t : Tally) (bs : List SBallot) : Prop :=
  ∀ pre b post, bs = pre ++ b :: post →
    ∃ r, ((runAppends E m ctx up true t pre).2.append E m ctx up b true).1 = .ok r

theorem noRaise_cons {m : InternalManifest} {ctx : Context} {up : Bool} {t : Tally} {b : SBallot} {bs : List SBallot} :
    NoRaise E m ctx up t (b :: bs) ↔ (∃ r, (t.append E m ctx up b true).1 = .ok r) ∧
      NoRaise E m ctx up (t.append E m ctx up b true).2 bs := by
  constructor
  · intro h
    refine ⟨h [] b bs rfl, fun pre b' post hp => ?_⟩
    have := h (b :: pre) b' post (by rw [hp]; rfl)
    exact this
  · rintro ⟨h1, h2⟩ pre b' post hp
    cases pre with
    | nil =>
      rw [List.nil_append, List.cons.injEq] at hp
      rw [← hp.1]
      exact h1
    | cons x pre =>
      rw [List.cons_append, List.cons.injEq] at hp
      obtain ⟨rfl, hp⟩ := hp
      exact h2 pre b' post hp

theorem appendAll_ok (m : InternalManifest) (ctx : Context) (up : Bool) (bs : List SBallot) (t : Tally)
    (h : NoRaise E m ctx up t bs) : appendAll E m ctx up bs t = .ok (runAppends E m ctx up true t bs).2 := by
  induction bs generalizing t with
  | nil => rfl
  | cons b bs ih =>
    obtain ⟨⟨r, hr⟩, h2⟩ := noRaise_cons.1 h
    have hih := ih _ h2
    unfold appendAll
    cases ha : t.append E m ctx up b true with
    | mk x t' =>
      rw [ha] at hr hih
      simp only at hr hih
      subst hr
      simp only [hih, runAppends, ha]

theorem appendAll_error (m : InternalManifest) (ctx : Context) (up : Bool) (bs : List SBallot) (t : Tally)
    (h : ¬ NoRaise E m ctx up t bs) : ∃ e, appendAll E m ctx up bs t = .error e := by
  induction bs generalizing t with
  | nil => exact absurd (fun pre b post hp => by simp at hp) h
  | cons b bs ih =>
    unfold appendAll
    cases ha : t.append E m ctx up b true with
    | mk x t' =>
      cases x with
      | error e => exact ⟨e, rfl⟩
      | ok r =>
        refine ih _ (fun h2 => h (noRaise_cons.2 ⟨⟨r, by rw [ha]⟩, ?_⟩))
        rw [ha]
        exact h2

/-- C56 `verify_aggregation` returns success exactly when appending the submitted ballots to a new tally, which must not
raise, gives the cast ids, the spoiled ids and the contests of the published tally. -/
theorem C56_success_iff (up : Bool) (bs : List SBallot) (t : Tally) (m : Manifest) (im : InternalManifest)
    (ctx : Context) (him : mkInternalManifest E m = .ok im) (ht : t.WF) :
    verifyAggregation E up bs t m ctx = .ok true ↔ NoRaise E im ctx up (newTally E "verify" im) bs ∧
      SameTally (runAppends E im ctx up true (newTally E "verify" im) bs).2 t := by
  unfold verifyAggregation
  simp only [him, bind, Except.bind, pure, Except.pure]
  by_cases hr : NoRaise E im ctx up (newTally E "verify" im) bs
  · rw [appendAll_ok im ctx up bs _ hr]
    have hw := runAppends_wf (E := E) im ctx up true bs _ (newTally_WF (E := E) "verify" im) (newTally_shape E im)
    simp only [hr, true_and]
    split
    · rename_i h; rw [sameTally_iff hw ht] at h; simp [h]
    · rename_i h; rw [sameTally_iff hw ht] at h; simp [h]
  · obtain ⟨e, he⟩ := appendAll_error im ctx up bs _ hr
    rw [he]
    simp [hr]

/-- C56 It reports a mismatch exactly when re-tallying does not raise and gives something else. -/
theorem C56_mismatch_iff (up : Bool) (bs : List SBallot) (t : Tally) (m : Manifest) (im : InternalManifest)
    (ctx : Context) (him : mkInternalManifest E m = .ok im) (ht : t.WF) :
    verifyAggregation E up bs t m ctx = .ok false ↔ NoRaise E im ctx up (newTally E "verify" im) bs ∧
      ¬ SameTally (runAppends E im ctx up true (newTally E "verify" im) bs).2 t := by
  unfold verifyAggregation
  simp only [him, bind, Except.bind, pure, Except.pure]
  by_cases hr : NoRaise E im ctx up (newTally E "verify" im) bs
  · rw [appendAll_ok im ctx up bs _ hr]
    have hw := runAppends_wf (E := E) im ctx up true bs _ (newTally_WF (E := E) "verify" im) (newTally_shape E im)
    simp only [hr, true_and]
    split
    · rename_i h; rw [sameTally_iff hw ht] at h; simp [h]
    · rename_i h; rw [sameTally_iff hw ht] at h; simp [h]
  · obtain ⟨e, he⟩ := appendAll_error im ctx up bs _ hr
    rw [he]
    simp [hr]

theorem SameTally.total {a b : Tally} (h : SameTally a b) (cid sid : String) : a.total cid sid = b.total cid sid := by
  unfold Tally.total
  rcases h.contests cid with ⟨h1, h2⟩ | ⟨x, y, h1, h2, h3⟩
  · rw [h1, h2]
  · rw [h1, h2]
    simp only [Option.bind_some]
    rw [h3.selections sid]

/-- C56 Soundness in terms of the published numbers: on success, every published total is the product of the ciphertexts
of ballots of the list that are valid, cast and pairwise different in their ids, and the two published sets are the ids of the
accepted ballots.  Partial: for regular ballots, as in C35. -/
theorem C56_sound_partial (hp : 1 < E.P.p) (bs : List SBallot) (t : Tally) (m : Manifest) (im : InternalManifest)
    (ctx : Context) (him : mkInternalManifest E m = .ok im) (hm : TallyManifest im) (ht : t.WF)
    (hb : ∀ b ∈ bs, b.toCBallot.Regular im) (h : verifyAggregation E true bs t m ctx = .ok true) :
    ∃ accepted : List SBallot, accepted.Sublist bs ∧ (accepted.map (fun b => b.objectId)).Nodup ∧
      (∀ b ∈ accepted, ballotIsValidForElection E b.toCBallot im ctx true = .ok true) ∧
      (∀ x, x ∈ t.castIds ↔ ∃ b ∈ accepted, b.state = .cast ∧ b.objectId = x) ∧
      (∀ x, x ∈ t.spoiledIds ↔ ∃ b ∈ accepted, b.state = .spoiled ∧ b.objectId = x) ∧
      ∀ d ∈ im.contests, ∀ sd ∈ d.ballotSelections, ∃ c, t.total d.objectId sd.objectId = some c ∧
        IsProduct E.P c ((castOf accepted).flatMap (fun b => contribution b.contests d.objectId sd.objectId)) := by
  obtain ⟨-, hsame⟩ := (C56_success_iff true bs t m im ctx him ht).1 h
  obtain ⟨h1, h2, h3, h4, h5, h6⟩ := C35_total_partial E hp im hm ctx "verify" true bs hb
  refine ⟨_, h2, h3, h6, fun x => (hsame.cast x).symm.trans (h4 x), fun x => (hsame.spoiled x).symm.trans (h5 x), ?_⟩
  intro d hd sd hsd
  obtain ⟨c, hc, hprod⟩ := h1 d hd sd hsd
  exact ⟨c, by rw [← hsame.total]; exact hc, hprod⟩

theorem SameContest.refl (a : TallyContest) : SameContest a a := ⟨rfl, rfl, rfl, fun _ => rfl⟩

theorem SameTally.of_contests {a b : Tally} (h1 : a.contests = b.contests) (h2 : ∀ x, x ∈ a.castIds ↔ x ∈ b.castIds)
    (h3 : ∀ x, x ∈ a.spoiledIds ↔ x ∈ b.spoiledIds) : SameTally a b := by
  refine ⟨h2, h3, fun cid => ?_⟩
  rw [h1]
  cases h : dget b.contests cid with
  | none => exact Or.inl ⟨rfl, rfl⟩
  | some x => exact Or.inr ⟨x, x, rfl, rfl, SameContest.refl x⟩

theorem append_id (m : InternalManifest) (ctx : Context) (up : Bool) (t : Tally) (id : String) (b : SBallot)
    (validate : Bool) : ({ t with objectId := id } : Tally).append E m ctx up b validate =
      ((t.append E m ctx up b validate).1, { (t.append E m ctx up b validate).2 with objectId := id }) := by
  unfold Tally.append Tally.contains
  simp only
  split
  · rfl
  · split
    · rfl
    · split
      · rfl
      · rfl
      · cases b.state with
        | cast => simp only [addCast]; split <;> rfl
        | spoiled => rfl
        | unknown => rfl

theorem runAppends_id (m : InternalManifest) (ctx : Context) (up validate : Bool) (bs : List SBallot) (t : Tally)
    (id : String) : runAppends E m ctx up validate { t with objectId := id } bs =
      ((runAppends E m ctx up validate t bs).1, { (runAppends E m ctx up validate t bs).2 with objectId := id }) := by
  induction bs generalizing t with
  | nil => rfl
  | cons b bs ih =>
    simp only [runAppends, append_id, ih]

/-- C56 Completeness: the tally of the same ballots, appended in any order to a tally with any id, verifies, if the
validation of the ballots does not raise.  Partial: distinct ids and regular ballots, as in C39. -/
theorem C56_accepts_partial (bs bs' : List SBallot) (hperm : bs.Perm bs') (id : String) (m : Manifest)
    (im : InternalManifest) (ctx : Context) (him : mkInternalManifest E m = .ok im) (hm : TallyManifest im)
    (hid : (bs.map (fun b => b.objectId)).Nodup) (hb : ∀ b ∈ bs, b.toCBallot.Regular im)
    (hr : ∀ b ∈ bs, ∃ r, ballotIsValidForElection E b.toCBallot im ctx true = .ok r) :
    verifyAggregation E true bs (runAppends E im ctx true true (newTally E id im) bs').2 m ctx = .ok true := by
  have hwf := runAppends_wf (E := E) im ctx true true bs' _ (newTally_WF (E := E) id im) (newTally_shape E im)
  rw [C56_success_iff true bs _ m im ctx him hwf]
  constructor
  · intro pre b post hp
    obtain ⟨r, hr⟩ := hr b (by rw [hp]; simp)
    unfold Tally.append
    split
    · exact ⟨_, rfl⟩
    · split
      · exact ⟨_, rfl⟩
      · rw [hr]
        cases r with
        | false => exact ⟨_, rfl⟩
        | true =>
          cases b.state with
          | cast => exact ⟨_, rfl⟩
          | spoiled => exact ⟨_, rfl⟩
          | unknown => exact ⟨_, rfl⟩
  · obtain ⟨-, h2, h3, h4⟩ := C39_order_partial E im hm ctx true (newTally E "verify" im) (newTally_wf E im)
      (newTally_shape E im) bs bs' hperm hid hb
    have hn := runAppends_id (E := E) im ctx true true bs' (newTally E "verify" im) id
    rw [show newTally E id im = { newTally E "verify" im with objectId := id } from rfl, hn]
    refine SameTally.of_contests ?_ ?_ ?_
    · exact h2
    · exact h3
    · exact h4

/-- C56 Completeness for `tally_ballots`: the tally of a store verifies against its ballots in any order.  Partial: as in
C37, the cast ballots are valid, no validation raises, and the ballots are regular and separate. -/
theorem C56_accepts_store_partial (store : Store SBallot) (bs : List SBallot) (hperm : bs.Perm store.all) (t : Tally)
    (m : Manifest) (im : InternalManifest) (ctx : Context) (him : mkInternalManifest E m = .ok im)
    (hm : TallyManifest im) (hid : (bs.map (fun b => b.objectId)).Nodup)
    (hb : ∀ b ∈ bs, b.toCBallot.Regular im) (hsep : ∀ b ∈ bs, b.toCBallot.Separate im)
    (hr : ∀ b ∈ bs, ∃ r, ballotIsValidForElection E b.toCBallot im ctx true = .ok r)
    (hval : ∀ b ∈ bs, b.state = .cast → ballotIsValidForElection E b.toCBallot im ctx true = .ok true)
    (ht : tallyBallots E im ctx true store = .ok (some t)) :
    verifyAggregation E true bs t m ctx = .ok true := by
  have hmem : ∀ b ∈ store.all, b ∈ bs := fun b h => hperm.mem_iff.2 h
  have h := C37_batch_partial E im hm ctx true (newTally E "election-results" im) (newTally_wf E im)
    (newTally_shape E im) store.all (fun b h => hb b (hmem b h)) (fun b h => hsep b (hmem b h))
    ((hperm.map _).nodup_iff.1 hid) (fun b _ => by simp [Tally.contains, newTally]) (fun b h => hr b (hmem b h))
    (fun b h => hval b (hmem b h))
  unfold tallyBallots at ht
  rw [h] at ht
  simp only [Except.ok.injEq, Option.some.injEq] at ht
  rw [← ht]
  exact C56_accepts_partial bs store.all hperm _ m im ctx him hm hid hb hr

/-- Two cast ballots and a spoiled one of the toy election. -/
def toyVerified : List SBallot :=
  [toySubmit "b" "t" 1 0 1 0 .cast, toySubmit "v" "t" 0 1 1 5 .cast, toySubmit "b2" "t" 1 0 1 0 .spoiled]

/-- The tally of two ballots verifies, in another order too; without one of them, or with another number of votes, it does
not. -/
example :
    let t := (runAppends toyEnv toyIM toyCtx true true (newTally toyEnv "t" toyIM) (toyVerified.take 2)).2
    t.castIds = ["b", "v"] ∧
    verifyAggregation toyEnv true (toyVerified.take 2) t toyManifest toyCtx = .ok true ∧
    verifyAggregation toyEnv true (toyVerified.take 2).reverse t toyManifest toyCtx = .ok true ∧
    verifyAggregation toyEnv true (toyVerified.take 1) t toyManifest toyCtx = .ok false ∧
    verifyAggregation toyEnv true (toyVerified.take 2) { t with spoiledIds := ["v"] } toyManifest toyCtx
      = .ok false := by decide +kernel

end EG
