import Verif.Props.TallyAny
import Verif.Props.Verify

/-!
# C56 for ballots of any shape
-/

namespace EG

variable {E : Env}

/-- **C56 (partial).**  What a successful `verify_aggregation` of any ballots means: the totals are the products of what
the tried ballots hold in their leading contests, and the cast and spoiled ids are those of the accepted ballots.  Nothing
is assumed about the shape of the ballots; partial: no selection has the empty text as its id, and ballots with distinct
ids for the description of the sets. -/
theorem C56_any_sound_partial (hp : 1 < E.P.p) (bs : List SBallot) (t : Tally) (m : Manifest) (im : InternalManifest)
    (ctx : Context) (him : mkInternalManifest E m = .ok im) (hm : TallyManifest im) (hn : im.NamedSelections) (ht : t.WF)
    (hid : (bs.map (fun b => b.objectId)).Nodup) (h : verifyAggregation E true bs t m ctx = .ok true) :
    (∀ x, x ∈ t.castIds ↔ ∃ b ∈ bs, b.state = .cast ∧ b.objectId = x ∧
      ballotIsValidForElection E b.toCBallot im ctx true = .ok true ∧ ∀ c ∈ b.contests, c.complete im = true) ∧
    (∀ x, x ∈ t.spoiledIds ↔ ∃ b ∈ bs, b.state = .spoiled ∧ b.objectId = x ∧
      ballotIsValidForElection E b.toCBallot im ctx true = .ok true) ∧
    ∀ d ∈ im.contests, ∀ sd ∈ d.ballotSelections, ∃ c, t.total d.objectId sd.objectId = some c ∧
      IsProduct E.P c ((bs.filter (fun b => decide (b.state = .cast ∧
        ballotIsValidForElection E b.toCBallot im ctx true = .ok true))).flatMap
          (fun b => contribution (b.toCBallot.leading im) d.objectId sd.objectId)) := by
  obtain ⟨-, hsame⟩ := (C56_success_iff true bs t m im ctx him ht).1 h
  obtain ⟨h1, h2, h3, h4⟩ := run_distinct (E := E) hn ctx true bs hid (newTally E "verify" im) (newTally_keyShape E im hm)
  have hnew : ∀ b : SBallot, (newTally E "verify" im).contains b = false := fun b => by simp [newTally, Tally.contains]
  refine ⟨fun x => ?_, fun x => ?_, fun d hd sd hsd => ?_⟩
  · rw [← hsame.cast, h3, h1]
    simp only [List.mem_filter, Tally.takes, hnew, decide_eq_true_eq, List.all_eq_true]
    constructor
    · rintro (hx | ⟨b, ⟨hb, -, -, hv, hc⟩, hst, hx⟩)
      · simp [newTally] at hx
      · exact ⟨b, hb, hst, hx, hv, hc hst⟩
    · rintro ⟨b, hb, hst, hx, hv, hc⟩
      exact Or.inr ⟨b, ⟨hb, by rw [hst]; simp, trivial, hv, fun _ => hc⟩, hst, hx⟩
  · rw [← hsame.spoiled, h4, h1]
    simp only [List.mem_filter, Tally.takes, hnew, decide_eq_true_eq, List.all_eq_true]
    constructor
    · rintro (hx | ⟨b, ⟨hb, -, -, hv, -⟩, hst, hx⟩)
      · simp [newTally] at hx
      · exact ⟨b, hb, hst, hx, hv⟩
    · rintro ⟨b, hb, hst, hx, hv⟩
      exact Or.inr ⟨b, ⟨hb, by rw [hst]; simp, trivial, hv, fun hc => by rw [hst] at hc; cases hc⟩, hst, hx⟩
  · have h0 := newTally_total E "verify" im hm d.objectId sd.objectId
    rw [if_pos ⟨d, hd, rfl, sd, hsd, rfl⟩] at h0
    have hb := total_bump _ (runAppends E im ctx true true (newTally E "verify" im) bs).2 _ h2 d.objectId sd.objectId
    unfold Tally.total at h0
    rw [h0] at hb
    have hfil : bs.filter ((newTally E "verify" im).tries E im ctx true) = bs.filter (fun b => decide (b.state = .cast ∧
        ballotIsValidForElection E b.toCBallot im ctx true = .ok true)) :=
      List.filter_congr (fun b _ => by unfold Tally.tries; rw [hnew]; simp)
    rw [hfil] at hb
    exact ⟨_, by rw [← hsame.total]; exact hb, foldl_ctMul_product hp _⟩

/-- **C56 (partial).**  The tally of the same ballots, of any shape, appended in any order to a tally with any id, verifies,
if the validation of the ballots does not raise.  Partial: distinct ballot ids, no selection with an empty id. -/
theorem C56_any_accepts_partial (bs bs' : List SBallot) (hperm : bs.Perm bs') (id : String) (m : Manifest)
    (im : InternalManifest) (ctx : Context) (him : mkInternalManifest E m = .ok im) (hm : TallyManifest im)
    (hn : im.NamedSelections) (hid : (bs.map (fun b => b.objectId)).Nodup)
    (hr : ∀ b ∈ bs, ∃ r, ballotIsValidForElection E b.toCBallot im ctx true = .ok r) :
    verifyAggregation E true bs (runAppends E im ctx true true (newTally E id im) bs').2 m ctx = .ok true := by
  have hwf := runAppends_wf (E := E) im ctx true true bs' _ (newTally_WF (E := E) id im) (newTally_shape E im)
  rw [C56_success_iff true bs _ m im ctx him hwf]
  constructor
  · intro pre b post hp
    obtain ⟨r, hr⟩ := hr b (by rw [hp]; simp)
    unfold Tally.append
    split
    · exact ⟨_, rfl⟩
    · split
      · exact ⟨_, rfl⟩
      · rw [hr]
        cases r with
        | false => exact ⟨_, rfl⟩
        | true =>
          cases b.state with
          | cast => exact ⟨_, rfl⟩
          | spoiled => exact ⟨_, rfl⟩
          | unknown => exact ⟨_, rfl⟩
  · obtain ⟨-, h2, h3, h4⟩ := C39_any_partial E im hm hn ctx "verify" true true [] bs bs' hperm hid
    have hn := runAppends_id (E := E) im ctx true true bs' (newTally E "verify" im) id
    rw [show newTally E id im = { newTally E "verify" im with objectId := id } from rfl, hn]
    exact SameTally.of_contests h2 h3 h4

/-- A ballot with an unknown contest and an honest one: what one obtains by appending them verifies, with one ballot cast
and the leading contest of the rejected ballot in the totals. -/
example :
    let bs := [toyForeign, toySubmit "b2" "s" 1 0 0 3 .cast]
    (runAppends toyEnv toyIM toyCtx true true (newTally toyEnv "t" toyIM) bs).2.castIds = ["b2"] ∧
    verifyAggregation toyEnv true bs.reverse (runAppends toyEnv toyIM toyCtx true true (newTally toyEnv "t" toyIM) bs).2
      toyManifest toyCtx = .ok true := by decide +kernel

end EG
