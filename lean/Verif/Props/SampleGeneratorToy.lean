import Verif.Props.SampleGenerator
import Verif.Props.MarkingToy

/-!
# C89: instances
-/

namespace EG

/-- The random numbers of a run with two ballots, of which the second is to be spoiled. -/
def toySample : SampleRandom := ⟨fun i => [(i + 4, 3), (2, i + 5)], fun _ i => i + 1, toyDraws, fun _ => (9, 17), fun i => if i = 1 then 3 else 70,
  toyRnd.seeds⟩

theorem toySample_plain : generateFakeBallots toyIM toyDraws none false true = .ok toyMarked := by decide +kernel

theorem toySample_styles : ∀ s ∈ toyIM.ballotStyles, ∃ d, toyIM.StyleHas s.objectId d := by
  intro s hs
  have hs' : ∀ s ∈ toyIM.ballotStyles, toyIM.contests.filter (toyIM.onStyle s.objectId) ≠ [] := by decide +kernel
  obtain ⟨d, hd⟩ := List.exists_mem_of_ne_nil _ (hs' s hs)
  obtain ⟨hd1, hd2⟩ := List.mem_filter.1 hd
  exact ⟨d, (onStyle_iff toyIM _ d hd1).1 hd2⟩

/-- C89 for the toy manifest: three guardians of whom two decrypt, or all; the first ballot is cast and the second spoiled. -/
example (all : Bool) : ∃ r rec, sampleRun toyEnv strictLoads contestDataJson 12 extraSmallConstants toyRnd.device toySample (3 : Nat) (2 : Nat)
      toyManifest 50 all true = .ok r ∧ r.record = some rec ∧ r.secret.isSome = true ∧
    r.submitted.map (fun b => (b.objectId, b.state)) = [("b", .cast), ("v", .spoiled)] ∧
    ∀ v : RecordView, v.Of rec → v.QuorumAudited toyEnv ∧ (all = true → v.Audited toyEnv) := by
  have hsome : toyIM.ballotStyles ≠ [] := by decide +kernel
  have hc : (sampleCast 50 toySample.spoil toySample.draws).length = 1 := by decide +kernel
  obtain ⟨r, hr⟩ := (C89_returns_iff_partial (E := toyEnv) extraSmall_valid (by decide) (fun _ _ => by simp [toyEnv]) strictLoads strictLoads_reads
    (by decide +kernel) 12 (by decide) extraSmallConstants rfl toyRnd.device toySample 3 2 (by decide) (by decide) (by decide) (fun _ _ => rfl) toyManifest
    toyIM toyReady toySample_styles hsome (by decide +kernel) (by
      have : ∀ d ∈ toyIM.contests, d.votesAllowed = some d.numberElected := by decide +kernel
      intro d hd v hv
      rw [this d hd] at hv
      cases hv
      exact le_refl _) toyOrders (by
      intro e he d hd
      have hid : e.1.id ∈ ["b", "v"] := by
        have := List.mem_map_of_mem (f := fun x => x.1.id) he
        simpa [toySample, toyDraws] using this
      exact toyNonces _ hid d hd) 50 all true (by rw [hc]; decide) (by rw [hc]; decide)).2 ⟨by decide, by decide⟩
  obtain ⟨-, -, -, -, h5, ⟨rec, h6, h7⟩, h8, -⟩ := C89_sound_partial (E := toyEnv) extraSmall_valid (by decide) (fun _ _ => by simp [toyEnv]) strictLoads
    strictLoads_reads (by decide +kernel) contestDataJson 12 (by decide) extraSmallConstants rfl toyRnd.device toySample 3 2 (by decide) (by decide)
    (by decide) (fun _ _ => rfl) toyManifest toyIM toyReady toySample_styles 50 all true (by rw [hc]; decide) (by rw [hc]; decide) r hr
  refine ⟨r, rec, hr, h6, h8, ?_, fun v hv => ⟨(h7 v hv).1, (h7 v hv).2.1⟩⟩
  rw [h5]
  decide

/-- With two ballots of the same id the run does not return, and neither with four guardians needed of three. -/
example (all priv : Bool) (r : SampleResult) :
    sampleRun toyEnv strictLoads contestDataJson 12 extraSmallConstants toyRnd.device
      { toySample with draws := toyDraws ++ toyDraws } (3 : Nat) (2 : Nat) toyManifest 50 all priv ≠ .ok r ∧
    sampleRun toyEnv strictLoads contestDataJson 12 extraSmallConstants toyRnd.device
      { toySample with polynomials := fun i => [(i + 4, 3), (2, i + 5), (1, 1), (1, 2)] } (3 : Nat) (4 : Nat) toyManifest 50 all priv ≠ .ok r := by
  refine ⟨fun h => ?_, fun h => ?_⟩
  · have hc : (sampleCast 50 toySample.spoil (toyDraws ++ toyDraws)).length = 3 := by decide +kernel
    have := (C89_sound_partial (E := toyEnv) extraSmall_valid (by decide) (fun _ _ => by simp [toyEnv]) strictLoads
      strictLoads_reads (by decide +kernel) contestDataJson 12 (by decide) extraSmallConstants rfl toyRnd.device _ 3 2 (by decide) (by decide)
      (by decide) (fun _ _ => rfl) toyManifest toyIM toyReady toySample_styles 50 all priv (by
        show (sampleCast 50 toySample.spoil (toyDraws ++ toyDraws)).length < _
        rw [hc]; decide) (by
        show (sampleCast 50 toySample.spoil (toyDraws ++ toyDraws)).length ≤ _
        rw [hc]; decide) r h).1
    revert this
    decide
  · have hc : (sampleCast 50 toySample.spoil toySample.draws).length = 1 := by decide +kernel
    have := (C89_sound_partial (E := toyEnv) extraSmall_valid (by decide) (fun _ _ => by simp [toyEnv]) strictLoads
      strictLoads_reads (by decide +kernel) contestDataJson 12 (by decide) extraSmallConstants rfl toyRnd.device _ 3 4 (by decide) (by decide)
      (by decide) (fun _ _ => rfl) toyManifest toyIM toyReady toySample_styles 50 all priv (by
        show (sampleCast 50 toySample.spoil toySample.draws).length < _
        rw [hc]; decide) (by
        show (sampleCast 50 toySample.spoil toySample.draws).length ≤ _
        rw [hc]; decide) r h).2.1
    exact absurd this (by decide)

/-- The parts, for a rate of 50, and the case of `C89_spoil_rate_fails`: the number 100. -/
example : sampleCast 50 toySample.spoil ["b", "v", "w"] = ["b", "w"] ∧ sampleSpoiled 50 toySample.spoil ["b", "v", "w"] = ["v"] ∧
    sampleSpoiled 100 (fun i => 99 + i) ["b", "v"] = ["b"] ∧ sampleCast 100 (fun i => 99 + i) ["b", "v"] = ["v"] := by decide

end EG
