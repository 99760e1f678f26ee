import Verif.Props.GuiReport
import Verif.Props.GuiRecordToy

/-!
# C83: a concrete case
-/

namespace EG

/-- The pages of the toy election: two cast ballots, one for `x` and one for `y`, both for `z`; one spoiled ballot, for `y` and `z`. -/
example : ∃ d d', joinAll toyEnv toyGuiRead (toyGuiDb.run toyGuiRead (toyOps ["b}", "v}", "w}"])) toyGuiFiles toyAllJoin
        (GuiDecryption.create "e" 3) = .ok d ∧
      tryRunStage2 toyEnv 12 toyGuiRead (fun _ _ => true) (toyGuiDb.run toyGuiRead (toyOps ["b}", "v}", "w}"])) d true
        = (.ok true, d') ∧
      (∃ out, guiGetTally (toyGuiDb.run toyGuiRead (toyOps ["b}", "v}", "w}"])) (some d') = .ok ("e", out) ∧
        toyManifest.ShowsVotes toyIM.contests (electionResult toyIM toyGuiVoteds) out) ∧
      d'.spoiledIds = ["w"] ∧
      ∃ out, guiGetSpoiledBallot (toyGuiDb.run toyGuiRead (toyOps ["b}", "v}", "w}"])) (some d') "w" = .ok ("e", out) ∧
        toyManifest.ShowsVotes toyIM.contests ((toyVote "w" 0 1 1).votesFor toyIM) out := by
  obtain ⟨d, d', h1, h2, h3, h4, h5⟩ := C83_pages_partial (E := toyEnv) extraSmall_valid (by decide) 12 (by decide) toyJson
    toyManifest toyIM toyReady (by unfold Manifest.KnownCandidates; decide +kernel) toyGuiRead toyGuiDb "e" toyGuiElection rfl rfl
    (by decide +kernel) toyGuiTeam toyTeam_gui (by decide +kernel) (by decide +kernel) (by decide +kernel) (by decide +kernel) toyGuiFiles
    toyFiles_own rfl (toyOps ["b}", "v}", "w}"]) (by decide +kernel) toyGuiVoteds toyGuiVoteds_ok
    (toyOps_uploaded 3 (by decide)) (by decide +kernel) (by decide +kernel) toyAllJoin toyAllJoin_ok.1 toyAllJoin_ok.2 (fun _ _ => true)
    (fun _ => ⟨0, by decide, rfl⟩)
  have e1 : ((firsts toyGuiVoteds).filter (fun v => decide (v.state = .spoiled))).map (fun v => v.plain.objectId) = ["w"] := by
    decide +kernel
  refine ⟨d, d', h1, h2, h3, h4.trans e1, ?_⟩
  have e2 : ((firsts toyGuiVoteds).filter (fun v => decide (v.state = .spoiled))).map (fun v => v.plain) = [toyVote "w" 0 1 1] := by
    decide +kernel
  obtain ⟨v, hv, hp⟩ := List.mem_map.1 (e2 ▸ List.mem_singleton.2 rfl :
    toyVote "w" 0 1 1 ∈ ((firsts toyGuiVoteds).filter (fun v => decide (v.state = .spoiled))).map (fun v => v.plain))
  obtain ⟨hv1, hv2⟩ := List.mem_filter.1 hv
  obtain ⟨out, ho, hs⟩ := h5 v hv1 (by simpa using hv2)
  rw [hp] at ho hs
  have e3 : toyIM.contests.filter (toyIM.onStyle (toyVote "w" 0 1 1).styleId) = toyIM.contests := by decide +kernel
  rw [e3] at hs
  exact ⟨out, ho, hs⟩

/-- The votes that the page of the tally shows. -/
example : toyIM.contests.map (fun c => c.ballotSelections.map (fun s => (s.objectId, electionResult toyIM toyGuiVoteds c s.objectId)))
    = [[("sx", 1), ("sy", 1)], [("sz", 2)]] := by decide +kernel

/-- A report that shows the votes, and one that does not. -/
example : namedManifest.Row 4 (fun id => if id = "sx" then 3 else 1) ⟨"sx", 1, "x"⟩ ⟨"Ada", 3, "Green", (3, 4)⟩ ∧
    ¬ namedManifest.Row 4 (fun id => if id = "sx" then 3 else 1) ⟨"sx", 1, "x"⟩ ⟨"Ada", 1, "Green", (3, 4)⟩ := by
  refine ⟨⟨⟨_, List.mem_cons_self, rfl, ?_, ?_⟩, rfl, by decide⟩, fun h => absurd h.votes (by decide)⟩
  · exact .name _ (by decide) (.first [⟨"Ada E.", "de"⟩] [] ⟨"Ada", "en"⟩ rfl (by decide) rfl (by decide))
  · exact .inr ⟨_, List.mem_singleton.2 rfl, rfl, .inl (.first [] [] ⟨"Green", "en"⟩ rfl (by simp) rfl (by decide))⟩

end EG
