import Verif.Props.GuiRecord
import Verif.Props.GuiDecryptionToy

/-!
# C78: an instance, and a record with a late ballot
-/

namespace EG

/-- The uploads of the files of the toy election. -/
def toyOps (files : List String) : List UploadOp := files.map (fun f => .upload "u" "e" f f.toList)

/-- What an election of the toy guardians has: their records without commitments, as the GUI makes them. -/
def toyExtras : ElectionExtras :=
  ⟨toyGuiTeam.map (fun g => ⟨g.id, g.electionKeys.sequenceOrder, g.electionKeys.keyPair.pub, [], []⟩), none, []⟩

/-- All three guardians join. -/
def toyAllJoin : List (String × (Nat → Nat → Bool) × JoinSeeds) :=
  ["b", "a", "c"].map (fun id => (id, fun _ _ => true, toySeeds))

theorem toyTeam_gui : ElectionTeam extraSmall toyGuiElection toyGuiTeam where
  ids := by decide +kernel
  keys := by decide +kernel
  records := by decide +kernel
  joint := by decide +kernel
  count := by decide +kernel
  hash := by decide +kernel

theorem toyFiles_own : OwnFiles toyGuiFiles toyGuiTeam := by
  intro user g h
  exact ⟨List.mem_of_find?_eq_some h, by simpa using List.find?_some h⟩

theorem toyAllJoin_ok : (∀ j ∈ toyAllJoin, (toyGuiFiles j.1).isSome ∧ ∀ n, ∃ k < 3, j.2.1 n k = true) ∧
    ∀ g ∈ toyGuiTeam, ∃ j ∈ toyAllJoin, j.1 = g.id := by
  constructor
  · intro j hj
    obtain ⟨id, hid, rfl⟩ := List.mem_map.1 hj
    have : ∀ id ∈ ["b", "a", "c"], (toyGuiFiles id).isSome = true := by decide +kernel
    exact ⟨this id hid, fun _ => ⟨0, by decide, rfl⟩⟩
  · have : ∀ g ∈ toyGuiTeam, g.id ∈ ["b", "a", "c"] := by decide +kernel
    intro g hg
    exact ⟨_, List.mem_map.2 ⟨g.id, this g hg, rfl⟩, rfl⟩

/-- The voters of the three files. -/
def toyGuiVoteds : List VotedBallot := toyVoteds.take 3

theorem toyGuiVoteds_ok : ∀ v ∈ toyGuiVoteds, v.Encrypted toyEnv toyJson toyIM toyDCtx ∧ ∃ d, toyIM.StyleHas v.plain.styleId d := by
  intro v hv
  have hm : v ∈ toyVoteds := List.mem_of_mem_take hv
  refine ⟨toyVoteds_encrypted v hm, ?_⟩
  obtain ⟨d, hd⟩ := List.exists_mem_of_ne_nil toyIM.contests (by decide +kernel)
  refine ⟨d, ?_⟩
  have hs : v.plain.styleId = "t" := by
    simp only [toyVoteds, List.mem_cons, List.not_mem_nil, or_false] at hm
    rcases hm with rfl | rfl | rfl | rfl <;> rfl
  rw [hs]
  exact toy_style_t d hd

theorem toyOps_uploaded (k : Nat) (hk : k < 4) :
    uploadedTo toyGuiRead toyIM.manifestHash "e" ((toyOps ["b}", "v}", "w}"]).take k)
      = (toyGuiVoteds.take k).map (fun v => submitBallot toyEnv v.enc v.state) := by
  have s1 : (toyVoted "b" 1 0 1 3 .cast).state = .cast := rfl
  have s2 : (toyVoted "v" 0 1 1 3 .cast).state = .cast := rfl
  have s3 : (toyVoted "w" 0 1 1 3 .spoiled).state = .spoiled := rfl
  have r1 : toyGuiRead "b}".toList = some (submitBallot toyEnv (toyVoted "b" 1 0 1 3 .cast).enc .cast) := by
    rw [toyGuiRead, toyRead, show "b}".toList.filter (fun c => c != '\n') = "b}".toList by decide +kernel]
    unfold toyGuiBallots
    rw [List.map_cons, dget_cons, if_pos rfl]
    simp only [s1]
  have r2 : toyGuiRead "v}".toList = some (submitBallot toyEnv (toyVoted "v" 0 1 1 3 .cast).enc .cast) := by
    rw [toyGuiRead, toyRead, show "v}".toList.filter (fun c => c != '\n') = "v}".toList by decide +kernel]
    unfold toyGuiBallots
    rw [List.map_cons, dget_cons, if_neg (by decide +kernel), List.map_cons, dget_cons, if_pos rfl]
    simp only [s2]
  have r3 : toyGuiRead "w}".toList = some (submitBallot toyEnv (toyVoted "w" 0 1 1 3 .spoiled).enc .spoiled) := by
    rw [toyGuiRead, toyRead, show "w}".toList.filter (fun c => c != '\n') = "w}".toList by decide +kernel]
    unfold toyGuiBallots
    rw [List.map_cons, dget_cons, if_neg (by decide +kernel), List.map_cons, dget_cons, if_neg (by decide +kernel), List.map_cons,
      dget_cons, if_pos rfl]
    simp only [s3]
  have m1 : (submitBallot toyEnv (toyVoted "b" 1 0 1 3 .cast).enc .cast).manifestHash = toyIM.manifestHash := by decide +kernel
  have m2 : (submitBallot toyEnv (toyVoted "v" 0 1 1 3 .cast).enc .cast).manifestHash = toyIM.manifestHash := by decide +kernel
  have m3 : (submitBallot toyEnv (toyVoted "w" 0 1 1 3 .spoiled).enc .spoiled).manifestHash = toyIM.manifestHash := by decide +kernel
  have hk' : k = 0 ∨ k = 1 ∨ k = 2 ∨ k = 3 := by omega
  rcases hk' with rfl | rfl | rfl | rfl <;>
    simp only [toyOps, toyGuiVoteds, toyVoteds, List.map_cons, List.map_nil, List.take_succ_cons, List.take_zero, List.take_nil,
      uploadedTo, List.filterMap_cons, List.filterMap_nil, if_true, r1, r2, r3, Option.filter, m1, m2, m3, decide_true, s1, s2, s3]

/-- The record of the toy election: two cast ballots, one spoiled ballot. -/
example : ∃ d d' rec, joinAll toyEnv toyGuiRead (toyGuiDb.run toyGuiRead (toyOps ["b}", "v}", "w}"])) toyGuiFiles toyAllJoin
        (GuiDecryption.create "e" 3) = .ok d ∧
      tryRunStage2 toyEnv 12 toyGuiRead (fun _ _ => true) (toyGuiDb.run toyGuiRead (toyOps ["b}", "v}", "w}"])) d true
        = (.ok true, d') ∧
      guiExportRecord extraSmallConstants toyGuiRead (fun _ _ => true) (toyGuiDb.run toyGuiRead (toyOps ["b}", "v}", "w}"])) (some d')
        toyExtras = .ok rec ∧
      ∀ v : RecordView, v.Of rec → v.ResultAudited toyEnv ∧
        v.Publishes toyIM [toyVote "b" 1 0 1, toyVote "v" 0 1 1] [toyVote "w" 0 1 1] := by
  obtain ⟨d, d', rec, h1, h2, h3, h4⟩ := C78_gui_record_partial (E := toyEnv) extraSmall_valid (by decide) 12 (by decide) toyJson
    toyManifest toyIM toyReady toyGuiRead toyGuiDb "e" toyGuiElection rfl rfl toyGuiTeam (by decide +kernel) toyTeam_gui
    (by decide +kernel) (by decide +kernel) (by decide +kernel) (by decide +kernel) toyGuiFiles toyFiles_own toyExtras (by decide +kernel)
    rfl (toyOps ["b}", "v}", "w}"]) (by decide +kernel) toyGuiVoteds toyGuiVoteds_ok (by decide +kernel)
    (toyOps_uploaded 3 (by decide)) (by decide +kernel) (by decide +kernel) toyAllJoin toyAllJoin_ok.1 toyAllJoin_ok.2 (fun _ _ => true)
    (fun _ => ⟨0, by decide, rfl⟩) extraSmallConstants rfl (fun _ _ => true) (fun _ => ⟨0, by decide, rfl⟩)
  have e1 : (counted toyGuiVoteds).map (fun v => v.plain) = [toyVote "b" 1 0 1, toyVote "v" 0 1 1] := by decide +kernel
  have e2 : ((firsts toyGuiVoteds).filter (fun v => decide (v.state = .spoiled))).map (fun v => v.plain) = [toyVote "w" 0 1 1] := by
    decide +kernel
  refine ⟨d, d', rec, h1, h2, h3, fun v hv => ⟨(h4 v hv).1, ?_⟩⟩
  rw [← e1, ← e2]
  exact (h4 v hv).2.1

/-- The record of the toy election after a cast ballot is uploaded late. -/
example : ∃ d d' rec, joinAll toyEnv toyGuiRead (toyGuiDb.run toyGuiRead (toyOps ["b}"])) toyGuiFiles toyAllJoin
        (GuiDecryption.create "e" 3) = .ok d ∧
      tryRunStage2 toyEnv 12 toyGuiRead (fun _ _ => true) (toyGuiDb.run toyGuiRead (toyOps ["b}"])) d true
        = (.ok true, d') ∧
      guiExportRecord extraSmallConstants toyGuiRead (fun _ _ => true) (toyGuiDb.run toyGuiRead (toyOps ["b}"] ++ toyOps ["v}"]))
        (some d') toyExtras = .ok rec ∧
      ∀ v : RecordView, v.Of rec → verifyAggregation toyEnv true v.ballots v.tallyToCheck v.manifest v.context ≠ .ok true := by
  have hne : ∃ d ∈ toyIM.contests, ∃ sd ∈ d.ballotSelections, electionResult toyIM (toyVoteds.take 1 ++ (toyVoteds.drop 1).take 1) d
      sd.objectId ≠ electionResult toyIM (toyVoteds.take 1) d sd.objectId := by decide +kernel
  obtain ⟨cd, hcd, sd, hsd, hdiff⟩ := hne
  have hsub : ∀ v ∈ toyVoteds.take 1 ++ (toyVoteds.drop 1).take 1, v ∈ toyGuiVoteds := by
    intro v hv
    have : toyVoteds.take 1 ++ (toyVoteds.drop 1).take 1 = toyGuiVoteds.take 2 := rfl
    rw [this] at hv
    exact List.mem_of_mem_take hv
  exact C78_late_ballot_fails (E := toyEnv) extraSmall_valid (by decide) 12 (by decide) toyJson
    toyManifest toyIM toyReady toyGuiRead toyGuiDb "e" toyGuiElection rfl rfl (by decide +kernel) toyGuiTeam toyTeam_gui
    (by decide +kernel) (by decide +kernel) (by decide +kernel) (by decide +kernel) toyGuiFiles toyFiles_own toyExtras
    rfl (toyOps ["b}"]) (toyOps ["v}"]) (by decide +kernel) (toyVoteds.take 1) ((toyVoteds.drop 1).take 1)
    (fun v hv => toyGuiVoteds_ok v (hsub v hv)) (toyOps_uploaded 1 (by decide)) (toyOps_uploaded 2 (by decide))
    (by decide +kernel) (by decide +kernel) cd hcd sd hsd hdiff toyAllJoin toyAllJoin_ok.1 toyAllJoin_ok.2 (fun _ _ => true)
    (fun _ => ⟨0, by decide, rfl⟩) extraSmallConstants (fun _ _ => true) (fun _ => ⟨0, by decide, rfl⟩)

end EG
