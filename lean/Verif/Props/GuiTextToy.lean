import Verif.Props.GuiText
import Verif.Props.SerializeElectionToy

/-!
# C84: concrete cases
-/

namespace EG

/-- A share of two selections, one with a proof and one with the part of another guardian. -/
def textShare : DecShare :=
  ⟨"t", "a", 75, [("c", ⟨"c", "a", 5, [("s", ⟨"s", "a", 16, some ⟨16, 75, 3, 4⟩, none⟩),
    ("r", ⟨"r", "a", 75, none, some [("b", ⟨"r", "b", "a", 16, 75, ⟨16, 75, 3, 4⟩⟩)]⟩)]⟩)]⟩

example : toRaw DecShare.toJson ⟨"t", "a", 75, [("c", ⟨"c", "a", 5, []⟩)]⟩ =
    "{\"object_id\": \"t\", \"guardian_id\": \"a\", \"public_key\": \"4B\", \"contests\": {\"c\": {\"object_id\": \"c\", \"guardian_id\": \"a\", \"description_hash\": \"05\", \"selections\": {}}}}".toList := by
  decide +kernel

example : fromRaw (DecShare.ofJson extraSmall) (toRaw DecShare.toJson textShare) = .ok textShare :=
  (C84_shares extraSmall).1 _ (by
    simp [textShare, DecShare.Typed, DecContest.Typed, DecSelection.Typed, CompSelection.Typed, CPProof.Typed, Keys, extraSmall]
    rintro _ _ (⟨rfl, rfl⟩ | ⟨rfl, rfl⟩) <;> simp)

-- an element that is out of range is not read
example : fromRaw (DecShare.ofJson extraSmall)
    "{\"object_id\": \"t\", \"guardian_id\": \"a\", \"public_key\": \"9D\", \"contests\": {}}".toList = .error .overflow := by
  decide +kernel

/-- Non-vacuity of C84: an election of two guardians, from the texts of its inputs to the texts of its record. -/
example : ∃ d d' texts rec, joinAll toyEnv (parseSubmitted extraSmall) ((toyCreatedDb textElection).run (parseSubmitted extraSmall) textOps)
        (loadFromDecryption textKCDone.files 2 2) (["b", "a"].map (fun id => (id, fun _ _ => true, toySeeds)))
        (GuiDecryption.create "e" 2) = .ok d ∧
      tryRunStage2 toyEnv 12 (parseSubmitted extraSmall) (fun _ _ => true)
        ((toyCreatedDb textElection).run (parseSubmitted extraSmall) textOps) d true = (.ok true, d') ∧
      guiExportText toyEnv extraSmallConstants (fun _ _ => true)
        ((toyCreatedDb textElection).run (parseSubmitted extraSmall) textOps) (textElection.texts []) d'.toText = .ok texts ∧
      texts.read extraSmall = .ok rec ∧
      ∀ v : RecordView, v.Of rec → v.ResultAudited toyEnv ∧ v.Publishes toyIM [toyVote "b" 1 0 1] [toyVote "w" 0 1 1] := by
  obtain ⟨pkg, he⟩ := textElection_created
  have hj := textKCDone_keeps.2.2.1
  have hrun : textKCDone = (KCSystem.init 2 2).run toyEnv loadsCoordinate (toyJoinsTogether ++ toyLooks.flatMap KCEvent.whole) := by
    rw [run_append]
    rfl
  have hnil : ∀ s : KCSystem, s = s.run toyEnv loadsCoordinate [] := fun _ => rfl
  have hin : ∀ id ∈ ["b", "a"], id ∈ ["a", "b"] := by decide
  have hin' : ∀ id ∈ ["a", "b"], id ∈ ["b", "a"] := by decide
  obtain ⟨d, d', texts, rec, h1, h2, h3, h3', h4⟩ := C84_gui_audit_partial (E := toyEnv) extraSmall_valid (by decide) (fun _ _ => by simp [toyEnv])
    (by decide +kernel) 2 2 (by decide) (by decide) (by decide +kernel) (toyJoinsTogether ++ toyLooks.flatMap KCEvent.whole) [] textKCDone
    textKCDone hrun (hnil _) (by rw [hj]; decide) (by rw [hj]; decide) (by rw [hj]; rfl)
    typedManifest typedManifest_typed "k" "n" none textElection pkg he 12 (by decide) toyIM typedReady (toyCreatedDb textElection) "e" rfl rfl
    textOps textVoteds (fun v hv => ⟨textVoteds_encrypted v hv, by
      obtain ⟨d, hd⟩ := List.exists_mem_of_ne_nil toyIM.contests (by decide +kernel)
      refine ⟨d, ?_⟩
      have hs : v.plain.styleId = "t" := by
        simp only [textVoteds, List.mem_cons, List.not_mem_nil, or_false] at hv
        rcases hv with rfl | rfl <;> rfl
      rw [hs]
      exact toy_style_t d hd⟩)
    (by
      intro v hv
      simp only [textVoteds, List.mem_cons, List.not_mem_nil, or_false] at hv
      rcases hv with rfl | rfl
      · exact ⟨(by decide : 3 < extraSmall.q), (by decide : 3 < extraSmall.q)⟩
      · exact ⟨(by decide : 3 < extraSmall.q), (by decide : 3 < extraSmall.q)⟩)
    (by
      intro v hv
      simp only [textVoteds, List.mem_cons, List.not_mem_nil, or_false] at hv
      rcases hv with rfl | rfl
      · exact Or.inl rfl
      · exact Or.inr rfl)
    (by simp only [textsTo, textOps, List.filterMap_cons, List.filterMap_nil, if_true]; rfl) (by decide +kernel) (by decide +kernel)
    (["b", "a"].map (fun id => (id, fun _ _ => true, toySeeds)))
    (fun j hjm => by
      obtain ⟨id, hid, rfl⟩ := List.mem_map.1 hjm
      exact ⟨by rw [hj]; exact hin id hid, fun _ => ⟨0, by decide, rfl⟩⟩)
    (fun id hid => by
      rw [hj] at hid
      exact ⟨_, List.mem_map.2 ⟨id, hin' id hid, rfl⟩, rfl⟩)
    (fun _ _ => true) (fun _ => ⟨0, by decide, rfl⟩) extraSmallConstants rfl [] (fun _ _ => true) (fun _ => ⟨0, by decide, rfl⟩)
  have e1 : (counted textVoteds).map (fun v => v.plain) = [toyVote "b" 1 0 1] := by decide +kernel
  have e2 : ((firsts textVoteds).filter (fun v => decide (v.state = .spoiled))).map (fun v => v.plain) = [toyVote "w" 0 1 1] := by
    decide +kernel
  refine ⟨d, d', texts, rec, h1, h2, h3, h3', fun v hv => ⟨(h4 v hv).1, ?_⟩⟩
  rw [← e1, ← e2]
  exact (h4 v hv).2.1

end EG
