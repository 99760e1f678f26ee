import Verif.Props.GuiKeyCeremonyText
import Verif.Props.SerializeElectionToy

/-!
# C85: concrete cases
-/

namespace EG

/-- A public key with one coefficient, as the database holds it. -/
def dictKey : ElectionPublicKey := ⟨"a", 1, 130, [130], [⟨130, 16, 3, 4⟩]⟩

example : ElectionPublicKey.ofDict extraSmall dictKey.toDict = .ok dictKey :=
  (C85_dicts extraSmall).1 _ (by simp [dictKey, ElectionPublicKey.Typed, SchnorrProof.Typed, extraSmall])

-- what the deserializer of the core says to this dictionary
example : ElectionPublicKey.ofJson extraSmall dictKey.toDict = .error .value :=
  (C85_usage_fails extraSmall dictKey (by simp [dictKey, ElectionPublicKey.Typed, SchnorrProof.Typed, extraSmall]) (by decide)).1

-- an element that is out of range is not read
example : ElectionPublicKey.ofDict extraSmall { dictKey with key := 157 }.toDict = .error .overflow := by decide +kernel

/-- The events of the toy ceremony use numbers in range. -/
theorem toyEvents_range : ∀ ev ∈ toyJoinsTogether ++ toyLooks.flatMap KCEvent.whole, ev.InRange extraSmall := by
  have hk : ∀ k, k < 11 → ∀ i, (toyKeyRands k i).1 < extraSmall.q ∧ (toyKeyRands k i).2 < extraSmall.q := by
    intro k hk i
    simp only [toyKeyRands, extraSmall]
    split <;> constructor <;> simp only <;> omega
  intro ev hev
  rcases List.mem_append.1 hev with h | h
  · simp only [toyJoinsTogether, List.mem_cons, List.not_mem_nil, or_false] at h
    rcases h with rfl | rfl | rfl | rfl | rfl | rfl | rfl | rfl
    all_goals first | trivial | exact hk _ (by decide)
  · obtain ⟨l, -, h⟩ := List.mem_flatMap.1 h
    simp only [KCEvent.whole, List.mem_cons, List.mem_replicate] at h
    rcases h with rfl | ⟨-, rfl⟩
    · trivial
    · exact fun _ => ⟨(by decide : 0 < extraSmall.q), (by decide : 0 < extraSmall.q)⟩

/-- The same ceremony with dictionaries and texts. -/
def dictKCDone : KCTextSystem := (KCTextSystem.init 2 2).run toyEnv loadsCoordinate (toyJoinsTogether ++ toyLooks.flatMap KCEvent.whole)

theorem textKCDone_run : textKCDone = (KCSystem.init 2 2).run toyEnv loadsCoordinate (toyJoinsTogether ++ toyLooks.flatMap KCEvent.whole) := by
  rw [run_append]
  rfl

/-- Non-vacuity of `C85_refines`: the ceremony completes, and its joint key is stored as a dictionary. -/
theorem dictKCDone_eq : dictKCDone = textKCDone.toText := by
  rw [textKCDone_run]
  exact C85_refines (E := toyEnv) extraSmall_valid loadsCoordinate 2 2 _ toyEvents_range

example : dictKCDone.doc.jointKey = some (.obj [("joint_public_key", .str "4B"), ("commitment_hash", .str "00")]) := by
  rw [dictKCDone_eq]
  simp only [KCSystem.toText, KCDoc.toText, textKCDone_joint, Option.map_some, ElectionJointKey.toDict]
  have h1 : elemJson 75 = .str "4B" := congrArg Json.str (by decide +kernel)
  have h2 : elemJson 0 = .str "00" := congrArg Json.str (by decide +kernel)
  rw [h1, h2]

/-- Non-vacuity of C85: an election of two guardians, with nothing but dictionaries and texts between its steps. -/
example : ∃ d d' texts rec, joinAllText toyEnv (parseSubmitted extraSmall) ((toyCreatedDb textElection).run (parseSubmitted extraSmall) textOps)
        (loadGuardianText extraSmall (dget dictKCDone.files) 2 2) (["b", "a"].map (fun id => (id, fun _ _ => true, toySeeds)))
        (TextDecryption.create "e" 2) = .ok d ∧
      tryRunStage2Text toyEnv 12 (parseSubmitted extraSmall) (fun _ _ => true)
        ((toyCreatedDb textElection).run (parseSubmitted extraSmall) textOps) d true = (.ok true, d') ∧
      guiExportText toyEnv extraSmallConstants (fun _ _ => true)
        ((toyCreatedDb textElection).run (parseSubmitted extraSmall) textOps) (textElection.texts []) d' = .ok texts ∧
      texts.read extraSmall = .ok rec ∧
      ∀ v : RecordView, v.Of rec → v.ResultAudited toyEnv ∧ v.Publishes toyIM [toyVote "b" 1 0 1] [toyVote "w" 0 1 1] := by
  obtain ⟨pkg, he⟩ := textElection_created
  have hj : dictKCDone.doc.joined = ["a", "b"] := by
    have h : ∀ s : KCSystem, s.toText.doc.joined = s.doc.joined := fun _ => rfl
    rw [dictKCDone_eq, h, textKCDone_keeps.2.2.1]
  have he' : computeElectionText toyEnv (fun raw => (fromRaw Manifest.ofJson raw).toOption) "k" dictKCDone.doc "n"
      (toRaw Manifest.toJson typedManifest) none = .ok (textElection, pkg) := by
    rw [← he]
    exact C85_election (E := toyEnv) extraSmall_valid loadsCoordinate 2 2 _ toyEvents_range textKCDone textKCDone_run _ _ _ _ _
  have hnil : ∀ s : KCTextSystem, s = s.run toyEnv loadsCoordinate [] := fun _ => rfl
  have hin : ∀ id ∈ ["b", "a"], id ∈ ["a", "b"] := by decide
  have hin' : ∀ id ∈ ["a", "b"], id ∈ ["b", "a"] := by decide
  obtain ⟨d, d', texts, rec, h1, h2, h3, h3', h4⟩ := C85_gui_texts_partial (E := toyEnv) extraSmall_valid (by decide)
    (fun _ _ => by simp [toyEnv])
    (by decide +kernel) 2 2 (by decide) (by decide) (by decide +kernel) (toyJoinsTogether ++ toyLooks.flatMap KCEvent.whole) []
    toyEvents_range (by simp) dictKCDone
    dictKCDone rfl (hnil _) (by rw [hj]; decide) (by rw [hj]; decide) (by rw [hj]; rfl)
    typedManifest typedManifest_typed "k" "n" none textElection pkg he' 12 (by decide) toyIM typedReady (toyCreatedDb textElection) "e" rfl rfl
    textOps textVoteds (fun v hv => ⟨textVoteds_encrypted v hv, by
      obtain ⟨d, hd⟩ := List.exists_mem_of_ne_nil toyIM.contests (by decide +kernel)
      refine ⟨d, ?_⟩
      have hs : v.plain.styleId = "t" := by
        simp only [textVoteds, List.mem_cons, List.not_mem_nil, or_false] at hv
        rcases hv with rfl | rfl <;> rfl
      rw [hs]
      exact toy_style_t d hd⟩)
    (by
      intro v hv
      simp only [textVoteds, List.mem_cons, List.not_mem_nil, or_false] at hv
      rcases hv with rfl | rfl
      · exact ⟨(by decide : 3 < extraSmall.q), (by decide : 3 < extraSmall.q)⟩
      · exact ⟨(by decide : 3 < extraSmall.q), (by decide : 3 < extraSmall.q)⟩)
    (by
      intro v hv
      simp only [textVoteds, List.mem_cons, List.not_mem_nil, or_false] at hv
      rcases hv with rfl | rfl
      · exact Or.inl rfl
      · exact Or.inr rfl)
    (by simp only [textsTo, textOps, List.filterMap_cons, List.filterMap_nil, if_true]; rfl) (by decide +kernel) (by decide +kernel)
    (["b", "a"].map (fun id => (id, fun _ _ => true, toySeeds)))
    (fun j hjm => by
      obtain ⟨id, hid, rfl⟩ := List.mem_map.1 hjm
      exact ⟨by rw [hj]; exact hin id hid, fun _ => ⟨0, by decide, rfl⟩⟩)
    (fun id hid => by
      rw [hj] at hid
      exact ⟨_, List.mem_map.2 ⟨id, hin' id hid, rfl⟩, rfl⟩)
    (fun _ _ => true) (fun _ => ⟨0, by decide, rfl⟩) extraSmallConstants rfl [] (fun _ _ => true) (fun _ => ⟨0, by decide, rfl⟩)
  have e1 : (counted textVoteds).map (fun v => v.plain) = [toyVote "b" 1 0 1] := by decide +kernel
  have e2 : ((firsts textVoteds).filter (fun v => decide (v.state = .spoiled))).map (fun v => v.plain) = [toyVote "w" 0 1 1] := by
    decide +kernel
  refine ⟨d, d', texts, rec, h1, h2, h3, h3', fun v hv => ⟨(h4 v hv).1, ?_⟩⟩
  rw [← e1, ← e2]
  exact (h4 v hv).2.1

end EG
