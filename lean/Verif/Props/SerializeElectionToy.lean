import Verif.Props.SerializeElection
import Verif.Props.GuiElectionToy
import Verif.Props.GuiRecordToy

/-!
# C81: an instance
-/

namespace EG

/-- Two guardians join at the same time; the backups they will exchange are texts. -/
def textKC : KCSystem := (KCSystem.init 2 2).run toyEnv loadsCoordinate toyJoinsTogether

/-- The ceremony at its end. -/
def textKCDone : KCSystem := textKC.run toyEnv loadsCoordinate (toyLooks.flatMap KCEvent.whole)

theorem textKC_facts : textKC.procs.length = 0 ∧ textKC.doc.guardianCount = 2 ∧ textKC.doc.quorum = 2 ∧
    textKC.doc.joined = ["a", "b"] ∧ textKC.files = [("b", toyFileB), ("a", toyFileA)] ∧
    textKC.doc.keys = [toyFileB.electionKeys.share, toyFileA.electionKeys.share] := by decide +kernel

theorem textKCDone_complete : textKCDone.doc.completed = true ∧ ∃ jk kps, textKCDone.doc.jointKey = some jk ∧
    KeyHolders toyEnv loadsCoordinate textKCDone.doc textKCDone.files jk kps := by
  have hj := textKC_facts.2.2.2.1
  have hlook : EveryoneLooks textKC.doc.joined [toyLook "x" false, toyLook "b" false, toyLook "a" false] := by
    rw [hj]
    intro id hid
    simp only [List.mem_cons, List.not_mem_nil, or_false] at hid
    rcases hid with rfl | rfl <;> exact ⟨_, by simp [toyLook]; rfl⟩
  have hlook' : EveryoneLooks textKC.doc.joined [toyLook "a" false, toyLook "b" false] := by
    rw [hj]
    intro id hid
    simp only [List.mem_cons, List.not_mem_nil, or_false] at hid
    rcases hid with rfl | rfl <;> exact ⟨_, by simp [toyLook]; rfl⟩
  obtain ⟨h1, -, -, h2⟩ := C71_completes_partial (E := toyEnv) (loads := loadsCoordinate) extraSmall_valid
    (fun _ _ => by simp [toyEnv]) loadsCoordinate_reads (by decide +kernel) 2 2 (by decide) (by decide) (by decide +kernel)
    (by decide +kernel) toyJoinsTogether textKC rfl (List.length_eq_zero_iff.1 (by decide +kernel)) (by decide +kernel)
    (by rw [hj]; decide) (by rw [hj]; decide)
    ⟨List.length_eq_zero_iff.1 (by decide +kernel), by decide +kernel, List.length_eq_zero_iff.1 (by decide +kernel),
      by decide +kernel, by decide +kernel⟩
    "adm" "adm" "adm" _ _ _ [toyLook "b" false] _ _ [] hlook hlook' textKCDone rfl
  exact ⟨h1, h2⟩

theorem textKCDone_keeps : textKCDone.doc.guardianCount = 2 ∧ textKCDone.doc.quorum = 2 ∧
    textKCDone.doc.joined = ["a", "b"] ∧ textKCDone.files = textKC.files ∧ textKCDone.doc.keys = textKC.doc.keys := by
  obtain ⟨h1, h2, h3, h4, -, -⟩ := textKC_facts
  obtain ⟨g1, g2, g3, g4, g5, g6⟩ := C71_looking_keeps (E := toyEnv) (loads := loadsCoordinate) textKC (List.length_eq_zero_iff.1 h1)
    toyLooks
  unfold textKCDone
  exact ⟨g3.trans h2, g4.trans h3, g1.trans h4, g5, g2⟩

theorem textKCDone_joint : textKCDone.doc.jointKey = some ⟨75, 0⟩ := by
  obtain ⟨-, jk, kps, h1, h2⟩ := textKCDone_complete
  obtain ⟨hn, -, hj, hf, -⟩ := textKCDone_keeps
  have hlen : kps.length = 2 := by
    have := h2.count
    omega
  have hids := h2.ids
  rw [hlen, hj] at hids
  rw [textKC_facts.2.2.2.2.1] at hf
  match kps, hlen with
  | [kp, kp'], _ =>
    simp only [List.map_cons, List.map_nil, List.take, List.cons.injEq, and_true] at hids
    obtain ⟨r, hr, hrk⟩ := h2.files kp (by simp)
    obtain ⟨r', hr', hrk'⟩ := h2.files kp' (by simp)
    rw [hf, hids.1] at hr
    rw [hf, hids.2] at hr'
    have e1 : toyFileA = r := Option.some.inj hr
    have e2 : toyFileB = r' := Option.some.inj hr'
    have hjoint := h2.joint
    have hhash := h2.commitmentHash
    rw [← hrk, ← hrk', ← e1, ← e2] at hjoint hhash
    rw [h1]
    obtain ⟨x, y⟩ := jk
    simp only at hjoint hhash
    have c1 : ([toyFileA.electionKeys, toyFileB.electionKeys].map
      (fun kp => toyEnv.P.g ^ kp.keyPair.secret % toyEnv.P.p)).prod % toyEnv.P.p = 75 := by decide +kernel
    have c2 : hashElems toyEnv [.list (([toyFileA.electionKeys, toyFileB.electionKeys].flatMap
      (fun kp => kp.coefficients.map (fun a => toyEnv.P.g ^ a % toyEnv.P.p))).map HArg.elem)] = 0 := by decide +kernel
    rw [hjoint, hhash, c1, c2]

/-- The toy manifest with a version that the standard has. -/
def typedManifest : Manifest := { toyManifest with specVersion := "1.0" }

theorem typedReady : ElectionReady toyEnv typedManifest toyIM where
  manifest := by
    refine ⟨(C41_iff_partial _).1 (by decide +kernel), toyReady.manifest.nonempty, toyReady.manifest.seats, toyReady.manifest.sorted,
      toyReady.manifest.fresh⟩
  internal := by
    have h : typedManifest.cryptoHash toyEnv = toyManifest.cryptoHash toyEnv := by decide +kernel
    have : mkInternalManifest toyEnv typedManifest = mkInternalManifest toyEnv toyManifest := by
      rw [mkInternalManifest, mkInternalManifest, h]
      rfl
    rw [this]
    exact toyReady.internal
  distinct := toyReady.distinct
  seats := toyReady.seats

/-- The election for their key. -/
def textElection : GuiElection :=
  { toyLateElection with manifest := typedManifest, guardianRecords := [⟨"b", 2, 67, [], []⟩, ⟨"a", 1, 130, [], []⟩] }

theorem typedManifest_typed : typedManifest.Typed := by
  unfold Manifest.Typed
  decide +kernel

/-- The manifest is read back from its text. -/
theorem textManifest : (fromRaw Manifest.ofJson (toRaw Manifest.toJson typedManifest)).toOption = some typedManifest := by
  obtain ⟨m', h, -, -, hm⟩ := C79_manifest_partial typedManifest typedManifest_typed
  rw [h, hm (by decide +kernel)]
  rfl

theorem textElection_created : ∃ pkg, computeElection toyEnv (fun raw => (fromRaw Manifest.ofJson raw).toOption) "k" textKCDone.doc "n"
    (toRaw Manifest.toJson typedManifest) none = .ok (textElection, pkg) := by
  obtain ⟨h2, h3, -, -, h4⟩ := textKCDone_keeps
  have h : (computeElection toyEnv (fun _ => some typedManifest) "k"
      ⟨2, 2, [], [toyFileB.electionKeys.share, toyFileA.electionKeys.share], [], [], [], [], some ⟨75, 0⟩, true⟩ "n"
      (toRaw Manifest.toJson typedManifest) none).toOption.map (fun x => x.1) = some textElection := by
    decide +kernel
  have hp : computeElection toyEnv (fun raw => (fromRaw Manifest.ofJson raw).toOption) "k" textKCDone.doc "n"
      (toRaw Manifest.toJson typedManifest) none = computeElection toyEnv (fun _ => some typedManifest) "k" textKCDone.doc "n"
      (toRaw Manifest.toJson typedManifest) none := by
    unfold computeElection getManifestRaw
    simp only [textManifest]
  rw [hp, computeElection_congr (kc' := ⟨2, 2, [], [toyFileB.electionKeys.share, toyFileA.electionKeys.share], [], [], [], [],
    some ⟨75, 0⟩, true⟩) h2 h3 (h4.trans textKC_facts.2.2.2.2.2) textKCDone_joint]
  revert h
  generalize computeElection toyEnv (fun _ => some typedManifest) "k"
    ⟨2, 2, [], [toyFileB.electionKeys.share, toyFileA.electionKeys.share], [], [], [], [], some ⟨75, 0⟩, true⟩ "n"
    (toRaw Manifest.toJson typedManifest) none = x
  intro h
  cases x with
  | error e => cases h
  | ok x => exact ⟨x.2, by rw [← Option.some.inj h]⟩

/-- A ballot for it. -/
def textVoted (id : String) (x y z : Int) (nonce : Nat) (st : BallotBoxState) : VotedBallot :=
  ⟨toyVote id x y z, 3, nonce, 17, true,
    match encryptBallot toyEnv contestDataJson (toyVote id x y z) toyIM textElection.context 3 nonce 17 true with
    | .ok (some b) => b
    | _ => toyNoBallot, st⟩

/-- A cast ballot, and one that is spoiled. -/
def textVoteds : List VotedBallot := [textVoted "b" 1 0 1 3 .cast, textVoted "w" 0 1 1 3 .spoiled]

theorem textVoteds_encrypted : ∀ v ∈ textVoteds, v.Encrypted toyEnv contestDataJson toyIM textElection.context := by
  have key : ∀ (id : String) (x y z : Int) (nonce : Nat) (st : BallotBoxState),
      ((encryptBallot toyEnv contestDataJson (toyVote id x y z) toyIM textElection.context 3 nonce 17 true).toOption.join).isSome = true →
      (textVoted id x y z nonce st).Encrypted toyEnv contestDataJson toyIM textElection.context := by
    intro id x y z nonce st h
    unfold VotedBallot.Encrypted textVoted
    dsimp only
    cases he : encryptBallot toyEnv contestDataJson (toyVote id x y z) toyIM textElection.context 3 nonce 17 true with
    | error e => rw [he] at h; cases h
    | ok o => cases o with
      | none => rw [he] at h; cases h
      | some b => rfl
  have h1 : ((encryptBallot toyEnv contestDataJson (toyVote "b" 1 0 1) toyIM textElection.context 3 3 17 true).toOption.join).isSome
      = true := by decide +kernel
  have h2 : ((encryptBallot toyEnv contestDataJson (toyVote "w" 0 1 1) toyIM textElection.context 3 3 17 true).toOption.join).isSome
      = true := by decide +kernel
  intro v hv
  simp only [textVoteds, List.mem_cons, List.not_mem_nil, or_false] at hv
  rcases hv with rfl | rfl
  · exact key _ _ _ _ _ _ h1
  · exact key _ _ _ _ _ _ h2

/-- The two ballots are uploaded, that of an election unknown to the database is refused in between. -/
def textOps : List UploadOp :=
  [.upload "u" "e" "f" ((textVoted "b" 1 0 1 3 .cast).text toyEnv), .upload "u" "x" "g" "{}".toList,
    .upload "u" "e" "h" ((textVoted "w" 0 1 1 3 .spoiled).text toyEnv)]

/-- Everything of an election is a text: two guardians, a ballot that is cast and one that is spoiled. -/
example : ∃ d d' rec, joinAll toyEnv (parseSubmitted extraSmall) ((toyCreatedDb textElection).run (parseSubmitted extraSmall) textOps)
        (loadFromDecryption textKCDone.files 2 2) (["b", "a"].map (fun id => (id, fun _ _ => true, toySeeds)))
        (GuiDecryption.create "e" 2) = .ok d ∧
      tryRunStage2 toyEnv 12 (parseSubmitted extraSmall) (fun _ _ => true)
        ((toyCreatedDb textElection).run (parseSubmitted extraSmall) textOps) d true = (.ok true, d') ∧
      guiExportRecord extraSmallConstants (parseSubmitted extraSmall) (fun _ _ => true)
        ((toyCreatedDb textElection).run (parseSubmitted extraSmall) textOps) (some d')
        ⟨textElection.guardianRecords, none, []⟩ = .ok rec ∧
      ∀ v : RecordView, v.Of rec → v.ResultAudited toyEnv ∧ v.Publishes toyIM [toyVote "b" 1 0 1] [toyVote "w" 0 1 1] := by
  obtain ⟨pkg, he⟩ := textElection_created
  have hj := textKCDone_keeps.2.2.1
  have hrun : textKCDone = (KCSystem.init 2 2).run toyEnv loadsCoordinate (toyJoinsTogether ++ toyLooks.flatMap KCEvent.whole) := by
    rw [run_append]
    rfl
  have hnil : ∀ s : KCSystem, s = s.run toyEnv loadsCoordinate [] := fun _ => rfl
  have hin : ∀ id ∈ ["b", "a"], id ∈ ["a", "b"] := by decide
  have hin' : ∀ id ∈ ["a", "b"], id ∈ ["b", "a"] := by decide
  obtain ⟨d, d', rec, h1, h2, h3, h4⟩ := C81_gui_texts_partial (E := toyEnv) extraSmall_valid (by decide) (fun _ _ => by simp [toyEnv])
    (by decide +kernel) 2 2 (by decide) (by decide) (by decide +kernel) (toyJoinsTogether ++ toyLooks.flatMap KCEvent.whole) [] textKCDone
    textKCDone hrun (hnil _) (by rw [hj]; decide) (by rw [hj]; decide) (by rw [hj]; rfl)
    typedManifest typedManifest_typed "k" "n" none textElection pkg he 12 (by decide) toyIM typedReady (toyCreatedDb textElection) "e" rfl rfl
    textOps textVoteds (fun v hv => ⟨textVoteds_encrypted v hv, by
      obtain ⟨d, hd⟩ := List.exists_mem_of_ne_nil toyIM.contests (by decide +kernel)
      refine ⟨d, ?_⟩
      have hs : v.plain.styleId = "t" := by
        simp only [textVoteds, List.mem_cons, List.not_mem_nil, or_false] at hv
        rcases hv with rfl | rfl <;> rfl
      rw [hs]
      exact toy_style_t d hd⟩)
    (by
      intro v hv
      simp only [textVoteds, List.mem_cons, List.not_mem_nil, or_false] at hv
      rcases hv with rfl | rfl
      · exact ⟨(by decide : 3 < extraSmall.q), (by decide : 3 < extraSmall.q)⟩
      · exact ⟨(by decide : 3 < extraSmall.q), (by decide : 3 < extraSmall.q)⟩)
    (by
      intro v hv
      simp only [textVoteds, List.mem_cons, List.not_mem_nil, or_false] at hv
      rcases hv with rfl | rfl
      · exact Or.inl rfl
      · exact Or.inr rfl)
    (by simp only [textsTo, textOps, List.filterMap_cons, List.filterMap_nil, if_true]; rfl) (by decide +kernel) (by decide +kernel)
    (["b", "a"].map (fun id => (id, fun _ _ => true, toySeeds)))
    (fun j hjm => by
      obtain ⟨id, hid, rfl⟩ := List.mem_map.1 hjm
      exact ⟨by rw [hj]; exact hin id hid, fun _ => ⟨0, by decide, rfl⟩⟩)
    (fun id hid => by
      rw [hj] at hid
      exact ⟨_, List.mem_map.2 ⟨id, hin' id hid, rfl⟩, rfl⟩)
    (fun _ _ => true) (fun _ => ⟨0, by decide, rfl⟩) extraSmallConstants rfl [] (fun _ _ => true) (fun _ => ⟨0, by decide, rfl⟩)
  have e1 : (counted textVoteds).map (fun v => v.plain) = [toyVote "b" 1 0 1] := by decide +kernel
  have e2 : ((firsts textVoteds).filter (fun v => decide (v.state = .spoiled))).map (fun v => v.plain) = [toyVote "w" 0 1 1] := by
    decide +kernel
  refine ⟨d, d', rec, h1, h2, h3, fun v hv => ⟨(h4 v hv).1, ?_⟩⟩
  rw [← e1, ← e2]
  exact (h4 v hv).2.1

end EG
