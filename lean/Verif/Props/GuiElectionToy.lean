import Verif.Props.GuiElection
import Verif.Props.GuiDecryptionToy
import Verif.Props.GuiKeyCeremonyToy

/-!
# C72: instances, and what goes wrong with elections created by the GUI
-/

namespace EG
/-- A third guardian joins the ceremony for two after the joint key was published. -/
def toyLate : KCSystem := toyKCDone.run toyEnv strictLoads (toyJoins "c" 3)

/-- The database with the election `e`. -/
def toyCreatedDb (e : GuiElection) : GuiDb := ⟨[("e", e.doc)], []⟩

/-- The file of a ballot for it. -/
def toyCreatedBallots (e : GuiElection) : List (List Char × SBallot) :=
  [("b}".toList, match encryptBallot toyEnv toyJson (toyVote "b" 1 0 1) toyIM e.context 3 3 17 true with
    | .ok (some b) => submitBallot toyEnv b .cast
    | _ => submitBallot toyEnv toyNoBallot .cast)]

/-- A run of the decryption. -/
def toyCreatedGui (e : GuiElection) (files : List (String × PrivateGuardianRecord)) (evs : List (List GuiEvent)) : GuiWorld :=
  (GuiWorld.start (toyCreatedDb e) "e" e.guardians).run toyEnv 12 (toyRead (toyCreatedBallots e))
    (loadFromDecryption files e.guardians e.quorum) evs.flatten


/-- The file of a guardian in the toy key ceremony. -/
def toyFile (id : String) (order : Int) (poly : List Coefficient) : PrivateGuardianRecord :=
  let pub := poly.map (fun c => c.commitment)
  { guardianId := id
    electionKeys := ⟨id, order, ⟨(poly.map (fun c => c.value)).headD 0, pub.headD 0⟩, poly⟩
    backupsToShare := []
    guardianKeys := [(id, ⟨id, order, pub.headD 0, pub, poly.map (fun c => c.proof)⟩)]
    guardianBackups := []
    guardianVerifications := [] }

def toyFileA : PrivateGuardianRecord := toyFile "a" 1 [⟨5, 130, ⟨130, 16, 7, 10⟩⟩, ⟨7, 153, ⟨153, 14, 12, 9⟩⟩]
def toyFileB : PrivateGuardianRecord := toyFile "b" 2 [⟨4, 67, ⟨67, 16, 5, 8⟩⟩, ⟨6, 39, ⟨39, 14, 0, 3⟩⟩]
def toyFileC : PrivateGuardianRecord := toyFile "c" 3 [⟨3, 14, ⟨14, 16, 11, 8⟩⟩, ⟨5, 130, ⟨130, 14, 9, 9⟩⟩]

/-- The files of the three guardians. -/
def toyLateFiles : List (String × PrivateGuardianRecord) := [("b", toyFileB), ("a", toyFileA), ("c", toyFileC)]

/-- Their keys. -/
def toyLateKeys : List ElectionPublicKey := toyLateFiles.map (fun f => f.2.electionKeys.share)

theorem toyKC_literal : toyKC.files = [("b", toyFileB), ("a", toyFileA)] ∧
    toyKC.doc.keys = [toyFileB.electionKeys.share, toyFileA.electionKeys.share] := by decide +kernel

theorem toyGuardianC : (makeGuardian toyEnv "c" 3 2 2 (toyKeyRands 3)).toOption.map (fun g => (g.id, g.exportPrivate, g.shareKey))
    = some ("c", toyFileC, toyFileC.electionKeys.share) := by decide +kernel

theorem toyKCDone_joint : toyKCDone.doc.jointKey = some ⟨75, 0⟩ := by
  obtain ⟨-, jk, kps, h1, h2⟩ := toyKCDone_complete
  obtain ⟨-, hn, -, hj, hf, -⟩ := toyKCDone_keeps
  have hlen : kps.length = 2 := by
    have := h2.count
    omega
  have hids := h2.ids
  rw [hlen, hj] at hids
  rw [toyKC_literal.1] at hf
  match kps, hlen with
  | [kp, kp'], _ =>
    simp only [List.map_cons, List.map_nil, List.take, List.cons.injEq, and_true] at hids
    obtain ⟨r, hr, hrk⟩ := h2.files kp (by simp)
    obtain ⟨r', hr', hrk'⟩ := h2.files kp' (by simp)
    rw [hf, hids.1] at hr
    rw [hf, hids.2] at hr'
    have e1 : toyFileA = r := Option.some.inj hr
    have e2 : toyFileB = r' := Option.some.inj hr'
    have hjoint := h2.joint
    have hhash := h2.commitmentHash
    rw [← hrk, ← hrk', ← e1, ← e2] at hjoint hhash
    rw [h1]
    obtain ⟨x, y⟩ := jk
    simp only at hjoint hhash
    have c1 : ([toyFileA.electionKeys, toyFileB.electionKeys].map
      (fun kp => toyEnv.P.g ^ kp.keyPair.secret % toyEnv.P.p)).prod % toyEnv.P.p = 75 := by decide +kernel
    have c2 : hashElems toyEnv [.list (([toyFileA.electionKeys, toyFileB.electionKeys].flatMap
      (fun kp => kp.coefficients.map (fun a => toyEnv.P.g ^ a % toyEnv.P.p))).map HArg.elem)] = 0 := by decide +kernel
    rw [hjoint, hhash, c1, c2]

/-- What a third guardian that joins leaves. -/
theorem join_late {s : KCSystem} (hp : s.procs = []) (hn : s.doc.guardianCount = 2) (hq : s.doc.quorum = 2)
    (hj : s.doc.joined = ["a", "b"]) {s' : KCSystem} (hs' : s' = s.run toyEnv strictLoads (toyJoins "c" 3)) :
    s'.doc.completed = s.doc.completed ∧ s'.doc.jointKey = s.doc.jointKey ∧ s'.doc.guardianCount = 2 ∧ s'.doc.quorum = 2 ∧
    s'.doc.joined = ["a", "b", "c"] ∧ s'.doc.keys = s.doc.keys ++ [toyFileC.electionKeys.share] ∧
    s'.files = dset s.files "c" toyFileC := by
  have hg := toyGuardianC
  cases hm : makeGuardian toyEnv "c" 3 2 2 (toyKeyRands 3) with
  | error e => rw [hm] at hg; cases hg
  | ok g =>
    rw [hm] at hg
    simp only [Except.toOption, Option.map_some, Option.some.injEq, Prod.mk.injEq] at hg
    obtain ⟨g1, g2, g3⟩ := hg
    have hrun := toyJoins_run s hp (user := "c") (x := 3)
      (w := ⟨(s.doc.apply (.joined "c")).apply (.key g.shareKey), dset s.files g.id g.exportPrivate⟩) (by
        have : (s.doc.apply (.joined "c")).guardianNumber "c" = .ok 3 := by
          simp [KCDoc.apply, KCDoc.guardianNumber, hj, List.idxOf, List.findIdx_cons]
        simp only [KCWorld.join, this]
        simp only [KCDoc.apply, hn, hq, hm])
    rw [hs', hrun]
    simp only [KCDoc.apply]
    exact ⟨trivial, trivial, hn, hq, by simp [hj], by rw [g3], by rw [g1, g2]⟩

theorem toyLate_facts : toyLate.doc.completed = true ∧ toyLate.doc.jointKey = some ⟨75, 0⟩ ∧ toyLate.doc.guardianCount = 2 ∧
    toyLate.doc.quorum = 2 ∧ toyLate.doc.joined = ["a", "b", "c"] ∧ toyLate.doc.keys = toyLateKeys ∧
    toyLate.files = toyLateFiles := by
  obtain ⟨hp, hn, hq, hj, hf, hk⟩ := toyKCDone_keeps
  obtain ⟨h1, h2, h3, h4, h5, h6, h7⟩ := join_late hp hn hq hj (s' := toyLate) rfl
  refine ⟨h1.trans toyKCDone_complete.1, h2.trans toyKCDone_joint, h3, h4, h5, ?_, ?_⟩
  · rw [h6, hk, toyKC_literal.2]
    rfl
  · rw [h7, hf, toyKC_literal.1]
    decide +kernel

/-- The election that is created after the third guardian joined. -/
def toyLateElection : GuiElection :=
  { name := "n"
    keyCeremonyId := "k"
    guardians := 2
    quorum := 2
    url := none
    manifest := toyManifest
    context := ⟨2, 2, 75, 0, 9, 6, 2⟩
    extendedData := none
    guardianRecords := [⟨"b", 2, 67, [], []⟩, ⟨"a", 1, 130, [], []⟩, ⟨"c", 3, 14, [], []⟩]
    packageFile := "k" }

/-- An election depends on five fields of the key ceremony. -/
theorem computeElection_congr {E : Env} {parse : List Char → Option Manifest} {kcId name : String} {kc kc' : KCDoc} {raw : List Char}
    {url : Option String} (h1 : kc.guardianCount = kc'.guardianCount) (h2 : kc.quorum = kc'.quorum) (h3 : kc.keys = kc'.keys)
    (h4 : kc.jointKey = kc'.jointKey) :
    computeElection E parse kcId kc name raw url = computeElection E parse kcId kc' name raw url := by
  simp only [computeElection, KCDoc.getJointKey, h1, h2, h3, h4]

theorem toyComputed_late {kc : KCDoc} (h1 : kc.jointKey = some ⟨75, 0⟩) (h2 : kc.guardianCount = 2) (h3 : kc.quorum = 2)
    (h4 : kc.keys = toyLateKeys) :
    ∃ pkg, computeElection toyEnv (fun _ => some toyManifest) "k" kc "n" [] none = .ok (toyLateElection, pkg) := by
  have h : (computeElection toyEnv (fun _ => some toyManifest) "k"
      ⟨2, 2, [], toyLateKeys, [], [], [], [], some ⟨75, 0⟩, true⟩ "n" [] none).toOption.map (fun x => x.1) = some toyLateElection := by
    decide +kernel
  rw [computeElection_congr (kc' := ⟨2, 2, [], toyLateKeys, [], [], [], [], some ⟨75, 0⟩, true⟩) h2 h3 h4 h1]
  revert h
  generalize computeElection toyEnv (fun _ => some toyManifest) "k"
    ⟨2, 2, [], toyLateKeys, [], [], [], [], some ⟨75, 0⟩, true⟩ "n" [] none = x
  intro h
  cases x with
  | error e => cases h
  | ok x => exact ⟨x.2, by rw [← Option.some.inj h]⟩

/-- The decryption of the election by the guardians that hold the key. -/
theorem toyLate_right : (toyCreatedGui toyLateElection toyLateFiles [toyUp "b}", toyJoin "a" 0, toyJoin "b" 1, toyAdmin 0]).dec.completed.map
    (fun r => r.tally.numbers) = some [("c", [("sx", 1), ("sy", 0)]), ("d", [("sz", 1)])] := by decide +kernel

/-- The decryption of the election by a guardian that holds the key and the one that joined late. -/
theorem toyLate_wrong : (toyCreatedGui toyLateElection toyLateFiles [toyUp "b}", toyJoin "a" 0, toyJoin "c" 1, toyAdmin 0]).dec.completed.map
    (fun r => r.tally.numbers) = some [("c", [("sx", 10), ("sy", 6)]), ("d", [("sz", 6)])] := by decide +kernel

/-- C72 (negative) A guardian that joins the ceremony after the joint key was published gets into the guardian records of the
election, one more than the election has guardians.  When it joins the decryption instead of a guardian that holds the key, the
decryption is completed with a wrong result: here 10 votes for `sx` though there is one ballot, which all who hold the key decrypt
to 1. -/
theorem C72_late_joiner_fails : ∃ (evs : List KCEvent) (s : KCSystem) (e : GuiElection) (pkg : EncryptionPackage),
    s = (KCSystem.init 2 2).run toyEnv strictLoads evs ∧ s.doc.completed = true ∧ s.doc.joined = ["a", "b", "c"] ∧
    computeElection toyEnv (fun _ => some toyManifest) "k" s.doc "n" [] none = .ok (e, pkg) ∧
    e.guardians = 2 ∧ e.guardianRecords.length = 3 ∧
    (toyCreatedGui e s.files [toyUp "b}", toyJoin "a" 0, toyJoin "b" 1, toyAdmin 0]).dec.completed.map
      (fun r => r.tally.numbers) = some [("c", [("sx", 1), ("sy", 0)]), ("d", [("sz", 1)])] ∧
    (toyCreatedGui e s.files [toyUp "b}", toyJoin "a" 0, toyJoin "c" 1, toyAdmin 0]).dec.completed.map
      (fun r => r.tally.numbers) = some [("c", [("sx", 10), ("sy", 6)]), ("d", [("sz", 6)])] := by
  obtain ⟨h1, h2, h3, h4, h5, h6, h7⟩ := toyLate_facts
  obtain ⟨pkg, hpkg⟩ := toyComputed_late h2 h3 h4 h6
  refine ⟨toyJoinsTogether ++ (toyLooks.flatMap KCEvent.whole ++ toyJoins "c" 3), toyLate, toyLateElection, pkg,
    by rw [run_append, run_append]; rfl, h1, h5, hpkg, rfl, rfl, ?_, ?_⟩
  · rw [h7]
    exact toyLate_right
  · rw [h7]
    exact toyLate_wrong

/-! ### One package for two elections -/

variable {E : Env} {parse : List Char → Option Manifest}

/-- What `create_election` does depends on the key ceremony only by the fields that an election is computed from. -/
theorem run_congr {kc kc' : KCDoc} {id : String} (h1 : kc.guardianCount = kc'.guardianCount) (h2 : kc.quorum = kc'.quorum)
    (h3 : kc.keys = kc'.keys) (h4 : kc.jointKey = kc'.jointKey) (cs : List CreateCall) (es : List (String × GuiElection))
    (ps : List (String × EncryptionPackage)) :
    (SetupWorld.run E parse ⟨[(id, kc)], es, ps⟩ cs).elections = (SetupWorld.run E parse ⟨[(id, kc')], es, ps⟩ cs).elections ∧
    (SetupWorld.run E parse ⟨[(id, kc)], es, ps⟩ cs).packages = (SetupWorld.run E parse ⟨[(id, kc')], es, ps⟩ cs).packages := by
  induction cs generalizing es ps with
  | nil => exact ⟨rfl, rfl⟩
  | cons c cs ih =>
    have hstep : ∃ es' ps', SetupWorld.step E parse ⟨[(id, kc)], es, ps⟩ c = ⟨[(id, kc)], es', ps'⟩ ∧
        SetupWorld.step E parse ⟨[(id, kc')], es, ps⟩ c = ⟨[(id, kc')], es', ps'⟩ := by
      unfold SetupWorld.step SetupWorld.createElection
      simp only
      split
      · exact ⟨es, ps, rfl, rfl⟩
      · by_cases hid : c.kcId = id
        · subst hid
          have g : ∀ k : KCDoc, dget [(c.kcId, k)] c.kcId = some k := fun k => by simp [dget]
          rw [g, g]
          simp only
          rw [computeElection_congr h1 h2 h3 h4]
          split
          · exact ⟨es, ps, rfl, rfl⟩
          · exact ⟨_, _, rfl, rfl⟩
        · have g : ∀ k : KCDoc, dget [(id, k)] c.kcId = none := fun k => by
            rw [dget_eq_none_iff]
            simpa [dkeys] using hid
          rw [g, g]
          exact ⟨es, ps, rfl, rfl⟩
    obtain ⟨es', ps', e1, e2⟩ := hstep
    unfold SetupWorld.run at ih ⊢
    rw [List.foldl_cons, List.foldl_cons, e1, e2]
    exact ih es' ps'

/-- C72 When a second election is made from a key ceremony, the package that is exported for the first one is that of the second. -/
theorem C72_package_overwritten (w : SetupWorld) (c c' : CreateCall) (hfresh : c.newId ∉ dkeys w.elections)
    (hfresh' : c'.newId ∉ dkeys w.elections) (hne : c.newId ≠ c'.newId) (hsame : c.kcId = c'.kcId)
    (hok : (w.createElection E parse c.newId c.kcId c.name c.manifest c.url).1 = .ok c.newId)
    (hok' : ((w.step E parse c).createElection E parse c'.newId c'.kcId c'.name c'.manifest c'.url).1 = .ok c'.newId) :
    ∃ e' p, dget ((w.step E parse c).step E parse c').elections c'.newId = some e' ∧ PackageOf e' p ∧
      ((w.step E parse c).step E parse c').exportPackage c.newId = .ok p ∧
      ((w.step E parse c).step E parse c').exportPackage c'.newId = .ok p := by
  have hex : ∀ (x : SetupWorld) (k : CreateCall), (x.createElection E parse k.newId k.kcId k.name k.manifest k.url).1 = .ok k.newId →
      ∃ e pkg, e.packageFile = k.kcId ∧ PackageOf e pkg ∧ (x.step E parse k).elections = x.elections ++ [(k.newId, e)] ∧
        (x.step E parse k).packages = dset x.packages k.kcId pkg := by
    intro x k hk
    unfold SetupWorld.step
    cases h : x.createElection E parse k.newId k.kcId k.name k.manifest k.url with
    | mk r x' =>
      rw [h] at hk
      simp only at hk
      subst hk
      obtain ⟨-, -, kc, e, pkg, -, h2, -, h4, h5⟩ := createElection_ok h
      obtain ⟨m, jk, im, -, -, -, -, he, hp⟩ := computeElection_ok.1 h2
      have hf : e.packageFile = k.kcId := by rw [he]
      have hm : m = e.manifest := by rw [he]
      refine ⟨e, pkg, hf, ?_, h4, by rw [h5, hf]⟩
      rw [hp, hm]
      exact packageOf_output
  obtain ⟨e, pkg, f1, -, g1, -⟩ := hex w c hok
  obtain ⟨e', pkg', f1', hpo, g1', g2'⟩ := hex _ c' hok'
  have hd : dget w.elections c.newId = none := (dget_eq_none_iff _ _).2 hfresh
  have hd' : dget w.elections c'.newId = none := (dget_eq_none_iff _ _).2 hfresh'
  have e1 : dget ((w.step E parse c).step E parse c').elections c.newId = some e := by
    rw [g1', g1, dget_append, dget_append, hd]
    simp [dget]
  have e2 : dget ((w.step E parse c).step E parse c').elections c'.newId = some e' := by
    rw [g1', g1, dget_append, dget_append, hd']
    simp [dget, hne]
  refine ⟨e', pkg', e2, hpo, ?_, ?_⟩
  · simp only [SetupWorld.exportPackage, e1, f1, g2', hsame, dget_dset, if_true]
  · simp only [SetupWorld.exportPackage, e2, f1', g2', dget_dset, if_true]

/-- Two elections from a key ceremony, with different manifests. -/
def toyTwoElections (kc : KCDoc) : SetupWorld :=
  SetupWorld.run toyEnv
    (fun raw => if raw = "1".toList then some toyManifest else some { toyManifest with electionScopeId := "other" })
    ⟨[("k", kc)], [], []⟩
    [⟨"e1", "k", "first", "1".toList, none⟩, ⟨"e2", "k", "second", "2".toList, some "u"⟩]

/-- The fields of the toy key ceremony that an election is computed from. -/
def toyDone : KCDoc :=
  ⟨2, 2, [], [toyFileB.electionKeys.share, toyFileA.electionKeys.share], [], [], [], [], some ⟨75, 0⟩, true⟩

theorem toyTwoElections_facts : (toyTwoElections toyDone).elections.map (fun e => (e.1, e.2.name)) = [("e1", "first"), ("e2", "second")] ∧
    (dget (toyTwoElections toyDone).elections "e1").map (fun e => (e.manifest.electionScopeId == "other", e.context.manifestHash))
      = some (false, 9) ∧
    ((toyTwoElections toyDone).exportPackage "e1").toOption.map (fun p => (p.manifest.electionScopeId, p.context.manifestHash))
      = some ("other", 1) := by decide +kernel

/-- Two elections from any ceremony with these fields. -/
theorem twoElections_overwritten {kc : KCDoc} (hn : kc.guardianCount = 2) (hq : kc.quorum = 2)
    (hk : kc.keys = [toyFileB.electionKeys.share, toyFileA.electionKeys.share]) (hj : kc.jointKey = some ⟨75, 0⟩) :
    ∃ (e : GuiElection) (p : EncryptionPackage),
    (toyTwoElections kc).elections.map (fun e => (e.1, e.2.name)) = [("e1", "first"), ("e2", "second")] ∧
    dget (toyTwoElections kc).elections "e1" = some e ∧ (toyTwoElections kc).exportPackage "e1" = .ok p ∧
    e.manifest.electionScopeId ≠ "other" ∧ p.manifest.electionScopeId = "other" ∧ p.context ≠ e.context ∧ ¬ PackageOf e p := by
  obtain ⟨he, hp⟩ := run_congr (E := toyEnv)
    (parse := fun raw => if raw = "1".toList then some toyManifest else some { toyManifest with electionScopeId := "other" })
    (kc := kc) (kc' := toyDone) (id := "k") hn hq hk hj
    [⟨"e1", "k", "first", "1".toList, none⟩, ⟨"e2", "k", "second", "2".toList, some "u"⟩] [] []
  obtain ⟨f1, f2, f3⟩ := toyTwoElections_facts
  have hw : (toyTwoElections kc).elections = (toyTwoElections toyDone).elections := he
  have hx : (toyTwoElections kc).exportPackage "e1" = (toyTwoElections toyDone).exportPackage "e1" := by
    have hp' : (toyTwoElections kc).packages = (toyTwoElections toyDone).packages := hp
    simp only [SetupWorld.exportPackage, hw, hp']
  obtain ⟨e, g1, g2⟩ := Option.map_eq_some_iff.1 f2
  cases hexp : (toyTwoElections toyDone).exportPackage "e1" with
  | error err => rw [hexp] at f3; cases f3
  | ok p =>
    rw [hexp] at f3
    simp only [Except.toOption, Option.map_some, Option.some.injEq, Prod.mk.injEq] at f3 g2
    have hctx : p.context ≠ e.context := fun h => by
      have := f3.2
      rw [h, g2.2] at this
      cases this
    exact ⟨e, p, by rw [hw]; exact f1, by rw [hw]; exact g1, by rw [hx]; exact hexp,
      by simpa using g2.1, f3.1, hctx, fun h => hctx h.context⟩

/-- C72 (negative) The encryption package of an election is overwritten by that of a second election from the same key ceremony:
whoever exports the package of the first election gets the manifest and the context of the second one. -/
theorem C72_package_overwritten_fails : ∃ (evs : List KCEvent) (s : KCSystem) (e : GuiElection) (p : EncryptionPackage),
    s = (KCSystem.init 2 2).run toyEnv strictLoads evs ∧ s.doc.completed = true ∧
    (toyTwoElections s.doc).elections.map (fun e => (e.1, e.2.name)) = [("e1", "first"), ("e2", "second")] ∧
    dget (toyTwoElections s.doc).elections "e1" = some e ∧ (toyTwoElections s.doc).exportPackage "e1" = .ok p ∧
    e.manifest.electionScopeId ≠ "other" ∧ p.manifest.electionScopeId = "other" ∧ p.context ≠ e.context ∧ ¬ PackageOf e p := by
  obtain ⟨-, hn, hq, -, -, hk⟩ := toyKCDone_keeps
  obtain ⟨e, p, h⟩ := twoElections_overwritten hn hq (hk.trans toyKC_literal.2) toyKCDone_joint
  exact ⟨toyJoinsTogether ++ toyLooks.flatMap KCEvent.whole, toyKCDone, e, p, by rw [run_append]; rfl, toyKCDone_complete.1, h⟩

/-! ### The whole election -/

-- the hypotheses of `C72_gui_election_partial` about the key ceremony and the election, and what it says about them; for those
-- about the ballots and the joins see `toyLate_right` and the examples of C60 and C70
example (w : SetupWorld) (hw : dget w.ceremonies "k" = some toyKCDone.doc) (hname : ∀ e ∈ w.elections, e.2.name ≠ "n") :
    "k" ∈ w.getKeys ∧ ∃ w' jk e, w.createElection toyEnv (fun _ => some toyManifest) "e" "k" "n" [] none = (.ok "e", w') ∧
      w'.elections = w.elections ++ [("e", e)] ∧ toyKCDone.doc.jointKey = some jk ∧
      MadeFrom toyEnv toyKCDone.doc jk toyManifest none e := by
  have hj : toyKC.doc.joined = ["a", "b"] := toyKC_files.2.2.2.1
  have hlook : EveryoneLooks toyKC.doc.joined [toyLook "x" false, toyLook "b" false, toyLook "a" false] := by
    rw [hj]
    intro id hid
    simp only [List.mem_cons, List.not_mem_nil, or_false] at hid
    rcases hid with rfl | rfl <;> exact ⟨_, by simp [toyLook]; rfl⟩
  have hlook' : EveryoneLooks toyKC.doc.joined [toyLook "a" false, toyLook "b" false] := by
    rw [hj]
    intro id hid
    simp only [List.mem_cons, List.not_mem_nil, or_false] at hid
    rcases hid with rfl | rfl <;> exact ⟨_, by simp [toyLook]; rfl⟩
  obtain ⟨h1, w', jk, e, h2, h3, h4, h5, -⟩ := C72_gui_election_partial (E := toyEnv) (loads := strictLoads) extraSmall_valid
    (by decide) (fun _ _ => by simp [toyEnv]) strictLoads_reads (by decide +kernel) 2 2 (by decide) false (KCDoc.create 2 2) rfl
    (by decide +kernel) (by decide +kernel) toyJoinsTogether toyKC rfl (List.length_eq_zero_iff.1 (by decide +kernel))
    (by rw [hj]; rfl) (by rw [hj]; decide) (by rw [hj]; decide)
    ⟨List.length_eq_zero_iff.1 (by decide +kernel), by decide +kernel, List.length_eq_zero_iff.1 (by decide +kernel),
      by decide +kernel, by decide +kernel⟩
    "adm" "adm" "adm" _ _ _ [toyLook "b" false] _ _ [] hlook hlook' toyKCDone rfl w "k" hw "n" hname "e"
    (fun _ => some toyManifest) [] toyManifest rfl toyIM toyReady (fun _ h => nomatch h) none
  exact ⟨h1, w', jk, e, h2, h3, h4, h5⟩

end EG
