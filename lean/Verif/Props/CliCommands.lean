import Verif.Lemmas.CliCommands

/-!
# C75: an election by the commands `setup`, `encrypt-ballots`, `submit-ballots` and `import-ballots`
-/

namespace EG

variable {E : Env}

theorem buildWithContext_eq {n quorum : Int} {m : Manifest} {im : InternalManifest} {key h : Nat} {ext : Option (List (String × String))}
    (hm : m.isValid = true) (him : mkInternalManifest E m = .ok im) :
    ∃ ext', buildWithContext E m (makeContext E n quorum key h (m.cryptoHash E)) ext
      = .ok (im, makeContext E n quorum key h (m.cryptoHash E), ext') := by
  unfold buildWithContext
  rw [buildElection_eq hm, him]
  exact ⟨_, rfl⟩

theorem json_ne_device {id : String} (h : id ≠ "device") : id ++ ".json" ≠ "device.json" := by
  intro hc
  exact h (name_inj' (suf := ".json") hc)

/-- The files of `encrypt-ballots`, for ballots with distinct ids, none of them `device`. -/
theorem encrypt_files (d : Device) (vs : List VotedBallot) (hid : ∀ v ∈ vs, v.enc.objectId = v.plain.objectId)
    (hn : (vs.map (fun v => v.plain.objectId)).Nodup) (hdev : "device" ∉ vs.map (fun v => v.plain.objectId)) :
    Dir.files ((vs.map (fun v => v.enc)).foldl (fun dir c => dset dir (c.objectId ++ ".json") (.encrypted c))
      (dset [] "device.json" (.device d))) = .device d :: vs.map (fun v => .encrypted v.enc) := by
  have hids : (vs.map (fun v => v.enc)).map (fun c => c.objectId) = vs.map (fun v => v.plain.objectId) := by
    rw [List.map_map]
    exact List.map_congr_left hid
  rw [write_new' (vs.map (fun v => v.enc)) (fun c => c.objectId) ".json" (fun c => .encrypted c) _ (by rw [hids]; exact hn)]
  · simp [Dir.files, dset]
  · intro c hc hm
    have : c.objectId ∈ vs.map (fun v => v.plain.objectId) := by rw [← hids]; exact List.mem_map_of_mem hc
    have hne : c.objectId ≠ "device" := fun h => hdev (h ▸ this)
    simp only [dset, dkeys, List.any_nil, Bool.false_eq_true, if_false, List.nil_append, List.map_cons, List.map_nil,
      List.mem_singleton] at hm
    exact json_ne_device hne hm

/-- The files of `submit-ballots`. -/
theorem submit_files (vs : List VotedBallot) (hid : ∀ v ∈ vs, v.enc.objectId = v.plain.objectId)
    (hn : (vs.map (fun v => v.plain.objectId)).Nodup) :
    Dir.files ((vs.map (fun v => submitBallot E v.enc v.state)).foldl
      (fun dir b => dset dir (b.objectId ++ ".json") (.submitted b)) []) = vs.map (fun v => .submitted (submitBallot E v.enc v.state)) := by
  have hids : (vs.map (fun v => submitBallot E v.enc v.state)).map (fun c => c.objectId) = vs.map (fun v => v.plain.objectId) := by
    rw [List.map_map]
    exact List.map_congr_left hid
  rw [write_new' (vs.map (fun v => submitBallot E v.enc v.state)) (fun c => c.objectId) ".json" (fun c => .submitted c) _
    (by rw [hids]; exact hn) (by simp [dkeys])]
  simp [Dir.files, Function.comp_def]

/-- The files of the guardians' keys. -/
theorem key_files (gs : List Guardian) (hn : (gs.map Guardian.id).Nodup) :
    Dir.files (exportPrivateKeys [] gs) = gs.map (fun g => .key g.exportPrivate) := by
  unfold exportPrivateKeys
  rw [write_new (gs.map Guardian.exportPrivate) (fun r => r.guardianId) "guardian_" ".json" (fun r => .key r) _
    (by rw [List.map_map]; exact hn) (by simp [dkeys])]
  simp [Dir.files, Function.comp_def]

/-- The ballots of some files. -/
theorem perm_ballotsIn {ballots : List PlaintextBallot} {vs p : List VotedBallot} {files : List CliFile}
    (hplain : vs.map (fun v => v.plain) = ballots) (hn : (ballots.map (fun b => b.objectId)).Nodup)
    (hp : ∀ v ∈ p, v ∈ vs) (hpn : (p.map (fun v => v.plain)).Nodup)
    (hf : files.map CliFile.ballotId = p.map (fun v => some v.plain.objectId)) :
    (p.map (fun v => v.plain)).Perm (ballotsIn files ballots) := by
  refine (List.perm_ext_iff_of_nodup hpn ((List.Nodup.of_map _ hn).filter _)).2 (fun b => ?_)
  rw [List.mem_filter, decide_eq_true_eq, hf, ← hplain]
  constructor
  · intro hb
    obtain ⟨v, hv, rfl⟩ := List.mem_map.1 hb
    exact ⟨List.mem_map_of_mem (hp v hv), List.mem_map.2 ⟨v, hv, rfl⟩⟩
  · rintro ⟨hb, hm⟩
    obtain ⟨w, hw, he⟩ := List.mem_map.1 hm
    have he' : w.plain.objectId = b.objectId := Option.some.inj he
    have hwb : w.plain ∈ ballots := by rw [← hplain]; exact List.mem_map_of_mem (hp w hw)
    rw [hplain] at hb
    have : w.plain = b := List.inj_on_of_nodup_map hn hwb hb he'
    rw [← this]
    exact List.mem_map_of_mem hw

theorem forall₂_append_left {α β : Type} {r : α → β → Prop} (l l' : List α) (m : List β) (h : List.Forall₂ r (l ++ l') m) :
    ∃ a b, List.Forall₂ r l a ∧ List.Forall₂ r l' b ∧ m = a ++ b := by
  induction l generalizing m with
  | nil => exact ⟨[], m, .nil, h, rfl⟩
  | cons x l ih =>
    cases h with
    | cons hx h =>
      obtain ⟨a, b, h1, h2, rfl⟩ := ih _ h
      exact ⟨_ :: a, b, .cons hx h1, h2, rfl⟩

/-- `C75_pipeline_partial`, with the record that `import-ballots` exports; a file may be replaced by
that of the same ballot after an earlier submission. -/
theorem pipeline_core (hv : E.P.Valid) (hpq : (E.P.q - 1) * (E.P.q - 1) < E.P.p) (hlen : HmacLen E)
    (loads : Bytes → R (List Char)) (hl : ReadsCoordinate loads) (hq : E.P.q ≤ 256 ^ 246) (json : ContestData → Bytes)
    (maxE : Nat) (hmaxE : 1 ≤ maxE) (n quorum : Nat) (hquorum : 0 < quorum) (hmany : quorum ≤ n) (hn : n < E.P.q)
    (hpow : ∀ i < quorum, n ^ i < E.P.p) (rands : Nat → List (Nat × Nat)) (hr : ∀ i < n, (rands i).length = quorum)
    (nonces : String → Nat → Nat) (m : Manifest) (im : InternalManifest) (he : ElectionReady E m im) (hnamed : m.Named)
    (url : Option String) :
    ∃ pkg keys, setupCommand E loads rands nonces n quorum m url [] = .ok (pkg, keys) ∧ pkg.manifest = m ∧
      ∀ (d : Device) (calls : List (PlaintextBallot × Nat × Int)),
        (calls.map (fun c => c.1.objectId)).Nodup → "device" ∉ calls.map (fun c => c.1.objectId) →
        (∀ c ∈ calls, ∃ d, im.StyleHas c.1.styleId d) →
        (∀ c ∈ calls, ∀ d, im.StyleHas c.1.styleId d →
          Encryptable E json (c.1.voted d.toContestDescription) d (nonceSeed E im.manifestHash c.1.objectId c.2.1)) →
        ∃ dir, encryptCommand E json d m pkg.context pkg.extendedData calls [] = .ok dir ∧
          ∀ castFiles spoilFiles files : List CliFile, List.Forall₂ (CliFile.SameBallot E) (castFiles ++ spoilFiles) files →
            (.device d :: files).Perm dir.files → castFiles.length < E.P.q → castFiles.length ≤ maxE →
            ∃ sdir, submitCommand E m pkg.context pkg.extendedData castFiles spoilFiles [] = .ok sdir ∧
              List.Forall₂ (CliFile.SameBallot E) sdir.files files ∧
              ∀ ballotFiles keyFiles : List CliFile, ballotFiles.Perm sdir.files → keyFiles.Perm keys.files → ∀ sd : TallySeeds,
                ∃ res out cast spoiled, importCommand E maxE sd m pkg.context pkg.extendedData ballotFiles keyFiles = .ok (res, out) ∧
                  cast.Perm (ballotsIn castFiles (calls.map (fun c => c.1))) ∧
                  spoiled.Perm (ballotsIn spoilFiles (calls.map (fun c => c.1))) ∧
                  res.Right im cast spoiled ∧ res.Printed m out ∧
                  ∀ (constants : Constants) (devices : List Device), constants.params = E.P →
                    ∃ rec, importRecord E constants m pkg.context pkg.extendedData devices ballotFiles keyFiles true res = .ok (some rec) ∧
                      rec.devices = writeAll "device_" (fun d => decStr d.deviceId) devices ∧
                      ∀ v : RecordView, v.Of rec → v.Audited E ∧ v.Publishes im cast spoiled := by
  have hm : m.isValid = true := (C41_iff_partial m).2 he.manifest.ok
  have hget : cliGetManifest m = .ok m := (cliGetManifest_iff m m).2 ⟨rfl, hm, hnamed⟩
  obtain ⟨gs0, gs, jk, kps, rands', ctx, k1, k2, k3, hnum, hteam, horders, hequip, hctx, hhash⟩ := cli_setup hv hlen loads hl hq n quorum
    hquorum (by omega) hn hpow rands hr nonces m im hm he.internal url
  have hq' : ctx.quorum = (quorum : Int) ∧ ctx.numberOfGuardians = (kps.length : Int) := by
    rw [hctx, hnum]; exact ⟨rfl, rfl⟩
  have hkey : ctx.elgamalPublicKey = combinePublicKeys E.P (kps.map (fun kp => kp.share.key)) := by rw [hctx]; rfl
  have hh : ctx.cryptoExtendedBaseHash < E.P.q := by
    rw [hctx]
    exact hashElems_lt (by have := hv.one_lt_q; omega) _
  have hres : isValidResidue E.P ctx.elgamalPublicKey = true := by
    have := combined_residue hv (hteam.sharedKeys hv horders)
    rw [List.map_map] at this
    rw [hkey]
    exact this
  have hbuild : ∀ ext, ∃ ext', buildWithContext E m ctx ext = .ok (im, ctx, ext') := by
    intro ext
    rw [hctx]
    exact buildWithContext_eq hm he.internal
  have hown : gs.map (fun g => g.electionKeys) = kps := by
    have key : ∀ (l : List ElectionKeyPair) (gs : List Guardian),
        List.Forall₂ (Guardian.Equipped E loads rands' kps) gs l → gs.map (fun g => g.electionKeys) = l := by
      intro l gs h1
      induction h1 with
      | nil => rfl
      | cons hx _ ih => rw [List.map_cons, ih, hx.own]
    exact key kps gs hequip
  have hgid : (gs.map Guardian.id).Nodup := by
    have : gs.map Guardian.id = kps.map (fun kp => kp.ownerId) := by rw [← hown, List.map_map]; rfl
    rw [this]
    exact hteam.ids
  obtain ⟨im', him', -, hsorted, -⟩ := C40_unique_ids_partial E m he.manifest
  rw [he.internal] at him'
  cases him'
  refine ⟨outputSetupFiles ctx (url.map (fun u => [("verification_url", u)])) m (gs.map Guardian.publish), exportPrivateKeys [] gs,
    ?_, rfl, ?_⟩
  · unfold setupCommand
    simp only [k1, hget, k2, k3, bind, Except.bind, pure, Except.pure]
  intro d calls hnd hdev hstyle henc
  have hpc : (outputSetupFiles ctx (url.map (fun u => [("verification_url", u)])) m (gs.map Guardian.publish)).context = ctx := rfl
  rw [hpc]
  generalize (outputSetupFiles ctx (url.map (fun u => [("verification_url", u)])) m (gs.map Guardian.publish)).extendedData = ext
  obtain ⟨ext', hb⟩ := hbuild ext
  obtain ⟨cs, hcs⟩ := encryptLoop_ok json im ctx calls (d.getHash E) (fun c hc seed => by
    obtain ⟨e, he', -⟩ := C28_returns_partial hv hpq hlen json c.1 im ctx seed c.2.1 c.2.2 false hres (fun d hd => by
        obtain ⟨-, -, -, -, hd, -⟩ := hd
        exact he.seats d hd) hsorted (hstyle c hc) (henc c hc)
    exact ⟨e, he'⟩)
  obtain ⟨vs, rfl, hplain, hof⟩ := encryptLoop_sound json im ctx none _ _ _ hcs
  have hst : ∀ v ∈ vs, ∃ d, im.StyleHas v.plain.styleId d := by
    intro v hv'
    have : v.plain ∈ calls.map (fun c => c.1) := by rw [← hplain]; exact List.mem_map_of_mem hv'
    obtain ⟨c, hc, hce⟩ := List.mem_map.1 this
    rw [← hce]
    exact hstyle c hc
  have hvalid := fun v (hv' : v ∈ vs) => encrypted_valid hv hpq he hres (hof v hv').1 (hst v hv')
  have hvalid2 := fun v (hv' : v ∈ vs) => submitted_valid hv hpq he hres (hof v hv').1 (hst v hv')
  have hids : vs.map (fun v => v.plain.objectId) = calls.map (fun c => c.1.objectId) := by
    have := congrArg (List.map (fun b : PlaintextBallot => b.objectId)) hplain
    rwa [List.map_map, List.map_map] at this
  have hvn : (vs.map (fun v => v.plain.objectId)).Nodup := by rw [hids]; exact hnd
  refine ⟨(vs.map (fun v => v.enc)).foldl (fun dir c => dset dir (c.objectId ++ ".json") (.encrypted c))
    (dset [] "device.json" (.device d)), ?_, ?_⟩
  · unfold encryptCommand encryptVotes
    simp only [hget, hb, hcs, bind, Except.bind, pure, Except.pure]
  intro castFiles spoilFiles files hsame hperm hsmall hmax
  rw [encrypt_files d vs (fun v hv' => (hvalid v hv').1) hvn (by rw [hids]; exact hdev)] at hperm
  obtain ⟨p, hp, hpe⟩ := perm_of_map ((List.perm_cons _).1 hperm)
  obtain ⟨cf, sf, hcf, hsf, hfe⟩ := forall₂_append_left _ _ _ hsame
  obtain ⟨pc, ps, rfl, hpc', hps'⟩ := List.map_eq_append_iff.1 (hpe.symm.trans hfe)
  have hpin : ∀ v ∈ pc ++ ps, v ∈ vs := fun v hv' => hp.subset hv'
  have hpn : ((pc ++ ps).map (fun v => v.plain.objectId)).Nodup := (hp.map _).nodup_iff.2 hvn
  set ps1 : List VotedBallot := ps.map (fun v => { v with state := .spoiled }) with hps1
  have hcst : ∀ v ∈ pc, v.state = .cast := fun v hv' => by
    rw [(hof v (hpin v (List.mem_append_left _ hv'))).2]; simp
  have hpn1 : ((pc ++ ps1).map (fun v => v.plain.objectId)).Nodup := by
    have : (pc ++ ps1).map (fun v => v.plain.objectId) = (pc ++ ps).map (fun v => v.plain.objectId) := by
      rw [List.map_append, List.map_append, hps1, List.map_map]; rfl
    rw [this]; exact hpn
  have hid1 : ∀ v ∈ pc ++ ps1, v.enc.objectId = v.plain.objectId := by
    intro v hv'
    rcases List.mem_append.1 hv' with h | h
    · exact (hvalid v (hpin v (List.mem_append_left _ h))).1
    · obtain ⟨w, hw, rfl⟩ := List.mem_map.1 h
      exact (hvalid w (hpin w (List.mem_append_right _ hw))).1
  have henc1 : ∀ v ∈ pc ++ ps1, v.Encrypted E json im ctx ∧ ∃ d, im.StyleHas v.plain.styleId d := by
    intro v hv'
    rcases List.mem_append.1 hv' with h | h
    · exact ⟨(hof v (hpin v (List.mem_append_left _ h))).1, hst v (hpin v (List.mem_append_left _ h))⟩
    · obtain ⟨w, hw, rfl⟩ := List.mem_map.1 h
      exact ⟨(hof w (hpin w (List.mem_append_right _ hw))).1, hst w (hpin w (List.mem_append_right _ hw))⟩
  obtain ⟨⟨xc, xc1, fc⟩, bc⟩ := files_stand (im := im) (ctx := ctx) (hpc' ▸ hcf) (fun v hv' => (hvalid v (hpin v (List.mem_append_left _ hv'))).1)
    (fun v hv' => (hvalid v (hpin v (List.mem_append_left _ hv'))).2) (fun v hv' => hvalid2 v (hpin v (List.mem_append_left _ hv')))
  obtain ⟨⟨xs, xs1, fs⟩, bs⟩ := files_stand (im := im) (ctx := ctx) (hps' ▸ hsf) (fun v hv' => (hvalid v (hpin v (List.mem_append_right _ hv'))).1)
    (fun v hv' => (hvalid v (hpin v (List.mem_append_right _ hv'))).2) (fun v hv' => hvalid2 v (hpin v (List.mem_append_right _ hv')))
  have hsub : submitBallots E im ctx xc xs
      = .ok ((pc ++ ps1).map (fun v => submitBallot E v.enc v.state)) := by
    unfold submitBallots
    rw [List.map_append] at hpn
    have n1 := (List.nodup_append.1 hpn).1
    have n2 := (List.nodup_append.1 hpn).2.1
    have s1 := submitLoop_stands im ctx .cast (boxCast E im ctx) (fun _ _ => rfl) fc [] n1 (by simp [dkeys])
    have s2 := submitLoop_stands im ctx .spoiled (boxSpoil E im ctx) (fun _ _ => rfl) fs
      ([] ++ pc.map (fun v => (v.plain.objectId, submitBallot E v.enc .cast))) n2 (by
        intro v hv' hc
        rw [List.nil_append, dkeys, List.map_map] at hc
        exact (List.nodup_append.1 hpn).2.2 v.plain.objectId hc v.plain.objectId (List.mem_map.2 ⟨v, hv', rfl⟩) rfl)
    simp only [s1, s2, bind, Except.bind, pure, Except.pure, Store.all]
    congr 1
    rw [hps1]
    simp only [List.nil_append, List.map_append, List.map_map]
    congr 1
    refine List.map_congr_left (fun v hv' => ?_)
    show submitBallot E v.enc .cast = _
    rw [hcst v hv']
  refine ⟨((pc ++ ps1).map (fun v => submitBallot E v.enc v.state)).foldl
      (fun dir b => dset dir (b.objectId ++ ".json") (.submitted b)) [], ?_, ?_⟩
  · unfold submitCommand
    simp only [hget, xc1, xs1, hb, hsub, bind, Except.bind, pure, Except.pure]
  refine ⟨?_, ?_⟩
  · rw [submit_files (pc ++ ps1) hid1 hpn1, hpe, List.map_append, List.map_append, hps1, List.map_map]
    refine List.rel_append (List.forall₂_map_left_iff.2 (List.forall₂_map_right_iff.2 (List.forall₂_same.2 (fun v _ => ?_))))
      (List.forall₂_map_left_iff.2 (List.forall₂_map_right_iff.2 (List.forall₂_same.2 (fun v _ => ?_))))
    · exact .inr ⟨_, _, rfl, rfl⟩
    · exact .inr ⟨_, _, rfl, rfl⟩
  intro ballotFiles keyFiles hbf hkf sd
  rw [submit_files (pc ++ ps1) hid1 hpn1] at hbf
  rw [key_files gs hgid] at hkf
  obtain ⟨w, hw, rfl⟩ := perm_of_map hbf
  obtain ⟨ks, hks, rfl⟩ := perm_of_map hkf
  set avs : List (Guardian × ElectionKeyPair) := ks.map (fun g =>
    (Guardian.fromPrivateRecord g.exportPrivate ctx.numberOfGuardians ctx.quorum, g.electionKeys)) with havs
  have hall : (avs.map Prod.snd).Perm kps := by
    rw [havs, List.map_map, ← hown]
    exact hks.map _
  have hpres : Present E loads rands' kps avs := by
    refine ⟨fun x hx => ?_, ?_⟩
    · obtain ⟨g, hg, rfl⟩ := List.mem_map.1 hx
      obtain ⟨kp, hkp, hge⟩ := forall₂_left hequip (hks.subset hg)
      have hkeq := hge.own
      dsimp only
      rw [hkeq]
      exact ⟨hkp, restored_equipped hkp hge _ _⟩
    · have := (hall.map (fun kp : ElectionKeyPair => kp.ownerId)).nodup_iff.2 hteam.ids
      rwa [List.map_map] at this
  have hwf : ∀ st, (w.filter (fun v => decide (v.state = st))).Perm ((pc ++ ps1).filter (fun v => decide (v.state = st))) :=
    fun st => hw.filter _
  have hfc : (pc ++ ps1).filter (fun v => decide (v.state = .cast)) = pc := by
    rw [List.filter_append, List.filter_eq_self.2, List.filter_eq_nil_iff.2, List.append_nil]
    · intro v hv'
      obtain ⟨w, hw, rfl⟩ := List.mem_map.1 hv'
      simp
    · intro v hv'
      rw [hcst v hv']; simp
  have hfs : (pc ++ ps1).filter (fun v => decide (v.state = .spoiled)) = ps1 := by
    have e1 : pc.filter (fun v => decide (v.state = .spoiled)) = [] := by
      refine List.filter_eq_nil_iff.2 (fun v hv' => ?_)
      rw [hcst v hv']; simp
    have e2 : ps1.filter (fun v => decide (v.state = .spoiled)) = ps1 := by
      refine List.filter_eq_self.2 (fun v hv' => ?_)
      obtain ⟨w, hw, rfl⟩ := List.mem_map.1 hv'
      simp
    rw [List.filter_append, e1, e2, List.nil_append]
  have hcl : (w.filter (fun v => decide (v.state = .cast))).length = castFiles.length := by
    rw [(hwf .cast).length_eq, hfc, hcf.length_eq, ← hpc', List.length_map]
  obtain ⟨t, res, out, r1, r2, r3, r4, r5⟩ := cli_results hv hpq loads quorum hquorum rands' kps hteam horders sd ctx hq' hh hkey maxE
    hmaxE json m im he avs hpres hall (by rw [hnum]; exact hmany) w ((hw.map _).nodup_iff.2 hpn1) (fun v hv' => henc1 v (hw.subset hv'))
    (by rw [hcl]; exact hsmall) (by rw [hcl]; exact hmax)
  have hpn2 : ((pc ++ ps).map (fun v => v.plain)).Nodup := by
    refine List.Nodup.of_map (fun b : PlaintextBallot => b.objectId) ?_
    rw [List.map_map]
    exact hpn
  rw [List.map_append] at hpn2
  have hnd' : ((calls.map (fun c => c.1)).map (fun b => b.objectId)).Nodup := by rw [List.map_map]; exact hnd
  have c1 : (ks.map (fun g => CliFile.key g.exportPrivate)).mapM CliFile.asKey = .ok (ks.map Guardian.exportPrivate) :=
    mapM_files CliFile.asKey _ _ ks (fun _ _ => rfl)
  have c2 : (w.map (fun v => CliFile.submitted (submitBallot E v.enc v.state))).mapM CliFile.asSubmitted
      = .ok (w.map (fun v => submitBallot E v.enc v.state)) := mapM_files CliFile.asSubmitted _ _ w (fun _ _ => rfl)
  have c3 : (ks.map Guardian.exportPrivate).map (fun r => Guardian.fromPrivateRecord r ctx.numberOfGuardians ctx.quorum)
      = avs.map Prod.fst := by
    rw [havs, List.map_map, List.map_map]; rfl
  have c4 : (w.map (fun v => submitBallot E v.enc v.state)).filter (fun b => decide (b.state = .spoiled))
      = (w.filter (fun v => decide (v.state = .spoiled))).map (fun v => submitBallot E v.enc v.state) := by
    rw [List.filter_map]; rfl
  refine ⟨res, out, _, _, ?_, ?_, ?_, r3, r5, ?_⟩
  · unfold importCommand tallyFromBallots
    simp only [hget, c1, c2, hb, c3, c4, r1, r2, r4, bind, Except.bind, pure, Except.pure]
  · refine ((hwf .cast).map _).trans ?_
    rw [hfc]
    exact perm_ballotsIn hplain hnd' (fun v hv' => hpin v (List.mem_append_left _ hv'))
      (List.nodup_append.1 hpn2).1 bc
  · refine ((hwf .spoiled).map _).trans ?_
    rw [hfs, hps1, List.map_map]
    exact perm_ballotsIn hplain hnd' (fun v hv' => hpin v (List.mem_append_right _ hv'))
      (List.nodup_append.1 hpn2).2.1 bs
  · intro constants devices hk
    refine ⟨exportRecord m ctx ext' constants devices (w.map (fun v => submitBallot E v.enc v.state)) (res.spoiled.map (fun e => e.2))
      res.ciphertextTally.publish res.tally (some ((avs.map Prod.fst).map Guardian.publish)) res.lagrange, ?_, rfl, ?_⟩
    · unfold importRecord
      simp only [c1, c2, hb, c3, bind, Except.bind, pure, Except.pure, if_true]
    · intro v hof'
      obtain ⟨a1, a2⟩ := exportRecord_audited hv hpq hquorum hteam horders hmaxE he (by rw [← hhash, hnum]; exact hctx) hpres hall
        (by rw [hnum]; exact hmany) ((hw.map _).nodup_iff.2 hpn1) (fun v hv' => henc1 v (hw.subset hv'))
        (by rw [hcl]; exact hsmall) (by rw [hcl]; exact hmax) r1 r2 hk hof'
      refine ⟨a1, a2 r3 (fun v hv' => hid1 v (hw.subset hv')) (fun v hv' => ?_)⟩
      rcases List.mem_append.1 (hw.subset hv') with h | h
      · exact .inl (hcst v h)
      · obtain ⟨u, -, rfl⟩ := List.mem_map.1 h
        exact .inr rfl

/-- C75 An election by the four commands.  `setup` makes the package and the guardians' files; `encrypt-ballots` encrypts the ballots; every file but
the device's is put into the directory to cast or the one to spoil; `submit-ballots` writes the submitted ballots; `import-ballots` reads
these, and the files of all guardians, in any order.  No command fails, the tally has exactly the votes of the ballots that were cast,
every spoiled ballot is published with exactly the voter's votes, and both are printed under the names of the manifest.
Partial: as `C74_e2e_returns_iff_partial`; ids distinct and none of them `device`; all guardians' files (`C75_import_needs_all_guardians`). -/
theorem C75_pipeline_partial (hv : E.P.Valid) (hpq : (E.P.q - 1) * (E.P.q - 1) < E.P.p) (hlen : HmacLen E)
    (loads : Bytes → R (List Char)) (hl : ReadsCoordinate loads) (hq : E.P.q ≤ 256 ^ 246) (json : ContestData → Bytes)
    (maxE : Nat) (hmaxE : 1 ≤ maxE) (n quorum : Nat) (hquorum : 0 < quorum) (hmany : quorum ≤ n) (hn : n < E.P.q)
    (hpow : ∀ i < quorum, n ^ i < E.P.p) (rands : Nat → List (Nat × Nat)) (hr : ∀ i < n, (rands i).length = quorum)
    (nonces : String → Nat → Nat) (m : Manifest) (im : InternalManifest) (he : ElectionReady E m im) (hnamed : m.Named)
    (url : Option String) :
    ∃ pkg keys, setupCommand E loads rands nonces n quorum m url [] = .ok (pkg, keys) ∧ pkg.manifest = m ∧
      ∀ (d : Device) (calls : List (PlaintextBallot × Nat × Int)),
        (calls.map (fun c => c.1.objectId)).Nodup → "device" ∉ calls.map (fun c => c.1.objectId) →
        (∀ c ∈ calls, ∃ d, im.StyleHas c.1.styleId d) →
        (∀ c ∈ calls, ∀ d, im.StyleHas c.1.styleId d →
          Encryptable E json (c.1.voted d.toContestDescription) d (nonceSeed E im.manifestHash c.1.objectId c.2.1)) →
        ∃ dir, encryptCommand E json d m pkg.context pkg.extendedData calls [] = .ok dir ∧
          ∀ castFiles spoilFiles : List CliFile, (.device d :: castFiles ++ spoilFiles).Perm dir.files →
            castFiles.length < E.P.q → castFiles.length ≤ maxE →
            ∃ sdir, submitCommand E m pkg.context pkg.extendedData castFiles spoilFiles [] = .ok sdir ∧
              ∀ ballotFiles keyFiles : List CliFile, ballotFiles.Perm sdir.files → keyFiles.Perm keys.files → ∀ sd : TallySeeds,
                ∃ res out cast spoiled, importCommand E maxE sd m pkg.context pkg.extendedData ballotFiles keyFiles = .ok (res, out) ∧
                  cast.Perm (ballotsIn castFiles (calls.map (fun c => c.1))) ∧
                  spoiled.Perm (ballotsIn spoilFiles (calls.map (fun c => c.1))) ∧
                  res.Right im cast spoiled ∧ res.Printed m out := by
  obtain ⟨pkg, keys, h1, h2, h3⟩ := pipeline_core hv hpq hlen loads hl hq json maxE hmaxE n quorum hquorum hmany hn hpow rands hr nonces
    m im he hnamed url
  refine ⟨pkg, keys, h1, h2, fun d calls a1 a2 a3 a4 => ?_⟩
  obtain ⟨dir, h4, h5⟩ := h3 d calls a1 a2 a3 a4
  refine ⟨dir, h4, fun cf sf b1 b2 b3 => ?_⟩
  obtain ⟨sdir, h6, -, h7⟩ := h5 cf sf (cf ++ sf) (List.forall₂_same.2 (fun _ _ => .inl rfl)) b1 b2 b3
  refine ⟨sdir, h6, fun bf kf c1 c2 sd => ?_⟩
  obtain ⟨res, out, cast, spoiled, d1, d2, d3, d4, d5, -⟩ := h7 bf kf c1 c2 sd
  exact ⟨res, out, cast, spoiled, d1, d2, d3, d4, d5⟩

/-- C75 The files that `submit-ballots` writes can be given to it again: whatever a ballot was, it can be cast or spoiled in a later run.
With any files of a first run put into the directory to cast, and the others into the one to spoil, the second run returns, and
`import-ballots` then counts the first and decrypts the others: also a ballot that was spoiled, and whose votes may have been published,
is counted. -/
theorem C75_resubmit_fails (hv : E.P.Valid) (hpq : (E.P.q - 1) * (E.P.q - 1) < E.P.p) (hlen : HmacLen E)
    (loads : Bytes → R (List Char)) (hl : ReadsCoordinate loads) (hq : E.P.q ≤ 256 ^ 246) (json : ContestData → Bytes)
    (maxE : Nat) (hmaxE : 1 ≤ maxE) (n quorum : Nat) (hquorum : 0 < quorum) (hmany : quorum ≤ n) (hn : n < E.P.q)
    (hpow : ∀ i < quorum, n ^ i < E.P.p) (rands : Nat → List (Nat × Nat)) (hr : ∀ i < n, (rands i).length = quorum)
    (nonces : String → Nat → Nat) (m : Manifest) (im : InternalManifest) (he : ElectionReady E m im) (hnamed : m.Named)
    (url : Option String) :
    ∃ pkg keys, setupCommand E loads rands nonces n quorum m url [] = .ok (pkg, keys) ∧
      ∀ (d : Device) (calls : List (PlaintextBallot × Nat × Int)),
        (calls.map (fun c => c.1.objectId)).Nodup → "device" ∉ calls.map (fun c => c.1.objectId) →
        (∀ c ∈ calls, ∃ d, im.StyleHas c.1.styleId d) →
        (∀ c ∈ calls, ∀ d, im.StyleHas c.1.styleId d →
          Encryptable E json (c.1.voted d.toContestDescription) d (nonceSeed E im.manifestHash c.1.objectId c.2.1)) →
        ∃ dir, encryptCommand E json d m pkg.context pkg.extendedData calls [] = .ok dir ∧
          ∀ castFiles spoilFiles : List CliFile, (.device d :: castFiles ++ spoilFiles).Perm dir.files →
            castFiles.length < E.P.q → castFiles.length ≤ maxE →
            ∃ sdir, submitCommand E m pkg.context pkg.extendedData castFiles spoilFiles [] = .ok sdir ∧
              ∀ castFiles' spoilFiles' : List CliFile, (castFiles' ++ spoilFiles').Perm sdir.files →
                castFiles'.length < E.P.q → castFiles'.length ≤ maxE →
                ∃ sdir', submitCommand E m pkg.context pkg.extendedData castFiles' spoilFiles' [] = .ok sdir' ∧
                  ∀ ballotFiles keyFiles : List CliFile, ballotFiles.Perm sdir'.files → keyFiles.Perm keys.files → ∀ sd : TallySeeds,
                    ∃ res out cast spoiled, importCommand E maxE sd m pkg.context pkg.extendedData ballotFiles keyFiles = .ok (res, out) ∧
                      cast.Perm (ballotsIn castFiles' (calls.map (fun c => c.1))) ∧
                      spoiled.Perm (ballotsIn spoilFiles' (calls.map (fun c => c.1))) ∧
                      res.Right im cast spoiled ∧ res.Printed m out := by
  obtain ⟨pkg, keys, h1, h2, h3⟩ := pipeline_core hv hpq hlen loads hl hq json maxE hmaxE n quorum hquorum hmany hn hpow rands hr nonces
    m im he hnamed url
  refine ⟨pkg, keys, h1, fun d calls a1 a2 a3 a4 => ?_⟩
  obtain ⟨dir, h4, h5⟩ := h3 d calls a1 a2 a3 a4
  refine ⟨dir, h4, fun cf sf b1 b2 b3 => ?_⟩
  obtain ⟨sdir, h6, hsame, -⟩ := h5 cf sf (cf ++ sf) (List.forall₂_same.2 (fun _ _ => .inl rfl)) b1 b2 b3
  refine ⟨sdir, h6, fun cf' sf' b1' b2' b3' => ?_⟩
  obtain ⟨files, hf1, hf2⟩ := List.perm_comp_forall₂ b1' hsame
  obtain ⟨sdir', h6', -, h7'⟩ := h5 cf' sf' files hf1 ((List.Perm.cons _ hf2).trans b1) b2' b3'
  refine ⟨sdir', h6', fun bf kf c1 c2 sd => ?_⟩
  obtain ⟨res, out, cast, spoiled, d1, d2, d3, d4, d5, -⟩ := h7' bf kf c1 c2 sd
  exact ⟨res, out, cast, spoiled, d1, d2, d3, d4, d5⟩

/-! ### What the commands do with their files -/

/-- What is stored after some submissions. -/
theorem runBox_get_iff (im : InternalManifest) (ctx : Context) (ops : List BoxOp) (store : Store SBallot) (id : String) (sb : SBallot) :
    (runBox E im ctx store ops).get id = some sb ↔ store.get id = some sb ∨ (store.get id = none ∧
      ∃ b st, AcceptedFirst (fun b => ballotIsValidForElection E b im ctx true = .ok true) (ops.map (fun o => (o.ballot, o.state))) b st ∧
        b.objectId = id ∧ sb = submitBallot E b st) := by
  induction ops generalizing store with
  | nil =>
    constructor
    · exact fun h => .inl h
    · rintro (h | ⟨-, b, st, ⟨bef, aft, h, -⟩, -⟩)
      · exact h
      · simp at h
  | cons op ops ih =>
    show (runBox E im ctx (submitBallotToBox E op.ballot op.state im ctx store).2 ops).get id = some sb ↔ _
    rw [ih]
    by_cases hacc : ballotIsValidForElection E op.ballot im ctx true = .ok true ∧ store.get op.ballot.objectId = none
    · obtain ⟨x, hx⟩ := (C33_accepts_iff E op.ballot op.state im ctx store).2 hacc
      obtain ⟨-, -, hxe, -, -, hget, hother⟩ := C33_accepted E op.ballot op.state im ctx store x hx
      by_cases hid : id = op.ballot.objectId
      · subst hid
        rw [hget]
        constructor
        · rintro (h | ⟨h, -⟩)
          · refine .inr ⟨hacc.2, op.ballot, op.state, ⟨[], _, rfl, hacc.1, by simp⟩, rfl, ?_⟩
            rw [← hxe]
            exact (Option.some.inj h).symm
          · cases h
        · rintro (h | ⟨-, b, st, ⟨bef, aft, h, hval, hbef⟩, hbid, hsb⟩)
          · rw [hacc.2] at h; cases h
          · left
            cases bef with
            | nil =>
              simp only [List.map_cons, List.nil_append, List.cons.injEq, Prod.mk.injEq] at h
              rw [hsb, ← h.1.1, ← h.1.2, hxe]
            | cons o bef =>
              simp only [List.map_cons, List.cons_append, List.cons.injEq] at h
              obtain ⟨rfl, -⟩ := h
              exact absurd hacc.1 (hbef _ List.mem_cons_self hbid.symm)
      · rw [hother id hid]
        refine or_congr Iff.rfl (and_congr Iff.rfl ?_)
        refine exists_congr (fun b => exists_congr (fun st => ?_))
        constructor
        · rintro ⟨⟨bef, aft, h, hval, hbef⟩, hbid, hsb⟩
          refine ⟨⟨(op.ballot, op.state) :: bef, aft, by rw [List.map_cons, h]; rfl, hval, ?_⟩, hbid, hsb⟩
          intro o ho hoid
          rcases List.mem_cons.1 ho with rfl | ho
          · exact absurd (hbid.symm.trans hoid.symm) hid
          · exact hbef o ho hoid
        · rintro ⟨⟨bef, aft, h, hval, hbef⟩, hbid, hsb⟩
          cases bef with
          | nil =>
            simp only [List.map_cons, List.nil_append, List.cons.injEq, Prod.mk.injEq] at h
            exact absurd (h.1.1 ▸ hbid).symm hid
          | cons o bef =>
            simp only [List.map_cons, List.cons_append, List.cons.injEq] at h
            exact ⟨⟨bef, aft, h.2, hval, fun o' ho' => hbef o' (List.mem_cons_of_mem _ ho')⟩, hbid, hsb⟩
    · have hrej : (submitBallotToBox E op.ballot op.state im ctx store).2 = store :=
        C33_rejected_changes_nothing E op.ballot op.state im ctx store
          (fun x hx => hacc ((C33_accepts_iff E op.ballot op.state im ctx store).1 ⟨x, hx⟩))
      rw [hrej]
      refine or_congr Iff.rfl (and_congr_right (fun hnone => ?_))
      refine exists_congr (fun b => exists_congr (fun st => ?_))
      constructor
      · rintro ⟨⟨bef, aft, h, hval, hbef⟩, hbid, hsb⟩
        refine ⟨⟨(op.ballot, op.state) :: bef, aft, by rw [List.map_cons, h]; rfl, hval, ?_⟩, hbid, hsb⟩
        intro o ho hoid
        rcases List.mem_cons.1 ho with rfl | ho
        · intro hov
          exact hacc ⟨hov, by rw [show op.ballot.objectId = id from hoid.trans hbid]; exact hnone⟩
        · exact hbef o ho hoid
      · rintro ⟨⟨bef, aft, h, hval, hbef⟩, hbid, hsb⟩
        cases bef with
        | nil =>
          simp only [List.map_cons, List.nil_append, List.cons.injEq, Prod.mk.injEq] at h
          exact absurd ⟨h.1.1 ▸ hval, by rw [h.1.1, hbid]; exact hnone⟩ hacc
        | cons o bef =>
          simp only [List.map_cons, List.cons_append, List.cons.injEq] at h
          exact ⟨⟨bef, aft, h.2, hval, fun o' ho' => hbef o' (List.mem_cons_of_mem _ ho')⟩, hbid, hsb⟩

/-- A file of a directory after some files were written. -/
theorem write_get {α : Type} (l : List α) (name : α → String) (f : α → CliFile) (dir : Dir) (hn : (l.map name).Nodup) (k : String)
    (x : CliFile) :
    dget (l.foldl (fun d a => dset d (name a) (f a)) dir) k = some x ↔
      (∃ a ∈ l, name a = k ∧ f a = x) ∨ ((∀ a ∈ l, name a ≠ k) ∧ dget dir k = some x) := by
  induction l generalizing dir with
  | nil => simp
  | cons a l ih =>
    rw [List.map_cons, List.nodup_cons] at hn
    rw [List.foldl_cons, ih _ hn.2, dget_dset]
    by_cases h : name a = k
    · rw [if_pos h]
      have hl : ∀ b ∈ l, name b ≠ k := fun b hb hbk => hn.1 (h.trans hbk.symm ▸ List.mem_map_of_mem hb)
      constructor
      · rintro (⟨b, hb, hbk, -⟩ | ⟨-, hx⟩)
        · exact absurd hbk (hl b hb)
        · exact .inl ⟨a, List.mem_cons_self, h, Option.some.inj hx⟩
      · rintro (⟨b, hb, hbk, hx⟩ | ⟨hall, -⟩)
        · rcases List.mem_cons.1 hb with rfl | hb
          · exact .inr ⟨hl, by rw [hx]⟩
          · exact absurd hbk (hl b hb)
        · exact absurd h (hall a List.mem_cons_self)
    · rw [if_neg h]
      simp only [List.mem_cons, exists_eq_or_imp, forall_eq_or_imp, h, false_and, false_or, ne_eq, not_false_eq_true, true_and]

/-- The submissions of `submit-ballots`: first the ballots to cast, then those to spoil. -/
def submissions (cast spoil : List CBallot) : List (CBallot × BallotBoxState) :=
  cast.map (fun b => (b, .cast)) ++ spoil.map (fun b => (b, .spoiled))

theorem runBox_key (im : InternalManifest) (ctx : Context) (ops : List BoxOp) (store : Store SBallot)
    (h : ∀ e ∈ store, e.1 = e.2.objectId) (hn : (dkeys store).Nodup) :
    (∀ e ∈ runBox E im ctx store ops, e.1 = e.2.objectId) ∧ (dkeys (runBox E im ctx store ops)).Nodup := by
  induction ops generalizing store with
  | nil => exact ⟨h, hn⟩
  | cons op ops ih =>
    refine ih _ ?_ ?_
    · unfold submitBallotToBox
      split
      · exact h
      · exact h
      · split
        · exact h
        · intro e he
          rcases mem_dset he with rfl | he
          · rfl
          · exact h e he
    · unfold submitBallotToBox
      split
      · exact hn
      · exact hn
      · split
        · exact hn
        · exact dset_nodup hn _ _

/-- C75 What `submit-ballots` does to its directory.  When the command returns, every file was that of an encrypted ballot or of a
ballot that was submitted before, whose state is not looked at; the ballots that are
valid for the election, and are the first to be so among those with their id, casts before spoils, are written, without their nonces
(`C34_content`), each to the file named by its id; all others are left out without a word, and all other files stay. -/
theorem C75_submit {m : Manifest} {ctx : Context} {ext : Option (List (String × String))} {castFiles spoilFiles : List CliFile}
    {dir sdir : Dir} (h : submitCommand E m ctx ext castFiles spoilFiles dir = .ok sdir) :
    ∃ cast spoil im ctx' ext', castFiles.map CliFile.ballot = cast.map some ∧ spoilFiles.map CliFile.ballot = spoil.map some ∧
      buildWithContext E m ctx ext = .ok (im, ctx', ext') ∧ ∀ name f, dget sdir name = some f ↔
        (∃ b st, AcceptedFirst (fun b => ballotIsValidForElection E b im ctx' true = .ok true) (submissions cast spoil) b st ∧
          name = b.objectId ++ ".json" ∧ f = .submitted (submitBallot E b st)) ∨
        (dget dir name = some f ∧ ∀ b st,
          AcceptedFirst (fun b => ballotIsValidForElection E b im ctx' true = .ok true) (submissions cast spoil) b st →
            name ≠ b.objectId ++ ".json") := by
  have hread : ∀ (files : List CliFile) (bs : List CBallot), files.mapM CliFile.asEncrypted = .ok bs →
      files.map CliFile.ballot = bs.map some := by
    intro files
    induction files with
    | nil => intro bs hb; cases hb; rfl
    | cons f files ih =>
      intro bs hb
      rw [List.mapM_cons] at hb
      simp only [bind, Except.bind, pure, Except.pure] at hb
      cases hr : files.mapM CliFile.asEncrypted with
      | error e => rw [hr] at hb; cases f <;> cases hb
      | ok bs' => rw [hr] at hb; cases f <;> cases hb <;> rw [List.map_cons, ih bs' hr] <;> rfl
  unfold submitCommand at h
  simp only [bind, Except.bind, pure, Except.pure] at h
  cases h1 : cliGetManifest m with
  | error e => rw [h1] at h; cases h
  | ok m' =>
  obtain ⟨rfl, -⟩ := (cliGetManifest_iff m m').1 h1
  rw [h1] at h
  simp only at h
  cases h2 : castFiles.mapM CliFile.asEncrypted with
  | error e => rw [h2] at h; cases h
  | ok cast =>
  rw [h2] at h
  simp only at h
  cases h3 : spoilFiles.mapM CliFile.asEncrypted with
  | error e => rw [h3] at h; cases h
  | ok spoil =>
  rw [h3] at h
  simp only at h
  cases h4 : buildWithContext E m' ctx ext with
  | error e => rw [h4] at h; cases h
  | ok x =>
  obtain ⟨im, ctx', ext'⟩ := x
  rw [h4] at h
  simp only at h
  cases h5 : submitBallots E im ctx' cast spoil with
  | error e => rw [h5] at h; cases h
  | ok bs =>
  rw [h5] at h
  refine ⟨cast, spoil, im, ctx', ext', hread _ _ h2, hread _ _ h3, rfl, ?_⟩
  set ops : List BoxOp := cast.map (fun b => ⟨b, .cast⟩) ++ spoil.map (fun b => ⟨b, .spoiled⟩) with hops
  have hsubs : ops.map (fun o => (o.ballot, o.state)) = submissions cast spoil := by
    rw [hops, submissions, List.map_append, List.map_map, List.map_map]; rfl
  have hbs : bs = (runBox E im ctx' [] ops).map (fun e => e.2) := by
    unfold submitBallots at h5
    simp only [bind, Except.bind, pure, Except.pure] at h5
    cases g1 : submitLoop (boxCast E im ctx') cast [] with
    | error e => rw [g1] at h5; cases h5
    | ok s1 =>
      rw [g1] at h5
      simp only at h5
      cases g2 : submitLoop (boxSpoil E im ctx') spoil s1 with
      | error e => rw [g2] at h5; cases h5
      | ok s2 =>
        rw [g2] at h5
        cases h5
        rw [hops, runBox_append, ← submitLoop_run im ctx' .cast (boxCast E im ctx') (fun _ _ => rfl) cast [] s1 g1,
          ← submitLoop_run im ctx' .spoiled (boxSpoil E im ctx') (fun _ _ => rfl) spoil s1 s2 g2]
        rfl
  obtain ⟨hkey, hnd⟩ := runBox_key (E := E) im ctx' ops [] (by simp) (by simp [dkeys])
  have hacc : ∀ sb, sb ∈ bs ↔ ∃ b st, AcceptedFirst (fun b => ballotIsValidForElection E b im ctx' true = .ok true)
      (submissions cast spoil) b st ∧ sb = submitBallot E b st := by
    intro sb
    rw [hbs]
    constructor
    · intro hsb
      obtain ⟨⟨id, x⟩, he, rfl⟩ := List.mem_map.1 hsb
      have := (runBox_get_iff im ctx' ops [] id x).1 (dget_of_mem hnd he)
      rcases this with h | ⟨-, b, st, h1, -, h2⟩
      · cases h
      · rw [hsubs] at h1
        exact ⟨b, st, h1, h2⟩
    · rintro ⟨b, st, h1, rfl⟩
      have := (runBox_get_iff im ctx' ops [] b.objectId (submitBallot E b st)).2 (.inr ⟨rfl, b, st, by rw [hsubs]; exact h1, rfl, rfl⟩)
      exact List.mem_map.2 ⟨_, mem_of_dget this, rfl⟩
  have hids : (bs.map (fun b => b.objectId ++ ".json")).Nodup := by
    have : (bs.map (fun b => b.objectId)).Nodup := by
      rw [hbs, List.map_map]
      have : (runBox E im ctx' [] ops).map ((fun b : SBallot => b.objectId) ∘ fun e => e.2) = dkeys (runBox E im ctx' [] ops) :=
        List.map_congr_left (fun e he => (hkey e he).symm)
      rw [this]
      exact hnd
    have h' := this.map (f := fun id => id ++ ".json") (fun a b hab => name_inj' hab)
    rwa [List.map_map] at h'
  intro name f
  have hd : sdir = bs.foldl (fun dir b => dset dir (b.objectId ++ ".json") (.submitted b)) dir := by cases h; rfl
  rw [hd, write_get bs (fun b => b.objectId ++ ".json") (fun b => .submitted b) dir hids name f]
  refine or_congr ⟨?_, ?_⟩ ⟨?_, ?_⟩
  · rintro ⟨sb, hsb, hname, hf⟩
    obtain ⟨b, st, h1, rfl⟩ := (hacc sb).1 hsb
    exact ⟨b, st, h1, hname.symm, hf.symm⟩
  · rintro ⟨b, st, h1, hname, hf⟩
    exact ⟨_, (hacc _).2 ⟨b, st, h1, rfl⟩, hname.symm, hf.symm⟩
  · rintro ⟨hall, hget⟩
    exact ⟨hget, fun b st h1 hname => hall _ ((hacc _).2 ⟨b, st, h1, rfl⟩) hname.symm⟩
  · rintro ⟨hget, hall⟩
    refine ⟨fun sb hsb hname => ?_, hget⟩
    obtain ⟨b, st, h1, rfl⟩ := (hacc sb).1 hsb
    exact hall b st h1 hname.symm

/-- C75 `import-ballots` decrypts only with the files of all guardians: whatever the quorum, the files given must belong to as many
different guardians as the election has. -/
theorem C75_import_needs_all_guardians {maxE : Nat} {sd : TallySeeds} {m : Manifest} {ctx : Context}
    {ext : Option (List (String × String))} {ballotFiles keyFiles : List CliFile}
    {x : DecryptResults × (List PrintedContest × List (String × List PrintedContest))}
    (h : importCommand E maxE sd m ctx ext ballotFiles keyFiles = .ok x) :
    ((keyFiles.map CliFile.owner).toFinset.card : Int) = ctx.numberOfGuardians := by
  unfold importCommand at h
  simp only [bind, Except.bind, pure, Except.pure] at h
  cases h1 : cliGetManifest m with
  | error e => rw [h1] at h; cases h
  | ok m' =>
  rw [h1] at h
  simp only at h
  cases h2 : keyFiles.mapM CliFile.asKey with
  | error e => rw [h2] at h; cases h
  | ok records =>
  rw [h2] at h
  simp only at h
  cases h3 : ballotFiles.mapM CliFile.asSubmitted with
  | error e => rw [h3] at h; cases h
  | ok bs =>
  rw [h3] at h
  simp only at h
  cases h4 : buildWithContext E m' ctx ext with
  | error e => rw [h4] at h; cases h
  | ok y =>
  obtain ⟨im, ctx', ext'⟩ := y
  rw [h4] at h
  simp only at h
  cases h5 : tallyFromBallots E im ctx' bs with
  | error e => rw [h5] at h; cases h
  | ok y =>
  obtain ⟨t, spoiled⟩ := y
  rw [h5] at h
  simp only at h
  cases h6 : cliDecrypt E sd maxE ctx' t spoiled
    (records.map (fun r => Guardian.fromPrivateRecord r ctx.numberOfGuardians ctx.quorum)) m' with
  | error e => rw [h6] at h; cases h
  | ok res =>
  have hall := (cliDecrypt_needs_all h6).1
  have hn : ctx'.numberOfGuardians = ctx.numberOfGuardians := by
    obtain ⟨rfl, hv, -⟩ := (cliGetManifest_iff m m').1 h1
    unfold buildWithContext at h4
    rw [buildElection_eq hv] at h4
    cases hi : mkInternalManifest E m' with
    | error e => rw [hi] at h4; cases h4
    | ok im' =>
      rw [hi] at h4
      cases h4
      rfl
  have hrec : keyFiles.map CliFile.owner = records.map (fun r => some r.electionKeys.ownerId) := by
    clear h h6 hall
    induction keyFiles generalizing records with
    | nil => cases h2; rfl
    | cons f files ih =>
      rw [List.mapM_cons] at h2
      simp only [bind, Except.bind, pure, Except.pure] at h2
      cases f <;> simp only [CliFile.asKey] at h2 <;> try (cases h2)
      cases hr : files.mapM CliFile.asKey with
      | error e => rw [hr] at h2; cases h2
      | ok rs => rw [hr] at h2; cases h2; rw [List.map_cons, ih rs hr]; rfl
  rw [← hn, ← hall, hrec, List.map_map]
  have : (records.map (fun r => some r.electionKeys.ownerId)).toFinset
      = ((records.map (Guardian.id ∘ fun r => Guardian.fromPrivateRecord r ctx.numberOfGuardians ctx.quorum)).toFinset).image some := by
    ext o
    simp only [List.mem_toFinset, List.mem_map, Finset.mem_image, Function.comp_apply]
    constructor
    · rintro ⟨r, hr, rfl⟩
      exact ⟨_, ⟨r, hr, rfl⟩, rfl⟩
    · rintro ⟨_, ⟨r, hr, rfl⟩, rfl⟩
      exact ⟨r, hr, rfl⟩
  rw [this, Finset.card_image_of_injective _ (Option.some_injective _)]

theorem encryptBallot_id {json : ContestData → Bytes} {b : PlaintextBallot} {m : InternalManifest} {ctx : Context} {cseed nonce : Nat}
    {now : Int} {verify : Bool} {enc : CBallot} (h : encryptBallot E json b m ctx cseed nonce now verify = .ok (some enc)) :
    enc.objectId = b.objectId := by
  unfold encryptBallot at h
  simp only [bind, Except.bind, pure, Except.pure] at h
  split at h
  · cases h
  · split at h
    · cases h
    · split at h
      · cases h
      · split at h
        · cases h
        · split at h
          · cases h
          · split at h
            · cases h; rfl
            · split at h
              · cases h
              · split at h
                · cases h; rfl
                · cases h

/-- The files of a directory, counted by name. -/
theorem dkeys_write {α : Type} (l : List α) (name : α → String) (f : α → CliFile) (dir : Dir) (hd : (dkeys dir).Nodup) :
    (dkeys (l.foldl (fun d a => dset d (name a) (f a)) dir)).Nodup ∧
    ∀ k, k ∈ dkeys (l.foldl (fun d a => dset d (name a) (f a)) dir) ↔ k ∈ dkeys dir ∨ k ∈ l.map name := by
  induction l generalizing dir with
  | nil => exact ⟨hd, by simp⟩
  | cons a l ih =>
    obtain ⟨h1, h2⟩ := ih (dset dir (name a) (f a)) (dset_nodup hd _ _)
    refine ⟨h1, fun k => ?_⟩
    rw [List.foldl_cons, h2, dkeys_dset]
    split
    · simp only [List.map_cons, List.mem_cons]
      constructor
      · rintro (h | h)
        · exact .inl h
        · exact .inr (.inr h)
      · rintro (h | rfl | h)
        · exact .inl h
        · exact .inl (by assumption)
        · exact .inr h
    · simp only [List.mem_append, List.map_cons, List.mem_cons, List.not_mem_nil, or_false, or_assoc]

/-- C75 What `encrypt-ballots` leaves in its directory: for every ballot an encryption of a ballot with the same id, namely of the last one.
There are as many files as different ids, the device counting as one more: when two ballots have the same id, one of them is lost, and
a ballot with the id `device` takes the place of the device's file. -/
theorem C75_encrypt {json : ContestData → Bytes} {d : Device} {m : Manifest} {ctx : Context}
    {ext : Option (List (String × String))} {calls : List (PlaintextBallot × Nat × Int)} {dir : Dir}
    (h : encryptCommand E json d m ctx ext calls [] = .ok dir) :
    dir.length = ("device" :: calls.map (fun c => c.1.objectId)).toFinset.card ∧
    ("device" ∉ calls.map (fun c => c.1.objectId) → dget dir "device.json" = some (.device d)) ∧
    ∃ im ctx' ext', buildWithContext E m ctx ext = .ok (im, ctx', ext') ∧
      ∀ before c after, calls = before ++ c :: after → c.1.objectId ∉ after.map (fun c => c.1.objectId) →
        ∃ seed enc, encryptBallot E json c.1 im ctx' seed c.2.1 c.2.2 = .ok (some enc) ∧
          dget dir (c.1.objectId ++ ".json") = some (.encrypted enc) := by
  unfold encryptCommand at h
  simp only [bind, Except.bind, pure, Except.pure] at h
  cases h1 : cliGetManifest m with
  | error e => rw [h1] at h; cases h
  | ok m' =>
  obtain ⟨rfl, -⟩ := (cliGetManifest_iff m m').1 h1
  rw [h1] at h
  simp only at h
  cases h2 : buildWithContext E m' ctx ext with
  | error e => rw [h2] at h; cases h
  | ok x =>
  obtain ⟨im, ctx', ext'⟩ := x
  rw [h2] at h
  simp only at h
  cases h3 : encryptVotes E json im ctx' d calls with
  | error e => rw [h3] at h; cases h
  | ok cs =>
  rw [h3] at h
  have hd : dir = cs.foldl (fun dir c => dset dir (c.objectId ++ ".json") (.encrypted c)) (dset [] "device.json" (.device d)) := by
    cases h; rfl
  have hcs : List.Forall₂ (fun (c : PlaintextBallot × Nat × Int) (e : CBallot) =>
      ∃ seed, encryptBallot E json c.1 im ctx' seed c.2.1 c.2.2 = .ok (some e)) calls cs := by
    have gen : ∀ (calls : List (PlaintextBallot × Nat × Int)) (seed : Nat) (cs : List CBallot),
        encryptLoop E json im ctx' seed calls = .ok cs →
        List.Forall₂ (fun (c : PlaintextBallot × Nat × Int) (e : CBallot) =>
          ∃ seed, encryptBallot E json c.1 im ctx' seed c.2.1 c.2.2 = .ok (some e)) calls cs := by
      intro calls
      induction calls with
      | nil => intro _ cs h; cases h; exact .nil
      | cons c calls ih =>
        intro seed cs h
        obtain ⟨b, nonce, now⟩ := c
        unfold encryptLoop mediatorEncrypt at h
        simp only [bind, Except.bind, pure, Except.pure] at h
        cases he : encryptBallot E json b im ctx' seed nonce now with
        | error e => rw [he] at h; cases h
        | ok o =>
          rw [he] at h
          cases o with
          | none => cases h
          | some e =>
            simp only [getOptional] at h
            cases hr : encryptLoop E json im ctx' e.code calls with
            | error x => rw [hr] at h; cases h
            | ok cs' =>
              rw [hr] at h
              cases h
              exact .cons ⟨seed, he⟩ (ih _ _ hr)
    exact gen _ _ _ h3
  have hids : cs.map (fun c => c.objectId) = calls.map (fun c => c.1.objectId) := by
    clear h3 h hd
    induction hcs with
    | nil => rfl
    | cons hx _ ih =>
      obtain ⟨seed, hx⟩ := hx
      rw [List.map_cons, List.map_cons, ih, encryptBallot_id hx]
  refine ⟨?_, ?_, im, ctx', ext', rfl, ?_⟩
  · obtain ⟨hk, hmem⟩ := dkeys_write cs (fun c => c.objectId ++ ".json") (fun c => .encrypted c) (dset [] "device.json" (.device d))
      (by simp [dset, dkeys])
    rw [← hd] at hk hmem
    have hlen : dir.length = (dkeys dir).toFinset.card := by
      rw [List.toFinset_card_of_nodup hk, dkeys, List.length_map]
    have himg : (dkeys dir).toFinset = (("device" :: calls.map (fun c => c.1.objectId)).toFinset).image (fun id => id ++ ".json") := by
      ext k
      rw [List.mem_toFinset, hmem, Finset.mem_image]
      simp only [List.mem_toFinset, List.mem_cons, ← hids, dset, dkeys, List.any_nil, Bool.false_eq_true, if_false, List.nil_append,
        List.map_cons, List.map_nil, List.not_mem_nil, or_false]
      constructor
      · rintro (rfl | hk)
        · exact ⟨"device", .inl rfl, rfl⟩
        · obtain ⟨c, hc, rfl⟩ := List.mem_map.1 hk
          exact ⟨c.objectId, .inr (List.mem_map_of_mem hc), rfl⟩
      · rintro ⟨id, rfl | hid, rfl⟩
        · exact .inl rfl
        · obtain ⟨c, hc, rfl⟩ := List.mem_map.1 hid
          exact .inr (List.mem_map.2 ⟨c, hc, rfl⟩)
    rw [hlen, himg, Finset.card_image_of_injective _ (fun a b hab => name_inj' hab)]
  · intro hdev
    rw [hd, dget_foldl_last (fun c : CBallot => c.objectId ++ ".json") (fun c => CliFile.encrypted c)]
    have : cs.reverse.find? (fun c => c.objectId ++ ".json" == "device.json") = none := by
      rw [List.find?_eq_none]
      intro c hc hcon
      have hc' : c.objectId ∈ cs.map (fun c => c.objectId) := List.mem_map_of_mem (List.mem_reverse.1 hc)
      rw [hids] at hc'
      exact json_ne_device (fun he => hdev (he ▸ hc')) (by simpa using hcon)
    rw [this]
    simp [dset, dget]
  · rintro before c after rfl hlast
    obtain ⟨csb, cs2, hb, hca, rfl⟩ := forall₂_append_left before (c :: after) cs hcs
    cases hca with
    | @cons _ e _ csa hx hrest =>
    obtain ⟨seed, hx⟩ := hx
    refine ⟨seed, e, hx, ?_⟩
    rw [hd, dget_foldl_last (fun c : CBallot => c.objectId ++ ".json") (fun c => CliFile.encrypted c)]
    have hnone : csa.reverse.find? (fun x => x.objectId ++ ".json" == c.1.objectId ++ ".json") = none := by
      rw [List.find?_eq_none]
      intro x hxm hcon
      obtain ⟨y, hy, seed', hye⟩ := forall₂_left hrest.flip (List.mem_reverse.1 hxm)
      have : x.objectId = c.1.objectId := name_inj' (suf := ".json") (by simpa using hcon)
      rw [encryptBallot_id hye] at this
      exact hlast (this ▸ List.mem_map_of_mem (f := fun c : PlaintextBallot × Nat × Int => c.1.objectId) hy)
    rw [List.reverse_append, List.reverse_cons, List.find?_append, List.find?_append, hnone]
    simp [encryptBallot_id hx]

/-- C75 The directory that `encrypt-ballots` writes cannot be given to `submit-ballots`: the device's file is in it (unless a ballot
with the id `device` has overwritten it), and is read as a ballot. -/
theorem C75_device_file_fails {json : ContestData → Bytes} {d : Device} {m : Manifest} {ctx : Context}
    {ext : Option (List (String × String))} {calls : List (PlaintextBallot × Nat × Int)} {dir : Dir}
    (h : encryptCommand E json d m ctx ext calls [] = .ok dir) (hdev : "device" ∉ calls.map (fun c => c.1.objectId))
    (spoilFiles : List CliFile) (sdir : Dir) : ∃ e, submitCommand E m ctx ext dir.files spoilFiles sdir = .error e := by
  cases hs : submitCommand E m ctx ext dir.files spoilFiles sdir with
  | error e => exact ⟨e, rfl⟩
  | ok s =>
    obtain ⟨cast, -, -, -, -, hc, -⟩ := C75_submit hs
    have hm : CliFile.device d ∈ dir.files := List.mem_map.2 ⟨_, mem_of_dget ((C75_encrypt h).2.1 hdev), rfl⟩
    have := List.mem_map_of_mem (f := CliFile.ballot) hm
    rw [hc] at this
    obtain ⟨b, -, hb⟩ := List.mem_map.1 this
    cases hb

/-! ### The toy election -/

/-- The commands for the toy election: three guardians, three ballots, of which the second is spoiled. -/
example : ∃ pkg keys, setupCommand toyEnv strictLoads toyRnd.polynomials toyRnd.backups (3 : Nat) (2 : Nat) toyManifest none []
      = .ok (pkg, keys) ∧
    ∃ dir, encryptCommand toyEnv toyJson toyRnd.device toyManifest pkg.context pkg.extendedData (toyPlain.zip toyRnd.ballots) []
      = .ok dir ∧ dir.length = 4 := by
  obtain ⟨pkg, keys, h1, -, h2⟩ := C75_pipeline_partial (E := toyEnv) extraSmall_valid (by decide) (fun _ _ => by simp [toyEnv]) strictLoads
    strictLoads_reads (by decide +kernel) toyJson 12 (by decide) 3 2 (by decide) (by decide) (by decide) (by decide) toyRnd.polynomials
    (fun _ _ => rfl) toyRnd.backups toyManifest toyIM toyReady (by intro t ht; revert t; decide +kernel) none
  obtain ⟨dir, h3, -⟩ := h2 toyRnd.device (toyPlain.zip toyRnd.ballots) (by decide +kernel) (by decide +kernel)
    (fun c hc => toyPlain_style c.1 (List.of_mem_zip (a := c.1) (b := c.2) hc).1)
    (fun c hc d hd => toyPlain_encryptable c hc d (by obtain ⟨-, -, -, -, hd, -⟩ := hd; exact hd))
  exact ⟨pkg, keys, h1, dir, h3, by rw [(C75_encrypt h3).1]; decide +kernel⟩

/-- C75 The rule that a cast ballot cannot be spoiled holds within one run of `submit-ballots` only: a second run spoils a ballot
that the first one cast, and writes over its file. -/
theorem C75_two_runs_fails :
    let b := toyEncrypt "b" "t" 1 0 1 7
    let r := submitCommand toyEnv toyManifest toyCtx none [.encrypted b] [.encrypted b] []
    let r' := r.bind (submitCommand toyEnv toyManifest toyCtx none [] [.encrypted b])
    (r.toOption.map (fun d => d.map (fun e => (e.1, match e.2 with | .submitted s => some s.state | _ => none)))
        = some [("b.json", some .cast)]) ∧
    (r'.toOption.map (fun d => d.map (fun e => (e.1, match e.2 with | .submitted s => some s.state | _ => none)))
        = some [("b.json", some .spoiled)]) := by
  decide +kernel

/-- C75 Two ballots with the same id: `encrypt-ballots` returns, and one of them is lost. -/
theorem C75_duplicate_id_fails :
    (encryptCommand toyEnv toyJson ⟨1, 2, 3, "x"⟩ toyManifest toyCtx none [(toyVote "b" 1 0 1, 7, 17), (toyVote "b" 0 1 1, 9, 18)]
      []).toOption.map (fun d => d.map (·.1)) = some ["device.json", "b.json"] := by
  decide +kernel

end EG
