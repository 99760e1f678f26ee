import Verif.Lemmas.CliText
import Verif.Props.Export
import Verif.Props.SerializeElection

/-!
# C86: the commands over the texts of their files
-/

namespace EG

variable {E : Env}

theorem readBack_of_typed {P : Params} {f : CliFile} (h : f.Typed P) : f.ReadBack P := ⟨read_encrypted h, read_submitted h, read_key h⟩

theorem dset_rename {α β : Type} {f : String → String} (hf : ∀ a b, f a = f b → a = b) (g : α → β) (d : List (String × α)) (k : String) (v : α) :
    dset (d.map (fun e => (f e.1, g e.2))) (f k) (g v) = (dset d k v).map (fun e => (f e.1, g e.2)) := by
  have hk : ∀ a, (f a == f k) = (a == k) := fun a => by
    rw [Bool.eq_iff_iff, beq_iff_eq, beq_iff_eq]
    exact ⟨hf a k, fun h => by rw [h]⟩
  unfold dset
  rw [List.any_map]
  have : ((fun e : String × β => e.1 == f k) ∘ fun e : String × α => (f e.1, g e.2)) = fun e => e.1 == k := funext (fun e => hk e.1)
  rw [this]
  split
  · rw [List.map_map, List.map_map]
    refine List.map_congr_left (fun e _ => ?_)
    have := hk e.1
    by_cases h : e.1 = k
    · simp [h]
    · simp [h] at this ⊢
      simp [this]
  · rw [List.map_append]; rfl

theorem foldl_rename {α β γ : Type} {f : String → String} (hf : ∀ a b, f a = f b → a = b) (g : α → β) (l : List γ) (key : γ → String)
    (val : γ → α) (d : List (String × α)) :
    l.foldl (fun d x => dset d (f (key x)) (g (val x))) (d.map (fun e => (f e.1, g e.2)))
      = (l.foldl (fun d x => dset d (key x) (val x)) d).map (fun e => (f e.1, g e.2)) := by
  induction l generalizing d with
  | nil => rfl
  | cons x l ih => rw [List.foldl_cons, List.foldl_cons, dset_rename hf, ih]

theorem exportKeys_text (dir : Dir) (gs : List Guardian) : exportPrivateKeysText dir.toText gs = (exportPrivateKeys dir gs).toText :=
  (Dir.toText_foldl (gs.map Guardian.exportPrivate) (fun r => "guardian_" ++ r.guardianId ++ ".json") CliFile.key dir).symm

theorem exportKeys_typed {P : Params} {dir : Dir} (hd : ∀ e ∈ dir, e.2.Typed P) {gs : List Guardian} (hg : ∀ g ∈ gs, g.exportPrivate.Typed P) :
    ∀ e ∈ exportPrivateKeys dir gs, e.2.Typed P := by
  unfold exportPrivateKeys
  generalize hrs : gs.map Guardian.exportPrivate = rs
  have hr : ∀ r ∈ rs, r.Typed P := by
    rw [← hrs]
    intro r hr
    obtain ⟨g, hg', rfl⟩ := List.mem_map.1 hr
    exact hg g hg'
  clear hrs hg
  induction rs generalizing dir with
  | nil => exact hd
  | cons r rs ih =>
    refine ih (fun e he => ?_) (fun r hr' => hr r (List.mem_cons_of_mem _ hr'))
    rcases mem_dset he with rfl | he
    · exact hr r List.mem_cons_self
    · exact hd e he

theorem package_text (constants : Constants) (ctx : Context) (ext : Option (List (String × String))) (m : Manifest) (rs : List GuardianRecord) :
    (outputSetupFiles ctx ext m rs).toTexts constants = ⟨toRaw ContextFile.toJson ⟨ctx, ext, true, 1000000⟩, toRaw Constants.toJson constants,
      toRaw Manifest.toJson m,
      rs.foldl (fun d r => dset d ("guardian_" ++ r.guardianId ++ ".json") (toRaw GuardianRecord.toJson r)) []⟩ := by
  unfold outputSetupFiles EncryptionPackage.toTexts
  congr 1
  exact (foldl_rename (f := fun s => "guardian_" ++ s ++ ".json") (fun a b h => name_inj h) (toRaw GuardianRecord.toJson) rs
    GuardianRecord.guardianId id []).symm

/-- C86 `setup` over texts is `setup` over the values in the files. -/
theorem C86_setup (constants : Constants) (rands : Nat → List (Nat × Nat)) (nonces : String → Nat → Nat) (n quorum : Int)
    (raw : List Char) (m : Manifest) (hm : fromRaw Manifest.ofJson raw = .ok m) (url : Option String) (dir : Dir) :
    setupCommandText E constants rands nonces n quorum raw url dir.toText
      = (setupCommand E loadsCoordinate rands nonces n quorum m url dir).map (fun x => (x.1.toTexts constants, x.2.toText)) := by
  unfold setupCommandText setupCommand cliReadManifest
  rw [hm]
  simp only [bind, Except.bind, pure, Except.pure]
  cases createGuardians E ⟨n, quorum⟩ rands with
  | error e => rfl
  | ok gs =>
    simp only
    cases cliGetManifest m with
    | error e => rfl
    | ok m' =>
      simp only
      cases runKeyCeremony E loadsCoordinate nonces gs with
      | error e => rfl
      | ok x =>
        simp only
        cases buildElection E n quorum m' x.2.jointPublicKey x.2.commitmentHash url with
        | error e => rfl
        | ok y => simp only [Except.map, package_text, exportKeys_text]

theorem setup_typed (hv : E.P.Valid) {rands : Nat → List (Nat × Nat)} (hr : PolynomialsInRange E.P rands)
    {nonces : String → Nat → Nat} {n quorum : Int} {raw : List Char} {m : Manifest} (hm : fromRaw Manifest.ofJson raw = .ok m)
    {url : Option String} {dir : Dir} (hd : ∀ e ∈ dir, e.2.Typed E.P) {pkg : EncryptionPackage} {keys : Dir}
    (h : setupCommand E loadsCoordinate rands nonces n quorum m url dir = .ok (pkg, keys)) (constants : Constants) :
    pkg.ReadBack E.P constants ∧ ∀ e ∈ keys, e.2.Typed E.P := by
  simp only [setupCommand, bindOk, pureOk, Prod.mk.injEq] at h
  obtain ⟨gs0, h0, m', hm', ⟨gs, jk⟩, h1, ⟨im, ctx, ext⟩, h2, rfl, rfl⟩ := h
  obtain ⟨rfl, hmv, -⟩ := (cliGetManifest_iff _ _).1 hm'
  have hg := runKeyCeremony_typed hv.p_pos (createGuardians_typed hv hr h0) h1
  have hj := runKeyCeremony_joint hv.one_lt_p hv.q_pos h1
  obtain ⟨-, hc, he⟩ := buildElection_typed hv.q_pos hmv hj.1 hj.2 h2
  obtain ⟨ht, hp⟩ := raw_reads Manifest.typed hm
  refine ⟨⟨raw_trip (ContextFile.trip hc he), manifest_trip ht hp, ?_, raw_trip (Constants.trip _)⟩, exportKeys_typed hd hg⟩
  have : DictOf (GuardianRecord.Typed E.P) (outputSetupFiles ctx ext m' (gs.map Guardian.publish)).guardians := by
    refine DictOf.foldl (fun d r hr hd => hd.dset _ ?_) (DictOf.nil _)
    obtain ⟨g, hg', rfl⟩ := List.mem_map.1 hr
    exact guardian_shareKey_typed (hg g hg')
  have := readAll_trip (enc := GuardianRecord.toJson) (dec := GuardianRecord.ofJson E.P)
    (l := (outputSetupFiles ctx ext m' (gs.map Guardian.publish)).guardians.map (fun e => ("guardian_" ++ e.1 ++ ".json", e.2))) (fun e he => by
      obtain ⟨x, hx, rfl⟩ := List.mem_map.1 he
      exact raw_trip (GuardianRecord.trip (this.2 x hx)))
  rw [List.map_map] at this
  exact this

/-- C86 What `setup` writes is read back: the context with its extended data, the constants, the manifest, the guardians' public records, and every
guardian's own file. -/
theorem C86_setup_read (hv : E.P.Valid) (rands : Nat → List (Nat × Nat)) (hr : PolynomialsInRange E.P rands)
    (nonces : String → Nat → Nat) (n quorum : Int) (raw : List Char) (m : Manifest) (hm : fromRaw Manifest.ofJson raw = .ok m)
    (url : Option String) (pkg : EncryptionPackage) (keys : Dir)
    (h : setupCommand E loadsCoordinate rands nonces n quorum m url [] = .ok (pkg, keys)) (constants : Constants) :
    pkg.ReadBack E.P constants ∧ ∀ e ∈ keys, e.2.ReadBack E.P := by
  obtain ⟨h1, h2⟩ := setup_typed hv hr hm (by simp) h constants
  exact ⟨h1, fun e he => readBack_of_typed (h2 e he)⟩

/-! ### Encrypting and submitting -/

/-- C86 `encrypt-ballots` over texts is `encrypt-ballots` over the values in the files. -/
theorem C86_encrypt (d : Device) (raw context : List Char) (m : Manifest) (hm : fromRaw Manifest.ofJson raw = .ok m) (c : ContextFile)
    (hc : fromRaw (ContextFile.ofJson E.P) context = .ok c) (path : CliPath) (bs : List PlaintextBallot)
    (hb : path.read PlaintextBallot.ofJson = .ok bs) (rnd : List (Nat × Int)) (dir : Dir) :
    encryptCommandText E d raw context path rnd dir.toText
      = (encryptCommand E contestDataJson d m c.context c.extendedData (bs.zip rnd) dir).map Dir.toText := by
  unfold encryptCommandText encryptCommand cliReadManifest
  rw [hm, hc, hb]
  simp only [bind, Except.bind, pure, Except.pure]
  cases cliGetManifest m with
  | error e => rfl
  | ok m' =>
    simp only
    cases buildWithContext E m' c.context c.extendedData with
    | error e => rfl
    | ok y =>
      simp only
      cases encryptVotes E contestDataJson y.1 y.2.1 d (bs.zip rnd) with
      | error e => rfl
      | ok cs =>
        simp only [Except.map]
        rw [Dir.toText_foldl cs (fun c => c.objectId ++ ".json") CliFile.encrypted, Dir.toText_dset]
        rfl

theorem encryptCommand_typed (hv : E.P.Valid) {json : ContestData → Bytes} {d : Device} {m : Manifest} {ctx : Context}
    {ext : Option (List (String × String))} (hc : ctx.Typed E.P) {calls : List (PlaintextBallot × Nat × Int)}
    (hn : ∀ c ∈ calls, c.2.1 < E.P.q) {dir dir' : Dir} (hd : ∀ e ∈ dir, e.2.Typed E.P)
    (h : encryptCommand E json d m ctx ext calls dir = .ok dir') : ∀ e ∈ dir', e.2.Typed E.P := by
  simp only [encryptCommand, bindOk, pureOk] at h
  obtain ⟨m', hm', ⟨im, ctx', ext'⟩, h1, cs, h2, rfl⟩ := h
  obtain ⟨rfl, hmv, -⟩ := (cliGetManifest_iff _ _).1 hm'
  obtain ⟨him, -, -⟩ := buildElection_typed hv.q_pos hmv hc.1 hc.2.1 h1
  have hcs := encryptLoop_typed hv.one_lt_p hv.q_pos him hn (hashElems_lt hv.q_pos _) h2
  have : ∀ dir : Dir, (∀ e ∈ dir, e.2.Typed E.P) → ∀ e ∈ cs.foldl (fun dir c => dset dir (c.objectId ++ ".json") (.encrypted c)) dir, e.2.Typed E.P := by
    clear h2
    induction cs with
    | nil => exact fun dir hd => hd
    | cons c cs ih =>
      intro dir hd
      refine ih (fun c hc => hcs c (List.mem_cons_of_mem _ hc)) _ (fun e he => ?_)
      rcases mem_dset he with rfl | he
      · exact hcs c List.mem_cons_self
      · exact hd e he
  refine this _ (fun e he => ?_)
  rcases mem_dset he with rfl | he
  · exact trivial
  · exact hd e he

/-- C86 What `encrypt-ballots` writes is read back. -/
theorem C86_encrypt_read (hv : E.P.Valid) (json : ContestData → Bytes) (d : Device) (m : Manifest) (context : List Char) (c : ContextFile)
    (hc : fromRaw (ContextFile.ofJson E.P) context = .ok c) (calls : List (PlaintextBallot × Nat × Int)) (hn : ∀ c ∈ calls, c.2.1 < E.P.q)
    (dir : Dir) (h : encryptCommand E json d m c.context c.extendedData calls [] = .ok dir) : ∀ e ∈ dir, e.2.ReadBack E.P :=
  fun e he => readBack_of_typed (encryptCommand_typed hv (raw_reads (ContextFile.reads E.P) hc).1 hn (by simp) h e he)

/-- C86 `submit-ballots` over texts is `submit-ballots` over the values in the files. -/
theorem C86_submit (raw context : List Char) (m : Manifest) (hm : fromRaw Manifest.ofJson raw = .ok m) (c : ContextFile)
    (hc : fromRaw (ContextFile.ofJson E.P) context = .ok c) (castFiles spoilFiles : List CliFile)
    (hf : ∀ f ∈ castFiles ++ spoilFiles, f.ReadBack E.P) (dir : Dir) :
    submitCommandText E raw context (.dir (castFiles.map CliFile.toText)) (some (.dir (spoilFiles.map CliFile.toText))) dir.toText
      = (submitCommand E m c.context c.extendedData castFiles spoilFiles dir).map Dir.toText := by
  unfold submitCommandText submitCommand cliReadManifest
  rw [hm, hc]
  simp only [CliPath.read, bind, Except.bind, pure, Except.pure]
  rw [read_files (fun f hf' => (hf f (List.mem_append_left _ hf')).encrypted), read_files (fun f hf' => (hf f (List.mem_append_right _ hf')).encrypted)]
  cases cliGetManifest m with
  | error e => rfl
  | ok m' =>
    simp only
    cases castFiles.mapM CliFile.asEncrypted with
    | error e => rfl
    | ok cast =>
      simp only
      cases spoilFiles.mapM CliFile.asEncrypted with
      | error e => rfl
      | ok spoil =>
        simp only
        cases buildWithContext E m' c.context c.extendedData with
        | error e => rfl
        | ok y =>
          simp only
          cases submitBallots E y.1 y.2.1 cast spoil with
          | error e => rfl
          | ok bs =>
            simp only [Except.map]
            rw [Dir.toText_foldl bs (fun c => c.objectId ++ ".json") CliFile.submitted]
            rfl

/-- C86 Without ballots to spoil `submit-ballots` does as with an empty directory of them. -/
theorem C86_submit_none (raw context : List Char) (cast : CliPath) (dir : TextDir) :
    submitCommandText E raw context cast none dir = submitCommandText E raw context cast (some (.dir [])) dir := rfl

/-- C86 The ballots in one file, as a list, are read as from a directory with a file for each; a path that is neither a file nor a directory raises. -/
theorem C86_paths (P : Params) (plain : List PlaintextBallot) (encrypted : List CBallot) (he : ∀ b ∈ encrypted, b.Typed P) :
    CliPath.read PlaintextBallot.ofJson (.file (toRaw (listJson PlaintextBallot.toJson) plain)) = .ok plain ∧
    CliPath.read PlaintextBallot.ofJson (.dir (plain.map (toRaw PlaintextBallot.toJson))) = .ok plain ∧
    CliPath.read (CBallot.ofJson P) (.file (toRaw (listJson CBallot.toJson) encrypted)) = .ok encrypted ∧
    CliPath.read (CBallot.ofJson P) (.dir (encrypted.map (toRaw CBallot.toJson))) = .ok encrypted ∧
    CliPath.read PlaintextBallot.ofJson .neither = .error .value ∧ CliPath.read (CBallot.ofJson P) .neither = .error .value := by
  refine ⟨list_raw_trip (fun b _ => PlaintextBallot.trip b), ?_, list_raw_trip (fun b hb => CBallot.trip (he b hb)), ?_, rfl, rfl⟩
  · have := mapM_map_ok (fromRaw PlaintextBallot.ofJson) (toRaw PlaintextBallot.toJson) id plain (fun b _ => raw_trip (PlaintextBallot.trip b))
    rwa [List.map_id] at this
  · have := mapM_map_ok (fromRaw (CBallot.ofJson P)) (toRaw CBallot.toJson) id encrypted (fun b hb => raw_trip (CBallot.trip (he b hb)))
    rwa [List.map_id] at this

theorem submitCommand_typed (hv : E.P.Valid) {m : Manifest} {ctx : Context} {ext : Option (List (String × String))}
    {castFiles spoilFiles : List CliFile} (hf : ∀ f ∈ castFiles ++ spoilFiles, f.ReadBack E.P) {dir dir' : Dir} (hd : ∀ e ∈ dir, e.2.Typed E.P)
    (h : submitCommand E m ctx ext castFiles spoilFiles dir = .ok dir') : ∀ e ∈ dir', e.2.Typed E.P := by
  simp only [submitCommand, bindOk, pureOk] at h
  obtain ⟨m', hm', cast, h1, spoil, h2, ⟨im, ctx', ext'⟩, h3, bs, h4, rfl⟩ := h
  have hbs := submitBallots_typed hv.q_pos (mapM_all (fun f hf' b hb => raw_reads (CBallot.reads E.P) ((hf f (List.mem_append_left _ hf')).encrypted.trans hb)) h1)
    (mapM_all (fun f hf' b hb => raw_reads (CBallot.reads E.P) ((hf f (List.mem_append_right _ hf')).encrypted.trans hb)) h2) h4
  clear h4
  induction bs generalizing dir with
  | nil => exact hd
  | cons b bs ih =>
    refine ih (fun e he => ?_) (fun b hb => hbs b (List.mem_cons_of_mem _ hb))
    rcases mem_dset he with rfl | he
    · exact hbs b List.mem_cons_self
    · exact hd e he

/-- C86 What `submit-ballots` writes is read back, whatever it read. -/
theorem C86_submit_read (hv : E.P.Valid) (m : Manifest) (ctx : Context) (ext : Option (List (String × String)))
    (castFiles spoilFiles : List CliFile) (hf : ∀ f ∈ castFiles ++ spoilFiles, f.ReadBack E.P) (dir : Dir)
    (h : submitCommand E m ctx ext castFiles spoilFiles [] = .ok dir) : ∀ e ∈ dir, e.2.ReadBack E.P :=
  fun e he => readBack_of_typed (submitCommand_typed hv hf (by simp) h e he)

/-! ### Importing -/

/-- C86 `import-ballots` over texts is `import-ballots` over the values in the files, with the texts of the record. -/
theorem C86_import (constants : Constants) (maxE : Nat) (sd : TallySeeds) (raw context : List Char) (m : Manifest)
    (hm : fromRaw Manifest.ofJson raw = .ok m) (c : ContextFile) (hc : fromRaw (ContextFile.ofJson E.P) context = .ok c)
    (ballotFiles keyFiles : List CliFile) (hf : ∀ f ∈ ballotFiles ++ keyFiles, f.ReadBack E.P) (device : Option Device) (wanted : Bool) :
    importCommandText E constants maxE sd raw context (.dir (ballotFiles.map CliFile.toText)) (keyFiles.map CliFile.toText)
        (device.map (toRaw Device.toJson)) wanted
      = (do
        let (res, out) ← importCommand E maxE sd m c.context c.extendedData ballotFiles keyFiles
        let record ← importRecord E constants m c.context c.extendedData device.toList ballotFiles keyFiles wanted res
        return ⟨res, out, record.map (ElectionRecord.toTexts true 1000000)⟩) := by
  unfold importCommandText importCommand importRecord cliReadManifest
  rw [hm, hc]
  simp only [CliPath.read, bind, Except.bind, pure, Except.pure]
  rw [read_files (fun f hf' => (hf f (List.mem_append_left _ hf')).submitted), read_files (fun f hf' => (hf f (List.mem_append_right _ hf')).key)]
  cases hg : cliGetManifest m with
  | error e => rfl
  | ok m' =>
    obtain ⟨rfl, -, -⟩ := (cliGetManifest_iff _ _).1 hg
    simp only
    cases keyFiles.mapM CliFile.asKey with
    | error e => rfl
    | ok records =>
      rcases device with _ | d
      all_goals simp only [Option.map_none, Option.map_some, raw_trip (Device.trip _), Option.toList]
      all_goals
        cases ballotFiles.mapM CliFile.asSubmitted with
        | error e => rfl
        | ok bs =>
          simp only
          cases buildWithContext E m' c.context c.extendedData with
          | error e => rfl
          | ok y =>
            simp only
            cases tallyFromBallots E y.1 y.2.1 bs with
            | error e => rfl
            | ok z =>
              simp only
              cases cliDecrypt E sd maxE y.2.1 z.1 z.2
                (records.map (fun r => Guardian.fromPrivateRecord r c.context.numberOfGuardians c.context.quorum)) m' with
              | error e => rfl
              | ok res =>
                simp only
                cases printElectionResults m' res.tally res.spoiled with
                | error e => rfl
                | ok out => cases wanted <;> rfl

theorem restored_typed {P : Params} {r : PrivateGuardianRecord} (h : r.Typed P) (n k : Int) :
    (Guardian.fromPrivateRecord r n k).exportPrivate.Typed P := by
  have hg : (Guardian.mk r.electionKeys ⟨n, k⟩ r.backupsToShare r.guardianKeys r.guardianBackups r.guardianVerifications).exportPrivate.Typed P := h
  exact saveKey_typed hg (guardian_shareKey_typed hg)

theorem importCommand_typed (hv : E.P.Valid) {maxE : Nat} {sd : TallySeeds} {m : Manifest} {ctx : Context}
    {ext : Option (List (String × String))} {ballotFiles keyFiles : List CliFile} (hb : ∀ f ∈ ballotFiles, f.ReadBack E.P)
    (hk : ∀ f ∈ keyFiles, f.ReadBack E.P) {res : DecryptResults} {out : List PrintedContest × List (String × List PrintedContest)}
    (h : importCommand E maxE sd m ctx ext ballotFiles keyFiles = .ok (res, out)) : res.Typed E.P ∧ m.isValid = true := by
  simp only [importCommand, tallyFromBallots, bindOk, pureOk, Prod.mk.injEq] at h
  obtain ⟨m', hm', records, h1, bs, h2, ⟨im, ctx', ext'⟩, h3, ⟨t, sp⟩, ⟨t', h4, h5⟩, res', h6, out', h7, rfl, rfl⟩ := h
  cases h5
  have hbs := mapM_all (fun f hf b hb' => raw_reads (SBallot.reads E.P) ((hb f hf).submitted.trans hb')) h2
  have hrs := mapM_all (fun f hf b hb' => raw_reads (PrivateGuardianRecord.reads E.P) ((hk f hf).key.trans hb')) h1
  refine ⟨cliDecrypt_typed hv (cliTally_typed hv.one_lt_p hv.q_pos h4) (fun b hb => hbs b (List.mem_of_mem_filter hb)) (fun g hg => ?_) h6,
    ((cliGetManifest_iff _ _).1 hm').2.1⟩
  obtain ⟨r, hr, rfl⟩ := List.mem_map.1 hg
  exact (hrs r hr).1.1.2

theorem importRecord_typed (hv : E.P.Valid) {constants : Constants} {m : Manifest} {ctx : Context}
    {ext : Option (List (String × String))} {devices : List Device} {ballotFiles keyFiles : List CliFile} {wanted : Bool}
    {res : DecryptResults} {r : ElectionRecord} (hm : m.Typed) (hp : ∀ c ∈ m.contests, c.primaryPartyIds = none) (hmv : m.isValid = true)
    (hc : ctx.Typed E.P) (hb : ∀ f ∈ ballotFiles, f.ReadBack E.P) (hk : ∀ f ∈ keyFiles, f.ReadBack E.P) (hr : res.Typed E.P)
    (h : importRecord E constants m ctx ext devices ballotFiles keyFiles wanted res = .ok (some r)) : r.Typed E.P := by
  simp only [importRecord, bindOk] at h
  obtain ⟨records, h1, bs, h2, ⟨im, ctx', ext'⟩, h3, h⟩ := h
  split at h
  · cases h
    have hbs := mapM_all (fun f hf b hb' => raw_reads (SBallot.reads E.P) ((hb f hf).submitted.trans hb')) h2
    have hrs := mapM_all (fun f hf b hb' => raw_reads (PrivateGuardianRecord.reads E.P) ((hk f hf).key.trans hb')) h1
    obtain ⟨-, hc', he⟩ := buildElection_typed hv.q_pos hmv hc.1 hc.2.1 h3
    refine exportRecord_typed hm hp hc' he hbs hr (fun g hg => ?_)
    obtain ⟨r, hr, rfl⟩ := List.mem_map.1 hg
    exact restored_typed (hrs r hr) _ _
  · cases h

/-- C86 The record that `import-ballots` writes is read back. -/
theorem C86_import_read (hv : E.P.Valid) (constants : Constants) (maxE : Nat) (sd : TallySeeds) (raw context : List Char) (m : Manifest)
    (hm : fromRaw Manifest.ofJson raw = .ok m) (c : ContextFile) (hc : fromRaw (ContextFile.ofJson E.P) context = .ok c)
    (ballotFiles keyFiles : List CliFile) (hb : ∀ f ∈ ballotFiles, f.ReadBack E.P) (hk : ∀ f ∈ keyFiles, f.ReadBack E.P)
    (devices : List Device) (wanted : Bool) (res : DecryptResults) (out : List PrintedContest × List (String × List PrintedContest))
    (h : importCommand E maxE sd m c.context c.extendedData ballotFiles keyFiles = .ok (res, out)) (r : ElectionRecord)
    (h' : importRecord E constants m c.context c.extendedData devices ballotFiles keyFiles wanted res = .ok (some r)) :
    (r.toTexts true 1000000).read E.P = .ok r := by
  obtain ⟨ht, hp⟩ := raw_reads Manifest.typed hm
  obtain ⟨h1, h2⟩ := importCommand_typed hv hb hk h
  exact record_trip (importRecord_typed hv ht hp h2 (raw_reads (ContextFile.reads E.P) hc).1 hb hk h1 h') _ _

/-! ### `e2e` -/

/-- C86 `e2e` over texts is `e2e` over the values in the files, with the texts of the record and of the keys. -/
theorem C86_e2e (constants : Constants) (maxE : Nat) (rnd : E2eRandom) (n quorum : Int) (raw : List Char) (m : Manifest)
    (hm : fromRaw Manifest.ofJson raw = .ok m) (path : CliPath) (bs : List PlaintextBallot) (hb : path.read PlaintextBallot.ofJson = .ok bs)
    (spoilId url record : Option String) (keysDir : Option Dir) :
    e2eCommandText E constants maxE rnd n quorum raw path spoilId url record (keysDir.map Dir.toText)
      = (do
        let r ← e2eRun E loadsCoordinate contestDataJson maxE rnd n quorum m bs spoilId url
        let (_, keys) ← e2ePublish record keysDir r
        return (r, (e2eRecord constants m rnd.device r).toTexts true 1000000, keys.map Dir.toText)) := by
  unfold e2eCommandText cliReadManifest
  rw [hm, hb]
  simp only [bind, Except.bind, pure, Except.pure]
  cases hg : createGuardians E ⟨n, quorum⟩ rnd.polynomials with
  | error e => simp only [e2eRun, hg, bind, Except.bind]
  | ok gs =>
    simp only
    cases hm' : cliGetManifest m with
    | error e => simp only [e2eRun, hg, hm', bind, Except.bind]
    | ok m' =>
      obtain ⟨rfl, -, -⟩ := (cliGetManifest_iff _ _).1 hm'
      simp only
      cases e2eRun E loadsCoordinate contestDataJson maxE rnd n quorum m' bs spoilId url with
      | error e => rfl
      | ok r =>
        cases record with
        | none => rfl
        | some f =>
          cases keysDir with
          | none => rfl
          | some d => simp only [e2ePublish, Option.map_some, exportKeys_text]

theorem e2eRun_typed (hv : E.P.Valid) {constants : Constants} {maxE : Nat} {rnd : E2eRandom} (hr : PolynomialsInRange E.P rnd.polynomials)
    (hn : ∀ b ∈ rnd.ballots, b.1 < E.P.q) {n quorum : Int} {m : Manifest} (hm : m.Typed) (hp : ∀ c ∈ m.contests, c.primaryPartyIds = none)
    {bs : List PlaintextBallot} {spoilId url : Option String} {loads : Bytes → R (List Char)} {json : ContestData → Bytes} {r : E2eResult}
    (h : e2eRun E loads json maxE rnd n quorum m bs spoilId url = .ok r) :
    (e2eRecord constants m rnd.device r).Typed E.P ∧ ∀ g ∈ r.guardians, g.exportPrivate.Typed E.P := by
  simp only [e2eRun, tallyFromStore, bindOk, pureOk] at h
  obtain ⟨gs0, h0, m', hm', ⟨gs, jk⟩, h1, ⟨im, ctx, ext⟩, h2, cs, h3, store, h4, ⟨t, sp⟩, ⟨t', h5, h5'⟩, res, h6, out, h7, rfl⟩ := h
  cases h5'
  obtain ⟨rfl, hmv, -⟩ := (cliGetManifest_iff _ _).1 hm'
  have hg := runKeyCeremony_typed hv.p_pos (createGuardians_typed hv hr h0) h1
  have hj := runKeyCeremony_joint hv.one_lt_p hv.q_pos h1
  obtain ⟨him, hc, he⟩ := buildElection_typed hv.q_pos hmv hj.1 hj.2 h2
  have hcs := encryptLoop_typed hv.one_lt_p hv.q_pos him (fun c hc => hn c.2 (List.of_mem_zip hc).2) (hashElems_lt hv.q_pos _) h3
  have hst := castAndSpoil_typed hv.q_pos hcs (by simp) h4
  have hall : ∀ b ∈ Store.all store, b.toCBallot.Typed E.P := by
    intro b hb
    obtain ⟨e, he, rfl⟩ := List.mem_map.1 hb
    exact hst e he
  refine ⟨exportRecord_typed hm hp hc he hall (cliDecrypt_typed hv (cliTally_typed hv.one_lt_p hv.q_pos h5) (fun b hb => ?_)
    (fun g hg' => (hg g hg').1.1.2) h6) hg, hg⟩
  obtain ⟨e, he', rfl⟩ := List.mem_map.1 hb
  exact hst e (List.mem_of_mem_filter he')

/-- C86 What `e2e` writes is read back: the election record, and every guardian's own file. -/
theorem C86_e2e_read (hv : E.P.Valid) (constants : Constants) (maxE : Nat) (rnd : E2eRandom) (hr : PolynomialsInRange E.P rnd.polynomials)
    (hn : ∀ b ∈ rnd.ballots, b.1 < E.P.q) (n quorum : Int) (raw : List Char) (m : Manifest) (hm : fromRaw Manifest.ofJson raw = .ok m)
    (bs : List PlaintextBallot) (spoilId url : Option String) (r : E2eResult)
    (h : e2eRun E loadsCoordinate contestDataJson maxE rnd n quorum m bs spoilId url = .ok r) :
    ((e2eRecord constants m rnd.device r).toTexts true 1000000).read E.P = .ok (e2eRecord constants m rnd.device r) ∧
      ∀ e ∈ exportPrivateKeys [] r.guardians, e.2.ReadBack E.P := by
  obtain ⟨ht, hp⟩ := raw_reads Manifest.typed hm
  obtain ⟨h1, h2⟩ := e2eRun_typed (constants := constants) hv hr hn ht hp h
  exact ⟨record_trip h1 _ _, fun e he => readBack_of_typed (exportKeys_typed (by simp) h2 e he)⟩

/-! ### An election by the four commands -/

theorem zip_fst {α β : Type} {l : List α} {l' : List β} (h : l'.length = l.length) : (l.zip l').map (fun c => c.1) = l := by
  rw [List.map_fst_zip (by omega)]

theorem foldl_entry {l : List CBallot} {dir : Dir} {e : String × CliFile}
    (he : e ∈ l.foldl (fun dir c => dset dir (c.objectId ++ ".json") (.encrypted c)) dir) :
    e ∈ dir ∨ ∃ c ∈ l, e = (c.objectId ++ ".json", .encrypted c) := by
  induction l generalizing dir with
  | nil => exact .inl he
  | cons c l ih =>
    rcases ih he with h | ⟨c', hc', h⟩
    · rcases mem_dset h with h | h
      · exact .inr ⟨c, List.mem_cons_self, h⟩
      · exact .inl h
    · exact .inr ⟨c', List.mem_cons_of_mem _ hc', h⟩

theorem foldl_nodup {l : List CBallot} {dir : Dir} (h : (dir.map (fun e => e.1)).Nodup) :
    ((l.foldl (fun dir c => dset dir (c.objectId ++ ".json") (.encrypted c)) dir).map (fun e => e.1)).Nodup := by
  induction l generalizing dir with
  | nil => exact h
  | cons c l ih => exact ih (dset_nodup h _ _)

/-- The entries of the directory after `encrypt-ballots`. -/
theorem encrypt_entries {json : ContestData → Bytes} {d : Device} {m : Manifest} {ctx : Context} {ext : Option (List (String × String))}
    {calls : List (PlaintextBallot × Nat × Int)} {dir : Dir} (h : encryptCommand E json d m ctx ext calls [] = .ok dir) :
    (dir.map (fun e => e.1)).Nodup ∧
      ∀ e ∈ dir, e = ("device.json", .device d) ∨ ∃ c : CBallot, e = (c.objectId ++ ".json", .encrypted c) := by
  simp only [encryptCommand, bindOk, pureOk] at h
  obtain ⟨m', hm', ⟨im, ctx', ext'⟩, h1, cs, h2, rfl⟩ := h
  refine ⟨foldl_nodup (by simp [dset]), fun e he => ?_⟩
  rcases foldl_entry he with h | ⟨c, -, h⟩
  · rcases mem_dset (d := []) h with h | h
    · exact .inl h
    · cases h
  · exact .inr ⟨c, h⟩

theorem encrypt_dir {json : ContestData → Bytes} {d : Device} {m : Manifest} {ctx : Context} {ext : Option (List (String × String))}
    {calls : List (PlaintextBallot × Nat × Int)} {dir : Dir} (h : encryptCommand E json d m ctx ext calls [] = .ok dir)
    (hnd : (calls.map (fun c => c.1.objectId)).Nodup) (hdev : "device" ∉ calls.map (fun c => c.1.objectId)) :
    ∃ cs : List CBallot, dir = ("device.json", .device d) :: cs.map (fun c => (c.objectId ++ ".json", .encrypted c)) ∧
      cs.map (fun c => c.objectId) = calls.map (fun c => c.1.objectId) := by
  simp only [encryptCommand, bindOk, pureOk, encryptVotes] at h
  obtain ⟨m', hm', ⟨im, ctx', ext'⟩, h1, cs, h2, rfl⟩ := h
  obtain ⟨vs, rfl, h3, h4⟩ := encryptLoop_sound json im ctx' none calls _ _ h2
  have hids : (vs.map (fun v => v.enc)).map (fun c => c.objectId) = calls.map (fun c => c.1.objectId) := by
    have : calls.map (fun c => c.1.objectId) = (calls.map (fun c => c.1)).map (fun b => b.objectId) := by rw [List.map_map]; rfl
    rw [this, ← h3, List.map_map, List.map_map]
    exact List.map_congr_left (fun v hv => encryptBallot_id (h4 v hv).1)
  refine ⟨vs.map (fun v => v.enc), ?_, hids⟩
  rw [write_new' _ (fun c => c.objectId) ".json" (fun c => .encrypted c) _ (by rw [hids]; exact hnd)]
  · simp [dset]
  · intro c hc hm
    have : c.objectId ∈ calls.map (fun c => c.1.objectId) := by rw [← hids]; exact List.mem_map_of_mem hc
    have hne : c.objectId ≠ "device" := fun h => hdev (h ▸ this)
    simp only [dset, dkeys, List.any_nil, Bool.false_eq_true, if_false, List.nil_append, List.map_cons, List.map_nil,
      List.mem_singleton] at hm
    exact json_ne_device hne hm

theorem ballotsNamed_eq {dir : Dir} (h : ∀ e ∈ dir, ∃ c : CBallot, e = (c.objectId ++ ".json", .encrypted c)) (bs : List PlaintextBallot) :
    ballotsNamed dir.toText bs = ballotsIn dir.files bs := by
  unfold ballotsNamed ballotsIn
  refine List.filter_congr (fun b _ => ?_)
  congr 1
  rw [eq_iff_iff]
  unfold Dir.toText Dir.files
  rw [List.map_map, List.map_map, List.mem_map, List.mem_map]
  constructor
  · rintro ⟨e, he, h1⟩
    obtain ⟨c, rfl⟩ := h e he
    exact ⟨_, he, by rw [← name_inj' (suf := ".json") h1]; rfl⟩
  · rintro ⟨e, he, h1⟩
    obtain ⟨c, rfl⟩ := h e he
    refine ⟨_, he, ?_⟩
    simp only [Function.comp, CliFile.ballotId, Option.some.injEq] at h1
    simp [h1]

/-- C86 An election by the four commands, from the texts of its files.  The manifest is any text that is read as a manifest that is ready for an
election; the ballots are any file or directory of plaintext ballots.  `setup` writes the package and the guardians' files;
`encrypt-ballots` reads the package and the ballots; every file that it wrote, but the device's, is put into the directory to cast or the one to spoil;
`submit-ballots` reads these and writes the submitted ballots; `import-ballots` reads these and the files of all guardians, in any
order.  No command fails; the tally has exactly the votes of the ballots whose files were in the directory to cast, and every
ballot whose file was in the other is published with exactly the voter's votes; both are printed under the names of the manifest; and whoever
reads the files of the record has one that passes the audit and has these votes.
Partial: as `C75_pipeline_partial`. -/
theorem C86_pipeline_partial (hv : E.P.Valid) (hpq : (E.P.q - 1) * (E.P.q - 1) < E.P.p) (hlen : HmacLen E) (hq : E.P.q ≤ 256 ^ 246)
    (maxE : Nat) (hmaxE : 1 ≤ maxE) (n quorum : Nat) (hquorum : 0 < quorum) (hmany : quorum ≤ n) (hn : n < E.P.q)
    (hpow : ∀ i < quorum, n ^ i < E.P.p) (rands : Nat → List (Nat × Nat)) (hr : ∀ i < n, (rands i).length = quorum)
    (hrange : PolynomialsInRange E.P rands) (nonces : String → Nat → Nat) (raw : List Char) (m : Manifest)
    (hm : fromRaw Manifest.ofJson raw = .ok m) (im : InternalManifest) (he : ElectionReady E m im) (hnamed : m.Named)
    (url : Option String) (constants : Constants) (hk : constants.params = E.P) :
    ∃ pkg keys, setupCommandText E constants rands nonces n quorum raw url [] = .ok (pkg, keys) ∧
      ∀ (d : Device) (path : CliPath) (ballots : List PlaintextBallot) (rnd : List (Nat × Int)),
        path.read PlaintextBallot.ofJson = .ok ballots → rnd.length = ballots.length → (∀ r ∈ rnd, r.1 < E.P.q) →
        (ballots.map (fun b => b.objectId)).Nodup → "device" ∉ ballots.map (fun b => b.objectId) →
        (∀ b ∈ ballots, ∃ d, im.StyleHas b.styleId d) →
        (∀ c ∈ ballots.zip rnd, ∀ d, im.StyleHas c.1.styleId d →
          Encryptable E contestDataJson (c.1.voted d.toContestDescription) d (nonceSeed E im.manifestHash c.1.objectId c.2.1)) →
        ∃ dir, encryptCommandText E d pkg.manifest pkg.context path rnd [] = .ok dir ∧
          dir.map (fun e => e.1) = "device.json" :: ballots.map (fun b => b.objectId ++ ".json") ∧
          dir.head? = some ("device.json", toRaw Device.toJson d) ∧
          ∀ castDir spoilDir : TextDir, (("device.json", toRaw Device.toJson d) :: castDir ++ spoilDir).Perm dir →
            castDir.length < E.P.q → castDir.length ≤ maxE →
            ∃ sdir, submitCommandText E pkg.manifest pkg.context (.dir (castDir.map (fun e => e.2)))
                (some (.dir (spoilDir.map (fun e => e.2)))) [] = .ok sdir ∧
              ∀ ballotFiles keyFiles : List (List Char), ballotFiles.Perm (sdir.map (fun e => e.2)) →
                keyFiles.Perm (keys.map (fun e => e.2)) → ∀ sd : TallySeeds,
                ∃ r cast spoiled texts rec, importCommandText E constants maxE sd pkg.manifest pkg.context (.dir ballotFiles) keyFiles
                    (some (toRaw Device.toJson d)) true = .ok r ∧
                  cast.Perm (ballotsNamed castDir ballots) ∧ spoiled.Perm (ballotsNamed spoilDir ballots) ∧
                  r.results.Right im cast spoiled ∧ r.results.Printed m r.printed ∧
                  r.record = some texts ∧ texts.read E.P = .ok rec ∧
                  ∀ v : RecordView, v.Of rec → v.Audited E ∧ v.Publishes im cast spoiled ∧ v.devices = [d] := by
  obtain ⟨pkg, keys, h1, h2, h3⟩ := pipeline_core hv hpq hlen loadsCoordinate loadsCoordinate_reads hq contestDataJson maxE hmaxE n quorum hquorum hmany hn
    hpow rands hr nonces m im he hnamed url
  obtain ⟨hpkg, hkeys⟩ := setup_typed hv hrange hm (by simp) h1 constants
  have hpm : fromRaw Manifest.ofJson (pkg.toTexts constants).manifest = .ok m := by rw [hpkg.manifest, h2]
  refine ⟨pkg.toTexts constants, keys.toText, ?_, ?_⟩
  · have := C86_setup (E := E) constants rands nonces n quorum raw m hm url []
    rw [h1] at this
    exact this
  · intro d path ballots rnd hpath hlen' hrnd hnd hdev hstyle henc
    have hfst := zip_fst hlen'
    have hfst' : (ballots.zip rnd).map (fun c => c.1.objectId) = ballots.map (fun b => b.objectId) := by
      conv_rhs => rw [← hfst]
      rw [List.map_map]; rfl
    obtain ⟨dir, h4, h5⟩ := h3 d (ballots.zip rnd) (by rw [hfst']; exact hnd) (by rw [hfst']; exact hdev)
      (fun c hc => hstyle c.1 (List.of_mem_zip hc).1) henc
    have hdir := encryptCommand_typed hv (raw_reads (ContextFile.reads E.P) hpkg.context).1 (fun c hc => hrnd c.2 (List.of_mem_zip hc).2)
      (by simp) h4
    obtain ⟨cs, hcs, hcsi⟩ := encrypt_dir h4 (by rw [hfst']; exact hnd) (by rw [hfst']; exact hdev)
    refine ⟨dir.toText, ?_, ?_, by rw [hcs]; rfl, ?_⟩
    rotate_left
    · have : (Dir.toText dir).map (fun e => e.1) = "device.json" :: (cs.map (fun c => c.objectId)).map (fun i => i ++ ".json") := by
        rw [hcs, List.map_map]
        simp [Dir.toText, Function.comp_def]
      rw [this, hcsi, hfst', List.map_map]
      rfl
    rotate_left
    · have := C86_encrypt d _ _ m hpm _ hpkg.context path ballots hpath rnd []
      rw [h4] at this
      exact this
    · intro castDir spoilDir hperm hcl hcm
      obtain ⟨hnodup, hentries⟩ := encrypt_entries h4
      obtain ⟨L, hL, hLe⟩ := perm_of_map hperm
      cases L with
      | nil => cases hLe
      | cons x L =>
        rw [List.map_cons, List.cons_append] at hLe
        obtain ⟨hx, hrest⟩ := List.cons.inj hLe
        obtain ⟨L1, L2, rfl, rfl, rfl⟩ := List.map_eq_append_iff.1 hrest.symm
        have hx' : x = ("device.json", .device d) := by
          rcases hentries x (hL.subset List.mem_cons_self) with h | ⟨c, h⟩
          · exact h
          · have ht := read_encrypted (hdir x (hL.subset List.mem_cons_self))
            have ht' := read_encrypted (P := E.P) (f := .device d) trivial
            have : x.2.toText = CliFile.toText (.device d) := (congrArg Prod.snd hx).symm
            rw [this, ht', h] at ht
            cases ht
        subst hx'
        have hnd' := (hL.map (fun e => e.1)).nodup_iff.2 hnodup
        have henc' : ∀ e ∈ L1 ++ L2, ∃ c : CBallot, e = (c.objectId ++ ".json", .encrypted c) := by
          intro e he'
          rcases hentries e (hL.subset (List.mem_cons_of_mem _ he')) with h | h
          · refine absurd (List.mem_map.2 ⟨e, he', ?_⟩) (List.nodup_cons.1 (List.map_cons ▸ hnd')).1
            rw [h]
          · exact h
        have hfp : (CliFile.device d :: (Dir.files L1 ++ Dir.files L2)).Perm (Dir.files dir) := by
          have := hL.map (fun e => e.2)
          rw [List.map_cons, List.map_append] at this
          exact this
        have hlc : (Dir.files L1).length = (List.map (fun e : String × CliFile => (e.1, e.2.toText)) L1).length := by simp [Dir.files]
        have hft : ∀ f ∈ Dir.files L1 ++ Dir.files L2, f.Typed E.P := by
          intro f hf
          have : f ∈ Dir.files dir := hfp.subset (List.mem_cons_of_mem _ hf)
          obtain ⟨e, he', rfl⟩ := List.mem_map.1 this
          exact hdir e he'
        have htext : ∀ L : Dir, (L.map (fun e => (e.1, e.2.toText))).map (fun e => e.2) = (Dir.files L).map CliFile.toText := by
          intro L
          simp [Dir.files]
        obtain ⟨sdir, h6, -, h7⟩ := h5 (Dir.files L1) (Dir.files L2) (Dir.files L1 ++ Dir.files L2) (List.forall₂_same.2 (fun _ _ => .inl rfl)) hfp
          (by rw [hlc]; exact hcl) (by rw [hlc]; exact hcm)
        have hsdir := submitCommand_typed hv (fun f hf => readBack_of_typed (hft f hf)) (by simp) h6
        refine ⟨sdir.toText, ?_, ?_⟩
        · have := C86_submit (E := E) _ _ m hpm _ hpkg.context (Dir.files L1) (Dir.files L2) (fun f hf => readBack_of_typed (hft f hf)) []
          rw [h6] at this
          rw [htext, htext]
          exact this
        · intro bf kf hbf hkf sd
          rw [show sdir.toText.map (fun e => e.2) = (Dir.files sdir).map CliFile.toText from htext sdir] at hbf
          rw [show keys.toText.map (fun e => e.2) = (Dir.files keys).map CliFile.toText from htext keys] at hkf
          obtain ⟨bf', hbf', rfl⟩ := perm_of_map hbf
          obtain ⟨kf', hkf', rfl⟩ := perm_of_map hkf
          have hbt : ∀ f ∈ bf', f.ReadBack E.P := by
            intro f hf
            obtain ⟨e, he', rfl⟩ := List.mem_map.1 (hbf'.subset hf)
            exact readBack_of_typed (hsdir e he')
          have hkt : ∀ f ∈ kf', f.ReadBack E.P := by
            intro f hf
            obtain ⟨e, he', rfl⟩ := List.mem_map.1 (hkf'.subset hf)
            exact readBack_of_typed (hkeys e he')
          obtain ⟨res, out, cast, spoiled, d1, d2, d3, d4, d5, d6⟩ := h7 bf' kf' hbf' hkf' sd
          obtain ⟨rec, e1, e2, e3⟩ := d6 constants [d] hk
          have hI := C86_import constants maxE sd _ _ m hpm _ hpkg.context bf' kf'
            (fun f hf => (List.mem_append.1 hf).elim (hbt f) (hkt f)) (some d) true
          have hR := C86_import_read hv constants maxE sd _ _ m hpm _ hpkg.context bf' kf' hbt hkt [d] true res out d1 rec e1
          simp only [d1, bind, Except.bind, pure, Except.pure, Option.toList, e1] at hI
          rw [hfst] at d2 d3
          refine ⟨_, cast, spoiled, _, rec, hI, ?_, ?_, d4, d5, rfl, hR, fun v hv' => ⟨(e3 v hv').1, (e3 v hv').2, ?_⟩⟩
          · rw [show ballotsNamed (L1.map (fun e => (e.1, e.2.toText))) ballots = _ from
              ballotsNamed_eq (fun e he' => henc' e (List.mem_append_left _ he')) ballots]
            exact d2
          · rw [show ballotsNamed (L2.map (fun e => (e.1, e.2.toText))) ballots = _ from
              ballotsNamed_eq (fun e he' => henc' e (List.mem_append_right _ he')) ballots]
            exact d3
          · have := hv'.devices
            rw [e2] at this
            exact List.perm_singleton.1 this

end EG
