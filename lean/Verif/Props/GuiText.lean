import Verif.Lemmas.GuiText
import Verif.Props.SerializeElection

/-!
# C84: what the GUI keeps and exports as texts
-/

namespace EG

variable {E : Env}

/-! ### Shares -/

/-- C84 Shares and compensated shares are read back as they were written, and whatever text a share is read from, its elements are in
range and it is what its own text says. -/
theorem C84_shares (P : Params) :
    (∀ s : DecShare, s.Typed P → fromRaw (DecShare.ofJson P) (toRaw DecShare.toJson s) = .ok s) ∧
    (∀ s : CompShare, s.Typed P → fromRaw (CompShare.ofJson P) (toRaw CompShare.toJson s) = .ok s) ∧
    (∀ raw s, fromRaw (DecShare.ofJson P) raw = .ok s → s.Typed P) ∧
    ∀ raw s, fromRaw (CompShare.ofJson P) raw = .ok s → s.Typed P :=
  ⟨fun _ h => raw_trip (DecShare.trip h), fun _ h => raw_trip (CompShare.trip h), fun _ _ h => raw_reads DecShare.reads h,
    fun _ _ h => raw_reads CompShare.reads h⟩

/-- C84 A share that a guardian computes has its elements in range, whatever the ciphertexts, because it is given out only if its proofs are
valid; so has a share that is reconstructed from compensated shares. -/
theorem C84_computed (hv : E.P.Valid) (up : Bool) (oid : String) (cs : List CtContest) (hcs : ∀ c ∈ cs, c.descriptionHash < E.P.q) :
    (∀ kp ctx seeds sh, kp.keyPair.pub < E.P.p → shareForContests E up kp oid cs ctx seeds = some sh → sh.Typed E.P) ∧
    (∀ co a m ctx seeds sh, a.key < E.P.p → compForContests E up co a m oid cs ctx seeds = some sh → sh.Typed E.P) ∧
    ∀ k shares lagrange sh, k.key < E.P.p → Keys shares → (∀ e ∈ shares, e.2.Typed E.P) →
      reconstructShare E.P k oid cs shares lagrange = .ok sh → sh.Typed E.P :=
  ⟨fun _ _ _ _ hk h => shareForContests_typed hv hk hcs h, fun _ _ _ _ _ _ hk h => compForContests_typed hv hk hcs h,
    fun _ _ _ _ hk h1 h2 h => reconstructShare_typed hv.one_lt_p hk hcs ⟨h1, h2⟩ h⟩

/-! ### Decryptions -/

/-- C84 A decryption in the GUI, with the private files, the ballots, the shares and the results as texts: for every content of the files,
every content of the uploads and every interleaving of guardians and administrators, the database holds the texts of what it would hold if
values were kept in place of texts. -/
theorem C84_refines (hv : E.P.Valid) (maxE : Nat) (files : String → Option (List Char)) (n quorum : Int) (db : GuiDb) (eid : String)
    (guardians : Int) (evs : List GuiEvent) :
    (TextWorld.start db eid guardians).run E maxE (parseSubmitted E.P) (loadGuardianText E.P files n quorum) evs =
      ((GuiWorld.start db eid guardians).run E maxE (parseSubmitted E.P) (loadGuardianText E.P files n quorum) evs).toText :=
  (run_text hv (fun _ _ hg => loaded_typed hg) evs (start_typed E.P db eid guardians)).1

/-- C84 And whoever reads the shares and the results gets what was stored; a share of a ballot that could not be computed makes the reading of
all shares raise. -/
theorem C84_stored (hv : E.P.Valid) (maxE : Nat) (files : String → Option (List Char)) (n quorum : Int) (db : GuiDb) (eid : String)
    (guardians : Int) (evs : List GuiEvent) (w : GuiWorld)
    (hw : w = (GuiWorld.start db eid guardians).run E maxE (parseSubmitted E.P) (loadGuardianText E.P files n quorum) evs) :
    w.toText.dec.shares.mapM (JoinedDoc.read E.P) = w.dec.getShares ∧
    ∀ r, w.dec.completed = some r →
      w.toText.dec.completed = some r.toDoc ∧
      r.toDoc.read E.P = .ok (r.tally, r.ballots.map (·.2), r.lagrange, r.ciphertextTally.publish) := by
  have h := (run_text hv (maxE := maxE) (guardianOf := loadGuardianText E.P files n quorum) (fun _ _ hg => loaded_typed hg) evs
    (start_typed E.P db eid guardians)).2
  rw [← hw] at h
  refine ⟨shares_read h.shares, fun r hr => ⟨?_, ResultDoc.read_toDoc (h.completed r hr)⟩⟩
  simp only [GuiWorld.toText, GuiDecryption.toText, hr]
  rfl

/-! ### Records -/

/-- C84 Reading the texts of a record gives the record.  Partial: the manifest has no lists of primary parties. -/
theorem C84_record_partial (P : Params) (r : ElectionRecord) (h : r.Typed P) (allow : Bool) (votes : Int) :
    (r.toTexts allow votes).read P = .ok r := record_trip h allow votes

/-- What is exported of a decryption with typed results. -/
theorem export_text {constants : Constants} {net : Nat → Nat → Bool} {db : GuiDb} {d : GuiDecryption} {t : ElectionTexts} {e : ElectionDoc}
    {x : ElectionExtras} {allow : Bool} {votes : Int} (ht : t.Of E.P e x allow votes) (hdb : dget db.elections d.electionId = some e)
    (hr : ∀ r ∈ d.completed, r.Typed E.P) :
    guiExportText E constants net db t d.toText =
      (guiExportRecord constants (parseSubmitted E.P) net db (some d) x).map (ElectionRecord.toTexts allow votes) ∧
    ∀ rec, guiExportRecord constants (parseSubmitted E.P) net db (some d) x = .ok rec → (rec.toTexts allow votes).read E.P = .ok rec := by
  constructor
  · simp only [guiExportText, guiExportRecord, ht.manifest, ht.context, GuiDb.getElection, hdb, GuiDecryption.toText, bind, Except.bind]
    cases hc : d.completed with
    | none => rfl
    | some r =>
      simp only [Option.map_some, ResultDoc.read_toDoc (hr r hc), ht.records, ht.devices]
      rfl
  · intro rec hrec
    obtain ⟨d', e', r, hd', he', hc, rfl⟩ := (C78_only_completed ..).1 hrec
    cases hd'
    rw [hdb] at he'
    cases he'
    obtain ⟨h1, h2, h3, h4⟩ := hr r hc
    have hctx := raw_reads (ContextFile.reads E.P) ht.context
    have hm := raw_reads Manifest.typed ht.manifest
    refine record_trip (P := E.P) ?_ allow votes
    refine { manifest := hm.1, parties := hm.2, context := hctx.1, extendedData := hctx.2, coefficients := h3, encryptedTally := h4,
             tally := h1, guardians := fun y hy => ?_, submitted := fun y hy => ?_, spoiled := fun y hy => ?_ }
    · exact listRaw_reads (GuardianRecord.reads E.P) ht.records _ (writeAll_mem y hy)
    · exact getBallots_typed _ (writeAll_mem y hy)
    · obtain ⟨z, hz, hzy⟩ := List.mem_map.1 (writeAll_mem y hy)
      rw [← hzy]
      exact h2 z hz

/-- C84 The export of the GUI, from the texts of the database to the texts of the record: it writes the texts of the record that it would
export if values were kept, and whoever reads the files gets this record. -/
theorem C84_export (hv : E.P.Valid) (maxE : Nat) (files : String → Option (List Char)) (n quorum : Int) (db : GuiDb) (eid : String)
    (guardians : Int) (evs : List GuiEvent) (w : GuiWorld)
    (hw : w = (GuiWorld.start db eid guardians).run E maxE (parseSubmitted E.P) (loadGuardianText E.P files n quorum) evs)
    (constants : Constants) (net : Nat → Nat → Bool) (db' : GuiDb) (t : ElectionTexts) (e : ElectionDoc) (x : ElectionExtras)
    (allow : Bool) (votes : Int) (ht : t.Of E.P e x allow votes) (hdb : dget db'.elections w.dec.electionId = some e) :
    guiExportText E constants net db' t w.toText.dec =
      (guiExportRecord constants (parseSubmitted E.P) net db' (some w.dec) x).map (ElectionRecord.toTexts allow votes) ∧
    ∀ rec, guiExportRecord constants (parseSubmitted E.P) net db' (some w.dec) x = .ok rec → (rec.toTexts allow votes).read E.P = .ok rec := by
  have h := (run_text hv (maxE := maxE) (guardianOf := loadGuardianText E.P files n quorum) (fun _ _ hg => loaded_typed hg) evs
    (start_typed E.P db eid guardians)).2
  rw [← hw] at h
  exact export_text ht hdb h.completed

/-! ### An election from its key ceremony to the reader of its record -/

theorem joinAll_typed (hv : E.P.Valid) {db : GuiDb} {guardianOf : String → Option Guardian}
    (hg : ∀ u, ∀ g ∈ guardianOf u, g.electionKeys.keyPair.pub < E.P.p) (joins : List (String × (Nat → Nat → Bool) × JoinSeeds))
    {d d' : GuiDecryption} (hd : ∀ s ∈ d.shares, s.SharesTyped E.P) (h : joinAll E (parseSubmitted E.P) db guardianOf joins d = .ok d') :
    ∀ s ∈ d'.shares, s.SharesTyped E.P := by
  induction joins generalizing d with
  | nil => cases h; exact hd
  | cons j joins ih =>
    simp only [joinAll, List.foldlM_cons, bindOk] at h
    obtain ⟨d1, h1, h2⟩ := h
    refine ih (fun s hs => ?_) h2
    simp only [s1Join, bindOk, pureOk] at h1
    obtain ⟨r, hr, rfl⟩ := h1
    rcases List.mem_append.1 hs with hs | hs
    · exact hd s hs
    · rw [List.mem_singleton.1 hs]
      exact (s1Compute_typed hv (hg j.1) hr).1

theorem stage2_typed (hv : E.P.Valid) {maxE : Nat} {net : Nat → Nat → Bool} {db : GuiDb} {d d' : GuiDecryption} {admin : Bool} {x : R Bool}
    (hd : ∀ s ∈ d.shares, s.SharesTyped E.P) (hc : ∀ r ∈ d.completed, r.Typed E.P)
    (h : tryRunStage2 E maxE (parseSubmitted E.P) net db d admin = (x, d')) :
    (∀ r ∈ d'.completed, r.Typed E.P) ∧ d'.electionId = d.electionId := by
  unfold tryRunStage2 at h
  split at h
  · split at h
    · cases h; exact ⟨hc, rfl⟩
    · rename_i r hr
      cases h
      refine ⟨fun y hy => ?_, rfl⟩
      cases hy
      exact s2Compute_typed hv hd hr
  · cases h; exact ⟨hc, rfl⟩

theorem joinAll_election {parse : List Char → Option SBallot} {db : GuiDb} {guardianOf : String → Option Guardian}
    (joins : List (String × (Nat → Nat → Bool) × JoinSeeds)) {d d' : GuiDecryption} (h : joinAll E parse db guardianOf joins d = .ok d') :
    d'.electionId = d.electionId ∧ d'.completed = d.completed := by
  induction joins generalizing d with
  | nil => cases h; exact ⟨rfl, rfl⟩
  | cons j joins ih =>
    simp only [joinAll, List.foldlM_cons, bindOk] at h
    obtain ⟨d1, h1, h2⟩ := h
    simp only [s1Join, bindOk, pureOk] at h1
    obtain ⟨r, hr, rfl⟩ := h1
    exact ih (d := d.appendJoined r.1) h2

theorem run_elections (parse : List Char → Option SBallot) (ops : List UploadOp) (db : GuiDb) :
    SameElections (db.run parse ops).elections db.elections := by
  induction ops generalizing db with
  | nil => exact fun _ => rfl
  | cons op ops ih => exact fun k => (ih (db.step parse op) k).trans ((step_cases parse db op).1 k)

/-- The texts that are stored of a new election are read back. -/
theorem texts_of (hv : E.P.Valid) {loads : Bytes → R (List Char)} (hlen : HmacLen E) (hl : ReadsCoordinate loads) (hq : E.P.q ≤ 256 ^ 246)
    {n quorum : Int} {evs : List KCEvent} {s : KCSystem} (hs : s = (KCSystem.init n quorum).run E loads evs) (hnd : s.doc.joined.Nodup)
    (hnamed : "" ∉ s.doc.joined) {kcId name : String} {raw : List Char} {url : Option String} {e : GuiElection} {pkg : EncryptionPackage}
    (he : computeElection E (fun raw => (fromRaw Manifest.ofJson raw).toOption) kcId s.doc name raw url = .ok (e, pkg))
    (hkeys : ∀ k ∈ s.doc.keys, k.key < E.P.p) (devices : List Device) :
    (e.texts devices).Of E.P e.doc ⟨e.guardianRecords, e.extendedData, devices⟩ true 1000000 := by
  obtain ⟨m, jk, im, hp, -, hjk, -, hee, -⟩ := computeElection_ok.1 he
  obtain ⟨kps, hk⟩ := C71_published_sound_partial hv hlen hl hq n quorum evs s hs hnd hnamed jk hjk
  have hread : fromRaw Manifest.ofJson raw = .ok m := by
    cases h : fromRaw Manifest.ofJson raw with
    | error e => rw [h] at hp; cases hp
    | ok m' => rw [h] at hp; cases hp; rfl
  have hm := raw_reads Manifest.typed hread
  subst hee
  refine ⟨manifest_trip hm.1 hm.2, raw_trip (ContextFile.trip ?_ ?_), list_raw_trip fun g hg => ?_, rfl⟩
  · refine ⟨?_, ?_, hashElems_lt hv.q_pos _, hashElems_lt hv.q_pos _, hashElems_lt hv.q_pos _⟩
    · change jk.jointPublicKey < _
      rw [hk.joint]
      exact Nat.mod_lt _ hv.p_pos
    · change jk.commitmentHash < _
      rw [hk.commitmentHash]
      exact hashElems_lt hv.q_pos _
  · intro d hd
    cases url with
    | none => cases hd
    | some u =>
      cases hd
      simp [Keys]
  · obtain ⟨k, hk', rfl⟩ := List.mem_map.1 hg
    exact GuardianRecord.trip ⟨hkeys k hk', by simp, by simp⟩

/-- C84 An election in the GUI from the texts of its inputs to the texts of its record: as `C81_gui_texts_partial`, and the record is computed
from the texts of the database and written as texts.  Whoever reads these texts finds that they pass the checks that the result rests on,
and that they publish the votes.  Partial: as in `C78_gui_election_record_partial`. -/
theorem C84_gui_audit_partial (hv : E.P.Valid) (hpq : (E.P.q - 1) * (E.P.q - 1) < E.P.p)
    -- the key ceremony
    (hlen : HmacLen E) (hq : E.P.q ≤ 256 ^ 246) (n quorum : Int) (hn : 0 < n) (hqn : quorum ≤ n)
    (hnq : n.toNat < E.P.q) (evs evs' : List KCEvent) (s s' : KCSystem) (hs : s = (KCSystem.init n quorum).run E loadsCoordinate evs)
    (hs' : s' = s.run E loadsCoordinate evs') (hnd : s'.doc.joined.Nodup) (hnamed : "" ∉ s'.doc.joined)
    (hall : (s'.doc.joined.length : Int) = n)
    -- the election
    (m : Manifest) (hm : m.Typed) (kcId name : String) (url : Option String) (e : GuiElection) (pkg : EncryptionPackage)
    (he : computeElection E (fun raw => (fromRaw Manifest.ofJson raw).toOption) kcId s.doc name (toRaw Manifest.toJson m) url
      = .ok (e, pkg)) (maxE : Nat) (hmax1 : 1 ≤ maxE)
    (im : InternalManifest) (hem : ElectionReady E m im)
    -- the uploads
    (db : GuiDb) (eid : String) (hdb : dget db.elections eid = some e.doc)
    (hempty : db.docsOf eid = []) (ops : List UploadOp) (vs : List VotedBallot)
    (hvs : ∀ v ∈ vs, v.Encrypted E contestDataJson im e.context ∧ ∃ d, im.StyleHas v.plain.styleId d)
    (hr : ∀ v ∈ vs, v.codeSeed < E.P.q ∧ v.nonce < E.P.q)
    (hst : ∀ v ∈ vs, v.state = .cast ∨ v.state = .spoiled)
    (hops : textsTo eid ops = vs.map (fun v => toRaw SBallot.toJson (submitBallot E v.enc v.state)))
    (hsmall : (counted vs).length < E.P.q) (hmax : (counted vs).length ≤ maxE)
    -- the decryption
    (joins : List (String × (Nat → Nat → Bool) × JoinSeeds))
    (hjoins : ∀ j ∈ joins, j.1 ∈ s'.doc.joined ∧ ∀ n, ∃ k < 3, j.2.1 n k = true)
    (heach : ∀ id ∈ s'.doc.joined, ∃ j ∈ joins, j.1 = id) (net : Nat → Nat → Bool) (hnet : ∀ n, ∃ k < 3, net n k = true)
    -- the export
    (constants : Constants) (hk : constants.params = E.P) (devices : List Device)
    (net' : Nat → Nat → Bool) (hnet' : ∀ n, ∃ k < 3, net' n k = true) :
    ∃ d d' texts rec, joinAll E (parseSubmitted E.P) (db.run (parseSubmitted E.P) ops) (loadFromDecryption s'.files e.guardians e.quorum)
        joins (GuiDecryption.create eid e.guardians) = .ok d ∧
      tryRunStage2 E maxE (parseSubmitted E.P) net (db.run (parseSubmitted E.P) ops) d true = (.ok true, d') ∧
      guiExportText E constants net' (db.run (parseSubmitted E.P) ops) (e.texts devices) d'.toText = .ok texts ∧
      texts.read E.P = .ok rec ∧
      ∀ v : RecordView, v.Of rec → v.ResultAudited E ∧
        v.Publishes im ((counted vs).map (fun v => v.plain))
          (((firsts vs).filter (fun v => decide (v.state = .spoiled))).map (fun v => v.plain)) ∧
        ∀ g ∈ v.guardians, ∃ w, dget v.coefficients (toString g.sequenceOrder) = some w ∧ v.IsCoefficient E.P g w := by
  obtain ⟨d, d', rec, h1, h2, h3, h4⟩ := C81_gui_texts_partial hv hpq hlen hq n quorum hn hqn hnq evs evs' s s' hs hs' hnd hnamed hall m hm kcId
    name url e pkg he maxE hmax1 im hem db eid hdb hempty ops vs hvs hr hst hops hsmall hmax joins hjoins heach net hnet constants hk devices
    net' hnet'
  obtain ⟨team, ht, -, -, -, -, -, hf, -, -, hrecs⟩ := gui_team hv hlen loadsCoordinate_reads hq n quorum hn hqn hnq evs evs' s s'
    hs hs' hnd hnamed hall _ kcId name _ url e pkg he
  have hle : s.doc.Le s'.doc := by rw [hs']; exact run_le s evs'
  have hpub : ∀ g ∈ team, g.electionKeys.keyPair.pub < E.P.p := fun g hg => by
    rw [ht.keys g hg]
    exact Nat.mod_lt _ hv.p_pos
  have hkeys : ∀ k ∈ s.doc.keys, k.key < E.P.p := by
    intro k hk'
    obtain ⟨_, _, _, -, -, -, -, hee, -⟩ := computeElection_ok.1 he
    have : (k.ownerId, k.sequenceOrder, k.key) ∈ e.guardianRecords.map (fun r => (r.guardianId, r.sequenceOrder, r.publicKey)) := by
      rw [hee]
      exact List.mem_map.2 ⟨_, List.mem_map.2 ⟨k, hk', rfl⟩, rfl⟩
    rw [hrecs] at this
    obtain ⟨g, hg, hgk⟩ := List.mem_map.1 this
    have := congrArg (fun x : String × Int × Nat => x.2.2) hgk
    simp only at this
    rw [← this]
    exact hpub g hg
  have hjoined : ∃ l, s'.doc.joined = s.doc.joined ++ l := by
    obtain ⟨l, hl⟩ := hle.joined
    exact ⟨l, hl.symm⟩
  obtain ⟨l, hl⟩ := hjoined
  have hof := texts_of hv hlen loadsCoordinate_reads hq hs (by rw [hl] at hnd; exact (List.nodup_append.1 hnd).1)
    (fun h => hnamed (by rw [hl]; exact List.mem_append_left _ h)) he hkeys devices
  have hd := joinAll_typed hv (fun u g hg => hpub g (hf u g hg).1) joins (d := GuiDecryption.create eid e.guardians)
    (by simp [GuiDecryption.create]) h1
  obtain ⟨he1, hc1⟩ := joinAll_election joins h1
  obtain ⟨hty, he2⟩ := stage2_typed hv hd (by rw [hc1]; simp [GuiDecryption.create]) h2
  obtain ⟨e', he', hsame⟩ : ∃ e', dget (db.run (parseSubmitted E.P) ops).elections d'.electionId = some e' ∧
      e'.manifest = e.manifest ∧ e'.context = e.context := by
    rw [he2, he1]
    have := run_elections (parseSubmitted E.P) ops db eid
    rw [hdb] at this
    change ∃ e', dget (db.run (parseSubmitted E.P) ops).elections eid = some e' ∧ _
    cases hx : dget (db.run (parseSubmitted E.P) ops).elections eid with
    | none => rw [hx] at this; cases this
    | some e' =>
      rw [hx] at this
      simp only [Option.map_some, Option.some.injEq, Prod.mk.injEq] at this
      exact ⟨e', rfl, this.1, this.2.1⟩
  have hof' : (e.texts devices).Of E.P e' ⟨e.guardianRecords, e.extendedData, devices⟩ true 1000000 :=
    ⟨by rw [hsame.1]; exact hof.manifest, by rw [hsame.2]; exact hof.context, hof.records, hof.devices⟩
  obtain ⟨h5, h6⟩ := export_text (constants := constants) (net := net') hof' he' hty
  refine ⟨d, d', rec.toTexts true 1000000, rec, h1, h2, ?_, h6 rec h3, h4⟩
  rw [h5, h3]
  rfl

end EG
