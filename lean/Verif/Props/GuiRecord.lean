import Verif.Lemmas.GuiRecord
import Verif.Props.GuiElection

/-!
# C78: the election record that the GUI exports
-/

namespace EG

variable {E : Env}

/-- C78 After a decryption that every guardian joined, the GUI exports a record that passes the checks that the result rests on: every
ballot in it is valid, the encrypted tally is that of its cast ballots, the tally and the spoiled ballots are decrypted in order; and it
publishes the votes of the uploaded ballots.  The Lagrange coefficients are there, by the sequence order of the guardians.
Partial: as in `C70_decryption_completes_partial`; no ballot is uploaded before the export either (see `C78_late_ballot_fails`), and
nothing is said about the commitments of the guardians (see `C78_commitments_fails`). -/
theorem C78_gui_record_partial (hv : E.P.Valid) (hpq : (E.P.q - 1) * (E.P.q - 1) < E.P.p) (maxE : Nat)
    (hmax1 : 1 ≤ maxE) (json : ContestData → Bytes) (m : Manifest) (im : InternalManifest) (hem : ElectionReady E m im)
    -- the election and its guardians
    (parse : List Char → Option SBallot) (db : GuiDb) (eid : String) (e : ElectionDoc)
    (hdb : dget db.elections eid = some e) (hm : e.manifest = m) (team : List Guardian)
    (hctx : e.context = makeContext E team.length e.context.quorum e.context.elgamalPublicKey e.context.commitmentHash
      (m.cryptoHash E))
    (ht : ElectionTeam E.P e team) (hteam : team ≠ [])
    (horders : ∀ g ∈ team, 0 ≤ g.electionKeys.sequenceOrder)
    (hdistinct : (team.map (fun g => (g.electionKeys.sequenceOrder : ZMod E.P.q))).Nodup)
    (hquorum : e.context.quorum ≤ team.length)
    (guardianOf : String → Option Guardian) (hf : OwnFiles guardianOf team)
    (x : ElectionExtras) (hx : x.records.map (fun r => (r.guardianId, r.sequenceOrder, r.publicKey))
      = team.map (fun g => (g.id, g.electionKeys.sequenceOrder, g.electionKeys.keyPair.pub)))
    -- the uploads
    (hempty : db.docsOf eid = []) (ops : List UploadOp)
    (hend : ∀ d ∈ (db.run parse ops).docsOf eid, d.contents.getLast? = some '}') (vs : List VotedBallot)
    (hvs : ∀ v ∈ vs, v.Encrypted E json im e.context ∧ ∃ d, im.StyleHas v.plain.styleId d)
    (hst : ∀ v ∈ vs, v.state = .cast ∨ v.state = .spoiled)
    (hops : uploadedTo parse im.manifestHash eid ops = vs.map (fun v => submitBallot E v.enc v.state))
    (hsmall : (counted vs).length < E.P.q) (hmax : (counted vs).length ≤ maxE)
    -- the decryption
    (joins : List (String × (Nat → Nat → Bool) × JoinSeeds))
    (hjoins : ∀ j ∈ joins, (guardianOf j.1).isSome ∧ ∀ n, ∃ k < 3, j.2.1 n k = true)
    (hall : ∀ g ∈ team, ∃ j ∈ joins, j.1 = g.id) (net : Nat → Nat → Bool) (hnet : ∀ n, ∃ k < 3, net n k = true)
    -- the export
    (constants : Constants) (hk : constants.params = E.P) (net' : Nat → Nat → Bool) (hnet' : ∀ n, ∃ k < 3, net' n k = true) :
    ∃ d d' rec, joinAll E parse (db.run parse ops) guardianOf joins (GuiDecryption.create eid team.length) = .ok d ∧
      tryRunStage2 E maxE parse net (db.run parse ops) d true = (.ok true, d') ∧
      guiExportRecord constants parse net' (db.run parse ops) (some d') x = .ok rec ∧
      ∀ v : RecordView, v.Of rec → v.ResultAudited E ∧
        v.Publishes im ((counted vs).map (fun v => v.plain))
          (((firsts vs).filter (fun v => decide (v.state = .spoiled))).map (fun v => v.plain)) ∧
        ∀ g ∈ v.guardians, ∃ w, dget v.coefficients (toString g.sequenceOrder) = some w ∧ v.IsCoefficient E.P g w := by
  have hhash : e.context.manifestHash = im.manifestHash := by
    rw [hctx, internal_hash hem.internal]
    rfl
  obtain ⟨e', t, d, r, hd, h⟩ := decryption_core hv hpq maxE hmax1 json m im hem parse db eid e hdb hm hhash team ht hteam horders
    hdistinct hquorum guardianOf hf hempty ops hend vs hvs hops hsmall hmax joins hjoins hall net hnet
  obtain ⟨rec, h1, h2⟩ := record_of_decrypted hv hpq hmax1 hem hnet h hctx hvs hst hsmall hmax hk hx hnet'
  exact ⟨d, d.setCompleted r, rec, hd, h.stage, h1, h2⟩

/-- C78 The same for an election that was created from a key ceremony: for every interleaving of the ceremony, the record of the election
passes the checks that the result rests on and publishes the votes.  Partial: as above, and nobody joined the ceremony twice or too
late. -/
theorem C78_gui_election_record_partial {loads : Bytes → R (List Char)} (hv : E.P.Valid) (hpq : (E.P.q - 1) * (E.P.q - 1) < E.P.p)
    -- the key ceremony
    (hlen : HmacLen E) (hl : ReadsCoordinate loads) (hq : E.P.q ≤ 256 ^ 246) (n quorum : Int) (hn : 0 < n) (hqn : quorum ≤ n)
    (hnq : n.toNat < E.P.q) (evs evs' : List KCEvent) (s s' : KCSystem) (hs : s = (KCSystem.init n quorum).run E loads evs)
    (hs' : s' = s.run E loads evs') (hnd : s'.doc.joined.Nodup) (hnamed : "" ∉ s'.doc.joined)
    (hall : (s'.doc.joined.length : Int) = n)
    -- the election
    (parseManifest : List Char → Option Manifest) (kcId name : String) (raw : List Char)
    (url : Option String) (e : GuiElection) (pkg : EncryptionPackage)
    (he : computeElection E parseManifest kcId s.doc name raw url = .ok (e, pkg)) (maxE : Nat) (hmax1 : 1 ≤ maxE)
    (json : ContestData → Bytes) (im : InternalManifest) (hem : ElectionReady E e.manifest im)
    -- the uploads
    (parse : List Char → Option SBallot) (db : GuiDb) (eid : String) (hdb : dget db.elections eid = some e.doc)
    (hempty : db.docsOf eid = []) (ops : List UploadOp)
    (hend : ∀ d ∈ (db.run parse ops).docsOf eid, d.contents.getLast? = some '}') (vs : List VotedBallot)
    (hvs : ∀ v ∈ vs, v.Encrypted E json im e.context ∧ ∃ d, im.StyleHas v.plain.styleId d)
    (hst : ∀ v ∈ vs, v.state = .cast ∨ v.state = .spoiled)
    (hops : uploadedTo parse im.manifestHash eid ops = vs.map (fun v => submitBallot E v.enc v.state))
    (hsmall : (counted vs).length < E.P.q) (hmax : (counted vs).length ≤ maxE)
    -- the decryption
    (joins : List (String × (Nat → Nat → Bool) × JoinSeeds))
    (hjoins : ∀ j ∈ joins, j.1 ∈ s'.doc.joined ∧ ∀ n, ∃ k < 3, j.2.1 n k = true)
    (heach : ∀ id ∈ s'.doc.joined, ∃ j ∈ joins, j.1 = id) (net : Nat → Nat → Bool) (hnet : ∀ n, ∃ k < 3, net n k = true)
    -- the export
    (constants : Constants) (hk : constants.params = E.P) (devices : List Device)
    (net' : Nat → Nat → Bool) (hnet' : ∀ n, ∃ k < 3, net' n k = true) :
    ∃ d d' rec, joinAll E parse (db.run parse ops) (loadFromDecryption s'.files e.guardians e.quorum) joins
        (GuiDecryption.create eid e.guardians) = .ok d ∧
      tryRunStage2 E maxE parse net (db.run parse ops) d true = (.ok true, d') ∧
      guiExportRecord constants parse net' (db.run parse ops) (some d') ⟨e.guardianRecords, e.extendedData, devices⟩ = .ok rec ∧
      ∀ v : RecordView, v.Of rec → v.ResultAudited E ∧
        v.Publishes im ((counted vs).map (fun v => v.plain))
          (((firsts vs).filter (fun v => decide (v.state = .spoiled))).map (fun v => v.plain)) ∧
        ∀ g ∈ v.guardians, ∃ w, dget v.coefficients (toString g.sequenceOrder) = some w ∧ v.IsCoefficient E.P g w := by
  obtain ⟨team, ht, hg, hne, hord, hdistinct, hquo, hf, hload, hids, hrecs⟩ := gui_team hv hlen hl hq n quorum hn hqn hnq evs evs' s s'
    hs hs' hnd hnamed hall parseManifest kcId name raw url e pkg he
  have hcreate : GuiDecryption.create eid e.guardians = GuiDecryption.create eid team.length := by rw [hg]
  rw [hcreate]
  refine C78_gui_record_partial hv hpq maxE hmax1 json e.manifest im hem parse db eid e.doc hdb rfl team ?_ ht hne hord hdistinct hquo _ hf
    ⟨e.guardianRecords, e.extendedData, devices⟩ hrecs hempty ops hend vs hvs hst hops hsmall hmax joins
    (fun j hj => ⟨hload _ (hjoins j hj).1, (hjoins j hj).2⟩) (fun g hg' => heach _ (hids g hg')) net hnet constants hk net' hnet'
  rw [← hg]
  exact created_context he

/-- C78 A record is exported only for a decryption that was completed; it has the manifest and the context of the election, the results of
the decryption, and the guardian records of the election. -/
theorem C78_only_completed (constants : Constants) (parse : List Char → Option SBallot) (net : Nat → Nat → Bool) (db : GuiDb)
    (d : Option GuiDecryption) (x : ElectionExtras) (rec : ElectionRecord) :
    guiExportRecord constants parse net db d x = .ok rec ↔
      ∃ d' e r, d = some d' ∧ dget db.elections d'.electionId = some e ∧ d'.completed = some r ∧
        rec = exportRecord e.manifest e.context x.extendedData constants x.devices (db.getBallots parse net d'.electionId)
          (r.ballots.map (·.2)) r.ciphertextTally.publish r.tally (some x.records) r.lagrange := by
  cases d with
  | none => simp [guiExportRecord]
  | some d =>
    unfold guiExportRecord GuiDb.getElection
    cases he : dget db.elections d.electionId with
    | none => simp [he, bind, Except.bind]
    | some e =>
      cases hc : d.completed with
      | none => simp [he, hc, bind, Except.bind]
      | some r =>
        simp only [he, hc, bind, Except.bind, Except.ok.injEq, Option.some.injEq]
        constructor
        · rintro rfl
          exact ⟨d, e, r, rfl, he, hc, rfl⟩
        · rintro ⟨_, e', r', rfl, he', hc', h⟩
          rw [he] at he'
          rw [hc] at hc'
          cases he'
          cases hc'
          exact h.symm

/-- C78 fails for the commitments: no record of an election that was created from a key ceremony with at least one guardian passes the
whole audit, since its guardian records have no commitments. -/
theorem C78_commitments_fails (parseManifest : List Char → Option Manifest) (kcId name : String) (kc : KCDoc) (raw : List Char)
    (url : Option String) (e : GuiElection) (pkg : EncryptionPackage)
    (he : computeElection E parseManifest kcId kc name raw url = .ok (e, pkg)) (hkeys : kc.keys ≠ [])
    (constants : Constants) (devices : List Device) (parse : List Char → Option SBallot) (net : Nat → Nat → Bool) (db : GuiDb)
    (d : Option GuiDecryption) (rec : ElectionRecord)
    (h : guiExportRecord constants parse net db d ⟨e.guardianRecords, e.extendedData, devices⟩ = .ok rec)
    (v : RecordView) (hv : v.Of rec) : ¬ v.Audited E := by
  intro ha
  obtain ⟨m, jk, im', -, -, -, -, hee, -⟩ := computeElection_ok.1 he
  obtain ⟨d', e', r, -, -, -, rfl⟩ := (C78_only_completed ..).1 h
  have hg := hv.guardians
  simp only [exportRecord, Option.getD_some] at hg
  have hfiles : ∀ y ∈ (writeAll "guardian_" GuardianRecord.guardianId e.guardianRecords).map Prod.snd, y.commitments = [] := by
    have key : ∀ (l : List GuardianRecord) (f : List (String × GuardianRecord)), (∀ y ∈ l, y.commitments = []) →
        (∀ z ∈ f, z.2.commitments = []) →
        ∀ z ∈ l.foldl (fun d x => dset d ("guardian_" ++ x.guardianId ++ ".json") x) f, z.2.commitments = [] := by
      intro l
      induction l with
      | nil => intro f _ hf; exact hf
      | cons a l ih =>
        intro f hl hf
        refine ih _ (fun y hy => hl y (List.mem_cons_of_mem _ hy)) (fun z hz => ?_)
        rcases mem_dset hz with h1 | h1
        · rw [h1]; exact hl a List.mem_cons_self
        · exact hf z h1
    intro y hy
    obtain ⟨z, hz, rfl⟩ := List.mem_map.1 hy
    refine key _ [] ?_ (by simp) z hz
    rw [hee]
    intro y hy
    obtain ⟨k, -, rfl⟩ := List.mem_map.1 hy
    rfl
  have hne : writeAll "guardian_" GuardianRecord.guardianId e.guardianRecords ≠ [] := by
    have : e.guardianRecords ≠ [] := by
      rw [hee]
      simpa using hkeys
    unfold writeAll
    cases hr : e.guardianRecords with
    | nil => exact absurd hr this
    | cons a l =>
      have key : ∀ (l : List GuardianRecord) (f : List (String × GuardianRecord)), f ≠ [] →
          l.foldl (fun d x => dset d ("guardian_" ++ x.guardianId ++ ".json") x) f ≠ [] := by
        intro l
        induction l with
        | nil => intro f hf; exact hf
        | cons b l ih =>
          intro f hf
          refine ih _ (fun h => ?_)
          have h2 := dget_dset f ("guardian_" ++ b.guardianId ++ ".json") ("guardian_" ++ b.guardianId ++ ".json") b
          have h' : dset f ("guardian_" ++ b.guardianId ++ ".json") b = [] := h
          rw [h', if_pos rfl] at h2
          cases h2
      exact key l _ (by simp [dset])
  obtain ⟨y, hy⟩ : ∃ y, y ∈ v.guardians := by
    refine List.exists_mem_of_ne_nil _ (fun h => ?_)
    rw [h] at hg
    exact hne (List.map_eq_nil_iff.1 hg.nil_eq.symm)
  have h1 := (ha.guardians y hy).1
  rw [hfiles y (hg.mem_iff.1 hy)] at h1
  cases h1

/-- C78 fails when ballots are uploaded after the decryption, which the GUI allows: the record then has ballots that the tally in it does
not count.  Whenever they change the result of the election, the record of a completed decryption fails the audit, although every
ballot, the decryption and the guardians are as they should be. -/
theorem C78_late_ballot_fails (hv : E.P.Valid) (hpq : (E.P.q - 1) * (E.P.q - 1) < E.P.p) (maxE : Nat)
    (hmax1 : 1 ≤ maxE) (json : ContestData → Bytes) (m : Manifest) (im : InternalManifest) (hem : ElectionReady E m im)
    (parse : List Char → Option SBallot) (db : GuiDb) (eid : String) (e : ElectionDoc)
    (hdb : dget db.elections eid = some e) (hm : e.manifest = m) (hhash : e.context.manifestHash = im.manifestHash)
    (team : List Guardian) (ht : ElectionTeam E.P e team) (hteam : team ≠ [])
    (horders : ∀ g ∈ team, 0 ≤ g.electionKeys.sequenceOrder)
    (hdistinct : (team.map (fun g => (g.electionKeys.sequenceOrder : ZMod E.P.q))).Nodup)
    (hquorum : e.context.quorum ≤ team.length)
    (guardianOf : String → Option Guardian) (hf : OwnFiles guardianOf team) (x : ElectionExtras)
    -- the uploads before and after the decryption
    (hempty : db.docsOf eid = []) (ops late : List UploadOp)
    (hend : ∀ d ∈ (db.run parse (ops ++ late)).docsOf eid, d.contents.getLast? = some '}') (vs lates : List VotedBallot)
    (hvs : ∀ v ∈ vs ++ lates, v.Encrypted E json im e.context ∧ ∃ d, im.StyleHas v.plain.styleId d)
    (hops : uploadedTo parse im.manifestHash eid ops = vs.map (fun v => submitBallot E v.enc v.state))
    (hlate : uploadedTo parse im.manifestHash eid (ops ++ late) = (vs ++ lates).map (fun v => submitBallot E v.enc v.state))
    (hsmall : (counted (vs ++ lates)).length < E.P.q) (hmax : (counted (vs ++ lates)).length ≤ maxE)
    (d : ContestWithPlaceholders) (hd : d ∈ im.contests) (sd : SelectionDescription) (hsd : sd ∈ d.ballotSelections)
    (hdiff : electionResult im (vs ++ lates) d sd.objectId ≠ electionResult im vs d sd.objectId)
    -- the decryption
    (joins : List (String × (Nat → Nat → Bool) × JoinSeeds))
    (hjoins : ∀ j ∈ joins, (guardianOf j.1).isSome ∧ ∀ n, ∃ k < 3, j.2.1 n k = true)
    (hall : ∀ g ∈ team, ∃ j ∈ joins, j.1 = g.id) (net : Nat → Nat → Bool) (hnet : ∀ n, ∃ k < 3, net n k = true)
    -- the export
    (constants : Constants) (net' : Nat → Nat → Bool) (hnet' : ∀ n, ∃ k < 3, net' n k = true) :
    ∃ d d' rec, joinAll E parse (db.run parse ops) guardianOf joins (GuiDecryption.create eid team.length) = .ok d ∧
      tryRunStage2 E maxE parse net (db.run parse ops) d true = (.ok true, d') ∧
      guiExportRecord constants parse net' (db.run parse (ops ++ late)) (some d') x = .ok rec ∧
      ∀ v : RecordView, v.Of rec → verifyAggregation E true v.ballots v.tallyToCheck v.manifest v.context ≠ .ok true := by
  have hpre : ∃ l, firsts (vs ++ lates) = firsts vs ++ l := by
    clear hvs hlate hsmall hmax hdiff
    induction lates using List.reverseRecOn with
    | nil => exact ⟨[], by simp⟩
    | append_singleton l u ih =>
      obtain ⟨l', h⟩ := ih
      rw [← List.append_assoc, firsts_append]
      split
      · exact ⟨l', h⟩
      · exact ⟨l' ++ [u], by rw [h, List.append_assoc]⟩
  have hcnt : (counted vs).length ≤ (counted (vs ++ lates)).length := by
    obtain ⟨l, hl⟩ := hpre
    unfold counted
    rw [hl, List.filter_append, List.length_append]
    omega
  have hend1 : ∀ d ∈ (db.run parse ops).docsOf eid, d.contents.getLast? = some '}' := by
    intro y hy
    refine hend y ?_
    have : db.run parse (ops ++ late) = (db.run parse ops).run parse late := by unfold GuiDb.run; rw [List.foldl_append]
    rw [this]
    exact ((C69_append_only parse (db.run parse ops) late).1.filter _).subset hy
  obtain ⟨e', t, dd, r, hjoin, h⟩ := decryption_core hv hpq maxE hmax1 json m im hem parse db eid e hdb hm hhash team ht hteam horders
    hdistinct hquorum guardianOf hf hempty ops hend1 vs (fun v hv' => hvs v (List.mem_append_left _ hv')) hops (by omega) (by omega)
    joins hjoins hall net hnet
  have hres : isValidResidue E.P e.context.elgamalPublicKey = true := by
    rw [ht.joint]
    exact jointKey_residue hv team _ _ ht.keys
  obtain ⟨hread, -⟩ := C69_uploads_tally_partial hv hpq maxE json m im hem e.context hres hhash
    parse net' hnet' db eid e hdb rfl hempty (ops ++ late) hend (vs ++ lates) hvs hlate hsmall hmax
  obtain ⟨e2, he2, g1, g2, -⟩ := (C69_append_only parse db (ops ++ late)).2 eid e hdb
  refine ⟨dd, dd.setCompleted r, _, hjoin, h.stage, (C78_only_completed ..).2
    ⟨dd.setCompleted r, e2, r, rfl, by rw [show (dd.setCompleted r).electionId = eid from h.id]; exact he2, rfl, rfl⟩, fun v hof hagg => ?_⟩
  have hid : (dd.setCompleted r).electionId = eid := h.id
  rw [hid, hread] at hof
  -- the tally of the first ballots
  obtain ⟨hm', hc'⟩ := h.same
  obtain ⟨-, t', htally, hdec, henc, hba⟩ := ballots_audited hv hpq hem hres (firsts_nodup vs)
    (fun v hv' => hvs v (List.mem_append_left _ (firsts_subset vs v hv'))) (maxE := maxE) (json := json)
    (show (counted vs).length < _ by omega) (show (counted vs).length ≤ _ by omega)
  have hff := firsts_of_nodup (firsts vs) (firsts_nodup vs)
  have hstore : (stored E (firsts vs)).all = (firsts vs).map (fun v => submitBallot E v.enc v.state) := by
    unfold stored Store.all
    rw [hff, List.map_map]
    rfl
  have htt : t' = t := by
    have h1 := getTally_of_store hem.internal
      (fun b hb => (hba _ (List.Perm.refl _)).accepted b (by rw [← hstore]; exact hb)) htally
    have h2 := h.ready.tallied
    rw [hm', hc', ← hstore, h1] at h2
    exact Except.ok.inj h2
  subst htt
  obtain ⟨r', hr', r1, -⟩ := s2_complete hv h.guardians (by rw [h.id]; exact h.election) h.ready
    (by rw [h.id]; exact h.read net hnet) h.shares h.all
  rw [h.result] at hr'
  obtain rfl : r = r' := Except.ok.inj hr'
  -- the tally of all
  obtain ⟨-, t2, -, hdec2, henc2, hba2⟩ := ballots_audited hv hpq hem hres (firsts_nodup (vs ++ lates))
    (fun v hv' => hvs v (firsts_subset (vs ++ lates) v hv')) (maxE := maxE) (json := json) hsmall hmax
  have w2 := hof.ballots
  simp only [exportRecord] at w2
  rw [writeAll_snd _ _ _ (hba2 _ (List.Perm.refl _)).ids] at w2
  have wm : v.manifest = m := hof.manifest.trans (g1.trans hm)
  have wc : v.context = e.context := hof.context.trans g2
  have we : v.encryptedTally = t'.publish := by rw [hof.encryptedTally, ← r1]; rfl
  rw [wm, wc] at hagg
  have hsame : ∀ l : List VotedBallot, electionResult im (firsts l) d sd.objectId = electionResult im l d sd.objectId := by
    intro l
    unfold electionResult counted
    rw [firsts_of_nodup (firsts l) (firsts_nodup l)]
  have hcl : ∀ l : List VotedBallot, counted (firsts l) = counted l := by
    intro l
    unfold counted
    rw [firsts_of_nodup (firsts l) (firsts_nodup l)]
  obtain ⟨b1, c1⟩ := henc d hd sd hsd
  obtain ⟨b2, c2⟩ := henc2 d hd sd hsd
  rw [hsame] at b1 b2 c1 c2
  rw [hcl] at b1 b2
  have := (hba _ (List.Perm.refl _)).same hv hem hres (hba2 v.ballots w2) hdec hdec2 rfl we hagg c1 c2 ⟨d, hd, rfl, sd, hsd, rfl⟩
  unfold Nat.ModEq at this
  rw [Nat.mod_eq_of_lt (by omega), Nat.mod_eq_of_lt (by omega)] at this
  exact hdiff this.symm

end EG
