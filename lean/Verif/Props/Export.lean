import Verif.Props.CliCommands
import Verif.Lemmas.ExportAudit

/-!
# C76: the election record
-/

namespace EG

variable {E : Env}

/-- C76 The record of an `e2e` run convinces an auditor.  Whoever reads the files of the record, in any order, finds all the checks of
the audit in order, and finds the votes of all ballots but the spoiled one, the spoiled ballot opened, every ballot of a voter, and
no nonces.
Partial: as `C74_e2e_sound_partial`. -/
theorem C76_e2e_record_partial (hv : E.P.Valid) (hpq : (E.P.q - 1) * (E.P.q - 1) < E.P.p) (hlen : HmacLen E)
    (loads : Bytes → R (List Char)) (hl : ReadsCoordinate loads) (hq : E.P.q ≤ 256 ^ 246) (json : ContestData → Bytes)
    (maxE : Nat) (hmaxE : 1 ≤ maxE) (rnd : E2eRandom) (n quorum : Nat) (hquorum : 0 < quorum) (hn : n < E.P.q)
    (hpow : ∀ i < quorum, n ^ i < E.P.p) (hr : ∀ i < n, (rnd.polynomials i).length = quorum)
    (m : Manifest) (im : InternalManifest) (he : ElectionReady E m im) (ballots : List PlaintextBallot)
    (hrnd : rnd.ballots.length = ballots.length) (hstyle : ∀ b ∈ ballots, ∃ d, im.StyleHas b.styleId d)
    (spoilId url : Option String) (hsmall : (castIn spoilId ballots).length < E.P.q)
    (hmax : (castIn spoilId ballots).length ≤ maxE) (r : E2eResult)
    (h : e2eRun E loads json maxE rnd n quorum m ballots spoilId url = .ok r)
    (constants : Constants) (hk : constants.params = E.P) (device : Device) (v : RecordView)
    (hof : v.Of (e2eRecord constants m device r)) :
    v.Audited E ∧ v.Publishes im (castIn spoilId ballots) (spoiledIn spoilId ballots) ∧ v.devices = [device] := by
  obtain ⟨gs0, gs, jk, im', ctx, ext, cs, store, t, sp, h1, ⟨hm, hnamed⟩, h3, h4, h5, h6, h7, h8, h9, hgs, hrc, hre, hstore⟩ := e2e_inv h
  have hn0 : 0 < n := by
    rcases Nat.eq_zero_or_pos n with rfl | h0
    · have : gs0 = [] := by
        unfold createGuardians at h1
        simpa [pure, Except.pure, eq_comm] using h1
      subst this
      cases h3
    · exact h0
  obtain ⟨gs0', gs', jk', kps, rands', ctx', k1, k2, k3, hnum, hteam, horders, hequip, hctx, hhash⟩ := cli_setup hv hlen loads hl hq n
    quorum hquorum hn0 hn hpow rnd.polynomials hr rnd.backups m im hm he.internal url
  rw [h1] at k1
  cases k1
  rw [h3] at k2
  cases k2
  rw [h4] at k3
  cases k3
  have hq' : ctx.quorum = (quorum : Int) ∧ ctx.numberOfGuardians = (kps.length : Int) := by
    rw [hctx, hnum]; exact ⟨rfl, rfl⟩
  have hkey : ctx.elgamalPublicKey = combinePublicKeys E.P (kps.map (fun kp => kp.share.key)) := by rw [hctx]; rfl
  have hmany : quorum ≤ n := by
    have := (cliDecrypt_needs_all h8).2
    rw [hq'.1, hq'.2, hnum] at this
    exact_mod_cast this
  obtain ⟨vs, rfl, hplain, hvof⟩ := encryptLoop_sound json im ctx spoilId _ _ _ h5
  rw [List.map_fst_zip (by rw [hrnd])] at hplain
  have hres : isValidResidue E.P ctx.elgamalPublicKey = true := by
    have := combined_residue hv (hteam.sharedKeys hv horders)
    rw [List.map_map] at this
    rw [hkey]
    exact this
  have hst : ∀ v ∈ vs, ∃ d, im.StyleHas v.plain.styleId d := fun v hv' =>
    hstyle v.plain (by rw [← hplain]; exact List.mem_map_of_mem hv')
  have hvalid := fun v (hv' : v ∈ vs) => encrypted_valid hv hpq he hres (hvof v hv').1 (hst v hv')
  obtain ⟨hnd, -, hstore'⟩ := (castAndSpoil_iff im ctx spoilId vs (fun v hv' => (hvalid v hv').1) (fun v hv' => (hvalid v hv').2)
      (fun v hv' => (hvof v hv').2) [] _).1 h6
  rw [List.nil_append] at hstore'
  obtain ⟨hf1, hf2⟩ := map_filter_state vs spoilId (fun v hv' => (hvof v hv').2)
  have hlen1 : (vs.filter (fun v => decide (v.state = .cast))).length = (castIn spoilId ballots).length := by
    rw [← hplain, ← hf1, List.length_map]
  -- the guardians
  have hown : gs.map (fun g => g.electionKeys) = kps := by
    have key : ∀ (l : List ElectionKeyPair) (gs : List Guardian),
        List.Forall₂ (Guardian.Equipped E loads rands' kps) gs l → gs.map (fun g => g.electionKeys) = l := by
      intro l gs h1
      induction h1 with
      | nil => rfl
      | cons hx _ ih => rw [List.map_cons, ih, hx.own]
    exact key kps gs hequip
  have hgid : (gs.map Guardian.id).Nodup := by
    have : gs.map Guardian.id = kps.map (fun kp => kp.ownerId) := by rw [← hown, List.map_map]; rfl
    rw [this]
    exact hteam.ids
  obtain ⟨avs, hav, hpres⟩ := C66_ceremony_present gs hequip gs (fun g hg => hg) hgid
  have hall : (avs.map Prod.snd).Perm kps := by
    have : avs.map Prod.snd = kps := by
      rw [← hown, ← hav, List.map_map]
      exact List.map_congr_left (fun x hx => ((hpres.equipped x hx).2.own).symm)
    rw [this]
  -- the tally and the decryption
  have hall' : store.all = vs.map (fun v => submitBallot E v.enc v.state) := by
    unfold Store.all
    rw [hstore', List.map_map]
    rfl
  obtain ⟨hct, rfl⟩ : cliTally E im ctx (vs.map (fun v => submitBallot E v.enc v.state)) = .ok t ∧
      sp = (vs.filter (fun v => decide (v.state = .spoiled))).map (fun v => submitBallot E v.enc v.state) := by
    unfold tallyFromStore at h7
    rw [hall'] at h7
    simp only [bind, Except.bind, pure, Except.pure] at h7
    cases hc : cliTally E im ctx (vs.map (fun v => submitBallot E v.enc v.state)) with
    | error e => rw [hc] at h7; cases h7
    | ok t' =>
      rw [hc] at h7
      simp only [Except.ok.injEq, Prod.mk.injEq] at h7
      obtain ⟨rfl, rfl⟩ := h7
      refine ⟨rfl, ?_⟩
      unfold getBallots
      rw [hstore']
      show ((vs.map (fun v => (v.plain.objectId, submitBallot E v.enc v.state))).filter
        (fun e => decide (e.2.state = .spoiled))).map _ = _
      rw [List.filter_map, List.map_map]
      rfl
  rw [← hav] at h8
  have hright : r.results.Right im (castIn spoilId ballots) (spoiledIn spoilId ballots) :=
    (C74_e2e_sound_partial hv hpq hlen loads hl hq json maxE hmaxE rnd n quorum hquorum hn hpow hr m im he ballots hrnd hstyle spoilId
      url hsmall hmax r h).2.2.2.1
  have hof' := hof
  unfold e2eRecord at hof
  rw [hgs, hrc, hstore, hall', ← hav] at hof
  obtain ⟨a1, a2⟩ := exportRecord_audited hv hpq hquorum hteam horders hmaxE he (by rw [← hhash, hnum]; exact hctx) hpres hall
    (by rw [hnum]; exact hmany) hnd (fun v hv' => ⟨(hvof v hv').1, hst v hv'⟩) (by rw [hlen1]; exact hsmall)
    (by rw [hlen1]; exact hmax) hct h8 hk hof
  rw [hf1, hf2, hplain] at a2
  refine ⟨a1, a2 hright (fun v hv' => (hvalid v hv').1) (fun v hv' => ?_), ?_⟩
  · rw [(hvof v hv').2]
    split
    · exact .inr rfl
    · exact .inl rfl
  · exact List.perm_singleton.1 hof'.devices

/-- C76 The record that `import-ballots` exports at the end of an election by the four commands convinces an auditor as well, whatever
constants and devices the package has.
Partial: as `C75_pipeline_partial`. -/
theorem C76_import_record_partial (hv : E.P.Valid) (hpq : (E.P.q - 1) * (E.P.q - 1) < E.P.p) (hlen : HmacLen E)
    (loads : Bytes → R (List Char)) (hl : ReadsCoordinate loads) (hq : E.P.q ≤ 256 ^ 246) (json : ContestData → Bytes)
    (maxE : Nat) (hmaxE : 1 ≤ maxE) (n quorum : Nat) (hquorum : 0 < quorum) (hmany : quorum ≤ n) (hn : n < E.P.q)
    (hpow : ∀ i < quorum, n ^ i < E.P.p) (rands : Nat → List (Nat × Nat)) (hr : ∀ i < n, (rands i).length = quorum)
    (nonces : String → Nat → Nat) (m : Manifest) (im : InternalManifest) (he : ElectionReady E m im) (hnamed : m.Named)
    (url : Option String) (constants : Constants) (hk : constants.params = E.P) (devices : List Device) :
    ∃ pkg keys, setupCommand E loads rands nonces n quorum m url [] = .ok (pkg, keys) ∧
      ∀ (d : Device) (calls : List (PlaintextBallot × Nat × Int)),
        (calls.map (fun c => c.1.objectId)).Nodup → "device" ∉ calls.map (fun c => c.1.objectId) →
        (∀ c ∈ calls, ∃ d, im.StyleHas c.1.styleId d) →
        (∀ c ∈ calls, ∀ d, im.StyleHas c.1.styleId d →
          Encryptable E json (c.1.voted d.toContestDescription) d (nonceSeed E im.manifestHash c.1.objectId c.2.1)) →
        ∃ dir, encryptCommand E json d m pkg.context pkg.extendedData calls [] = .ok dir ∧
          ∀ castFiles spoilFiles : List CliFile, (.device d :: castFiles ++ spoilFiles).Perm dir.files →
            castFiles.length < E.P.q → castFiles.length ≤ maxE →
            ∃ sdir, submitCommand E m pkg.context pkg.extendedData castFiles spoilFiles [] = .ok sdir ∧
              ∀ ballotFiles keyFiles : List CliFile, ballotFiles.Perm sdir.files → keyFiles.Perm keys.files → ∀ sd : TallySeeds,
                ∃ res out rec, importCommand E maxE sd m pkg.context pkg.extendedData ballotFiles keyFiles = .ok (res, out) ∧
                  importRecord E constants m pkg.context pkg.extendedData devices ballotFiles keyFiles true res = .ok (some rec) ∧
                  ∀ v : RecordView, v.Of rec → v.Audited E ∧ ∃ cast spoiled,
                    cast.Perm (ballotsIn castFiles (calls.map (fun c => c.1))) ∧
                    spoiled.Perm (ballotsIn spoilFiles (calls.map (fun c => c.1))) ∧ v.Publishes im cast spoiled := by
  obtain ⟨pkg, keys, h1, -, h3⟩ := pipeline_core hv hpq hlen loads hl hq json maxE hmaxE n quorum hquorum hmany hn hpow rands hr nonces
    m im he hnamed url
  refine ⟨pkg, keys, h1, fun d calls a1 a2 a3 a4 => ?_⟩
  obtain ⟨dir, h4, h5⟩ := h3 d calls a1 a2 a3 a4
  refine ⟨dir, h4, fun cf sf b1 b2 b3 => ?_⟩
  obtain ⟨sdir, h6, -, h7⟩ := h5 cf sf (cf ++ sf) (List.forall₂_same.2 (fun _ _ => .inl rfl)) b1 b2 b3
  refine ⟨sdir, h6, fun bf kf c1 c2 sd => ?_⟩
  obtain ⟨res, out, cast, spoiled, d1, d2, d3, -, -, d6⟩ := h7 bf kf c1 c2 sd
  obtain ⟨rec, e1, -, e2⟩ := d6 constants devices hk
  exact ⟨res, out, rec, d1, e1, fun v hv' => ⟨(e2 v hv').1, cast, spoiled, d2, d3, (e2 v hv').2⟩⟩

/-- What the result in a record rests on. -/
theorem core_sound (hv : E.P.Valid) (v : RecordView) {luck : PTSelection → Prop} (h : v.Core E luck) (im : InternalManifest)
    (he : ElectionReady E v.manifest im) (hreg : ∀ b ∈ v.ballots, b.toCBallot.Regular im)
    (hwf : WFContests v.encryptedTally.contests) :
    (∀ d ∈ im.contests, ∀ sd ∈ d.ballotSelections, ∃ ps, v.tally.Shows d.objectId sd.objectId ps ∧
      ∀ votes : SBallot → Nat, (∀ b ∈ v.ballots, b.state = .cast →
          b.toCBallot.Holds E.P v.context.elgamalPublicKey d.objectId sd.objectId (votes b)) →
        ps.tally ≡ ((v.ballots.filter (fun b => decide (b.state = .cast))).map votes).sum [MOD E.P.q] ∨ luck ps) ∧
    ∀ b ∈ v.ballots, b.state = .spoiled → ∃ pt ∈ v.spoiled, pt.objectId = b.objectId ∧
      ∀ c ∈ b.contests, ∀ s ∈ c.ballotSelections, Describes v.manifest c.objectId s.objectId →
        ∃ ps, pt.Shows c.objectId s.objectId ps ∧
          ∀ n, Encrypts E.P v.context.elgamalPublicKey n s.ciphertext → ps.tally ≡ n [MOD E.P.q] ∨ luck ps := by
  obtain ⟨im', him', hids, -, -, -, hmap, hdv⟩ := C40_unique_ids_partial E v.manifest he.manifest
  rw [he.internal] at him'
  cases him'
  have hm : TallyManifest im := ⟨hids.1, fun d hd => (hdv d hd).2⟩
  have ht : v.tallyToCheck.WF :=
    ⟨h.ballotIds.sublist (List.filter_sublist.map _), h.ballotIds.sublist (List.filter_sublist.map _), hwf⟩
  constructor
  · intro d hd sd hsd
    obtain ⟨acc, hsub, hnd, -, hcast, -, htot⟩ := C56_sound_partial hv.one_lt_p v.ballots v.tallyToCheck v.manifest im v.context
      he.internal hm ht hreg h.aggregation
    obtain ⟨c, hc, hprod⟩ := htot d hd sd hsd
    obtain ⟨y, hy, hyid, s, hs, hsid, hsc⟩ := verified_entry he.internal hm ht hreg h.aggregation hc
    have hdesc : Describes v.manifest y.objectId s.objectId := by
      rw [hyid, hsid]
      exact (describes_iff ((C41_iff_partial v.manifest).1 h.manifest).contestIds hmap d hd sd.objectId).2 (List.mem_map_of_mem hsd)
    obtain ⟨ps, hshow, hnum⟩ := h.tally.shown y hy s hs hdesc
    rw [hyid, hsid] at hshow
    refine ⟨ps, hshow, fun votes hvotes => ?_⟩
    have hperm : (castOf acc).Perm (v.ballots.filter (fun b => decide (b.state = .cast))) := by
      refine (List.perm_ext_iff_of_nodup ((List.Nodup.of_map _ hnd).filter _) ((List.Nodup.of_map _ h.ballotIds).filter _)).2
        (fun b => ?_)
      show b ∈ acc.filter _ ↔ _
      rw [List.mem_filter, List.mem_filter]
      constructor
      · exact fun ⟨h1, h2⟩ => ⟨hsub.subset h1, h2⟩
      · rintro ⟨h1, h2⟩
        obtain ⟨b', hb', -, hid⟩ := (hcast b.objectId).1 (List.mem_map.2 ⟨b, List.mem_filter.2 ⟨h1, h2⟩, rfl⟩)
        rw [← List.inj_on_of_nodup_map h.ballotIds (hsub.subset hb') h1 hid]
        rw [← List.inj_on_of_nodup_map h.ballotIds (hsub.subset hb') h1 hid] at h2
        exact ⟨hb', h2⟩
    rw [← (hperm.map votes).sum_eq]
    refine hnum _ ?_
    have hmem : ∀ b ∈ castOf acc, b ∈ v.ballots ∧ b.state = .cast := fun b hb => by
      obtain ⟨h1, h2⟩ := List.mem_filter.1 hb
      exact ⟨hsub.subset h1, of_decide_eq_true h2⟩
    have henc := encrypts_product hv (castOf acc) (fun b => contribution b.contests d.objectId sd.objectId) votes
      v.context.elgamalPublicKey (fun b hb => hvotes b (hmem b hb).1 (hmem b hb).2)
    have hprod' := foldl_ctMul_product (P := E.P) hv.one_lt_p
      ((castOf acc).flatMap (fun b => contribution b.contests d.objectId sd.objectId))
    have : c = ((castOf acc).flatMap (fun b => contribution b.contests d.objectId sd.objectId)).foldl (ctMul E.P) ⟨1, 1⟩ := by
      cases c with
      | mk pad data =>
        obtain ⟨e1, e2⟩ := hprod
        obtain ⟨e3, e4⟩ := hprod'
        simp only at e1 e2
        rw [e1, e2, ← e3, ← e4]
    rw [hsc, this]
    exact henc
  · intro b hb hst
    obtain ⟨pt, hpt, hid, hin⟩ := h.spoiled b hb hst
    refine ⟨pt, hpt, hid, fun c hc s hs hd => ?_⟩
    exact hin.shown c.toCt (List.mem_map_of_mem hc) ⟨s.objectId, s.ciphertext⟩ (List.mem_map.2 ⟨s, hs, rfl⟩) hd

/-- C76 What an audit establishes, whoever made the record.  Every selection of the manifest is shown in the tally, and the number shown
is, modulo `q`, the number of votes for it on all the cast ballots of the record; every selection of a spoiled ballot is shown with
the number that it encrypts; or else the hash of some proof hit the one challenge with which a wrong share can be proved.
Partial: ballots must have no contest twice, only contests of their style, and no selection marked as placeholder that is none (the
verifiers do not check this); the tallies' dicts have no key twice. -/
theorem C76_audit_sound_partial (hv : E.P.Valid) (v : RecordView) (h : v.Audited E) (im : InternalManifest)
    (he : ElectionReady E v.manifest im) (hreg : ∀ b ∈ v.ballots, b.toCBallot.Regular im)
    (hwf : WFContests v.encryptedTally.contests) :
    (∀ d ∈ im.contests, ∀ sd ∈ d.ballotSelections, ∃ ps, v.tally.Shows d.objectId sd.objectId ps ∧
      ∀ votes : SBallot → Nat, (∀ b ∈ v.ballots, b.state = .cast →
          b.toCBallot.Holds E.P v.context.elgamalPublicKey d.objectId sd.objectId (votes b)) →
        ps.tally ≡ ((v.ballots.filter (fun b => decide (b.state = .cast))).map votes).sum [MOD E.P.q] ∨ ps.Lucky E v) ∧
    ∀ b ∈ v.ballots, b.state = .spoiled → ∃ pt ∈ v.spoiled, pt.objectId = b.objectId ∧
      ∀ c ∈ b.contests, ∀ s ∈ c.ballotSelections, Describes v.manifest c.objectId s.objectId →
        ∃ ps, pt.Shows c.objectId s.objectId ps ∧
          ∀ n, Encrypts E.P v.context.elgamalPublicKey n s.ciphertext → ps.tally ≡ n [MOD E.P.q] ∨ ps.Lucky E v :=
  core_sound hv v (h.result.core hv) im he hreg hwf

/-- C76 The share of a guardian who follows the protocol is never lucky: with another challenge there would be a valid proof too. -/
theorem C76_right_share_not_lucky (hv : E.P.Valid) (x : DecSelection) (message : Ciphertext) (s base : Nat) (pf : CPProof)
    (hx : x.share = message.pad ^ s % E.P.p) (hp : x.proof = some pf)
    (hval : pf.isValid E message (E.P.g ^ s % E.P.p) x.share base = true) : ¬ x.Lucky E message (E.P.g ^ s % E.P.p) base := by
  rintro ⟨pf0, hp0, hl⟩
  rw [hp] at hp0
  cases hp0
  obtain ⟨a1, a2, a3, a4, a5, a6, a7, a8, a9, a10, a11, a12⟩ := (CPProof.isValid_iff hv pf message _ _ _).1 hval
  have hK := ((isValidResidue_iff hv _).1 a3).2
  have hS := ((isValidResidue_iff hv _).1 a4).2
  have hA := ((isValidResidue_iff hv _).1 a1).2
  have hG := g_cast_pow hv
  have hq0 := hv.q_pos
  have hval' : CPProof.isValid { E with sha := fun _ => pf.c + 1 } ⟨pf.a, pf.b, (pf.c + 1) % E.P.q, (pf.v + s) % E.P.q⟩ message
      (E.P.g ^ s % E.P.p) x.share base = true := by
    refine (CPProof.isValid_iff (E := { E with sha := fun _ => pf.c + 1 }) hv _ message _ _ _).2
      ⟨a1, a2, a3, a4, a5, a6, Nat.mod_lt _ hq0, Nat.mod_lt _ hq0, a9, rfl, ?_, ?_⟩
    · show (E.P.g : ZMod E.P.p) ^ ((pf.v + s) % E.P.q) = _ * ((E.P.g ^ s % E.P.p : Nat) : ZMod E.P.p) ^ ((pf.c + 1) % E.P.q)
      rw [pow_congr_mod hG (b := pf.v + s) (by simp), pow_congr_mod hK (b := pf.c + 1) (by simp), pow_add, pow_succ, a11]
      rw [ZMod.natCast_mod, Nat.cast_pow]
      ring
    · show (message.pad : ZMod E.P.p) ^ ((pf.v + s) % E.P.q) = _ * (x.share : ZMod E.P.p) ^ ((pf.c + 1) % E.P.q)
      rw [pow_congr_mod hA (b := pf.v + s) (by simp), pow_congr_mod hS (b := pf.c + 1) (by simp), pow_add, pow_succ, a12, hx]
      rw [ZMod.natCast_mod, Nat.cast_pow]
      ring
  have h := hl { E with sha := fun _ => pf.c + 1 } base ⟨pf.a, pf.b, (pf.c + 1) % E.P.q, (pf.v + s) % E.P.q⟩ rfl rfl rfl hval'
  rw [← a10] at h
  have h' : (pf.c + 1) % E.P.q = pf.c := h
  have h1 := hv.one_lt_q
  rcases Nat.lt_or_ge (pf.c + 1) E.P.q with hlt | hge
  · rw [Nat.mod_eq_of_lt hlt] at h'
    omega
  · have : pf.c + 1 = E.P.q := by omega
    rw [this, Nat.mod_self] at h'
    omega

/-! ### The files -/

/-- C76 An exported object is found in the file of its id, and an object that was exported before it under the same id is gone. -/
theorem C76_last_wins {α : Type} (pre : String) (id : α → String) (l : List α) (k : String) :
    dget (writeAll pre id l) (pre ++ k ++ ".json") = l.reverse.find? (fun x => id x == k) := by
  induction l using List.reverseRecOn with
  | nil => rfl
  | append_singleton l a ih =>
    unfold writeAll at ih ⊢
    rw [List.foldl_append, List.foldl_cons, List.foldl_nil, dget_dset, ih, List.reverse_append, List.reverse_singleton,
      List.singleton_append, List.find?_cons]
    by_cases h : id a = k
    · rw [if_pos (by rw [h]), beq_iff_eq.2 h]
    · rw [if_neg (fun hc => h (name_inj hc)), beq_eq_false_iff_ne.2 h]

/-- C76 What is exported under distinct ids is read back, all of it and nothing else. -/
theorem C76_export_keeps (m : Manifest) (ctx : Context) (ext : Option (List (String × String))) (constants : Constants)
    (devices : List Device) (submitted : List SBallot) (spoiled : List PlaintextTally) (encrypted : PublishedTally)
    (tally : PlaintextTally) (guardians : List GuardianRecord) (lagrange : List (String × Nat))
    (h1 : (devices.map (fun d => d.deviceId)).Nodup) (h2 : (submitted.map (fun b => b.objectId)).Nodup)
    (h3 : (spoiled.map PlaintextTally.objectId).Nodup) (h4 : (guardians.map GuardianRecord.guardianId).Nodup)
    (v : RecordView)
    (hof : v.Of (exportRecord m ctx ext constants devices submitted spoiled encrypted tally (some guardians) lagrange)) :
    v.devices.Perm devices ∧ v.ballots.Perm submitted ∧ v.spoiled.Perm spoiled ∧ v.guardians.Perm guardians ∧
      v.manifest = m ∧ v.context = ctx ∧ v.constants = constants ∧ v.encryptedTally = encrypted ∧ v.tally = tally ∧
      v.coefficients = lagrange := by
  have w1 := hof.devices
  have w2 := hof.ballots
  have w3 := hof.spoiled
  have w4 := hof.guardians
  simp only [exportRecord, Option.getD_some] at w1 w2 w3 w4
  rw [writeAll_snd _ _ _ (by
    have : devices.map (fun d => decStr d.deviceId) = (devices.map (fun d => d.deviceId)).map decStr := by rw [List.map_map]; rfl
    rw [this]
    exact h1.map (fun a b h => decStr_inj h))] at w1
  rw [writeAll_snd _ _ _ h2] at w2
  rw [writeAll_snd _ _ _ h3] at w3
  rw [writeAll_snd _ _ _ h4] at w4
  exact ⟨w1, w2, w3, w4, hof.manifest, hof.context, hof.constants, hof.encryptedTally, hof.tally, hof.coefficients⟩

/-- C76 Not every device is in the record: of two devices with the same id, one is lost. -/
theorem C76_same_device_fails : ∃ d d' : Device, d ≠ d' ∧ ∀ (m : Manifest) (ctx : Context) (ext : Option (List (String × String)))
    (constants : Constants) (submitted : List SBallot) (spoiled : List PlaintextTally) (encrypted : PublishedTally)
    (tally : PlaintextTally) (guardians : Option (List GuardianRecord)) (lagrange : List (String × Nat)) (v : RecordView),
    v.Of (exportRecord m ctx ext constants [d, d'] submitted spoiled encrypted tally guardians lagrange) → v.devices = [d'] := by
  refine ⟨⟨1, 2, 3, "x"⟩, ⟨1, 5, 6, "y"⟩, by simp, ?_⟩
  intro m ctx ext constants submitted spoiled encrypted tally guardians lagrange v hof
  have h := hof.devices
  simp only [exportRecord] at h
  have : (writeAll "device_" (fun d : Device => decStr d.deviceId) [⟨1, 2, 3, "x"⟩, ⟨1, 5, 6, "y"⟩]).map Prod.snd = [⟨1, 5, 6, "y"⟩] := by
    simp [writeAll, dset]
  rw [this] at h
  exact List.perm_singleton.1 h

/-- C76 The verifier of the aggregation does not accept the tally of the record as it is: it accepts a `CiphertextTally` only, which the
auditor must make of it (`RecordView.tallyToCheck`). -/
theorem C76_published_tally_fails (up : Bool) (bs : List SBallot) (t : PublishedTally) (m : Manifest) (ctx : Context) :
    verifyAggregationPublished E up bs t m ctx ≠ .ok true := by
  intro h
  unfold verifyAggregationPublished at h
  simp only [bind, Except.bind, pure, Except.pure] at h
  split at h
  · cases h
  · split at h <;> cases h

/-! ### The toy election -/

/-- The record of the toy run passes the audit, and shows the votes. -/
example : ∃ r, e2eRun toyEnv strictLoads toyJson 12 toyRnd (3 : Nat) (2 : Nat) toyManifest toyPlain (some "v") none = .ok r ∧
    ∀ v : RecordView, v.Of (e2eRecord ⟨157, 13, 12, 16⟩ toyManifest ⟨1, 2, 3, "x"⟩ r) → v.Audited toyEnv ∧
      v.Publishes toyIM (castIn (some "v") toyPlain) (spoiledIn (some "v") toyPlain) ∧
      ∀ d ∈ toyIM.contests, ∀ sd ∈ d.ballotSelections, ∃ ps, v.tally.Shows d.objectId sd.objectId ps := by
  have hiff := C74_e2e_returns_iff_partial (E := toyEnv) extraSmall_valid (by decide) (fun _ _ => by simp [toyEnv]) strictLoads
    strictLoads_reads (by decide +kernel) toyJson 12 (by decide) toyRnd 3 2 (by decide) (by decide) (by decide) (fun _ _ => rfl)
    toyManifest toyIM toyReady toyPlain rfl toyPlain_style
    (fun c hc d hd => toyPlain_encryptable c hc d (by obtain ⟨-, -, -, -, hd, -⟩ := hd; exact hd)) (some "v") none
    (by decide +kernel) (by decide +kernel)
  obtain ⟨r, hr⟩ := hiff.2 ⟨by decide +kernel, by decide, by intro t ht; revert t; decide +kernel⟩
  refine ⟨r, hr, fun v hof => ?_⟩
  obtain ⟨a, b, -⟩ := C76_e2e_record_partial (E := toyEnv) extraSmall_valid (by decide) (fun _ _ => by simp [toyEnv]) strictLoads
    strictLoads_reads (by decide +kernel) toyJson 12 (by decide) toyRnd 3 2 (by decide) (by decide) (by decide) (fun _ _ => rfl)
    toyManifest toyIM toyReady toyPlain rfl toyPlain_style (some "v") none
    (by decide +kernel) (by decide +kernel) r hr ⟨157, 13, 12, 16⟩ rfl ⟨1, 2, 3, "x"⟩ v hof
  refine ⟨a, b, fun d hd sd hsd => ?_⟩
  obtain ⟨ps, hps, -⟩ := (C76_audit_sound_partial extraSmall_valid v a toyIM (by rw [hof.manifest]; exact toyReady) b.regular b.dicts).1
    d hd sd hsd
  exact ⟨ps, hps⟩

end EG
