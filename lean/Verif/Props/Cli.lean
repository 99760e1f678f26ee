import Verif.Lemmas.Cli

/-!
# C74: the `e2e` command, an election from the manifest to the printed results
-/

namespace EG

variable {E : Env}

theorem cliGetManifest_iff (m m' : Manifest) : cliGetManifest m = .ok m' ↔ m' = m ∧ m.isValid = true ∧ m.Named := by
  unfold cliGetManifest
  by_cases hm : m.isValid = true
  · rw [if_pos hm]
    by_cases hn : m.Named
    · obtain ⟨n, h⟩ := getName_of_named hn
      simp only [h, bind, Except.bind, pure, Except.pure, Except.ok.injEq]
      exact ⟨fun h => ⟨h.symm, hm, hn⟩, fun h => h.1.symm⟩
    · rw [getName_of_not_named hn]
      exact ⟨fun h => (by cases h), fun h => absurd h.2.2 hn⟩
  · rw [if_neg hm]
    exact ⟨fun h => (by cases h), fun h => absurd h.2.1 hm⟩

/-! ### The guardians that `decrypt` needs -/

theorem cliAnnounce_available {sd : TallySeeds} {ctx : Context} {t : Tally} {bs : List SBallot} (gs : List Guardian) (dm dm' : DM)
    (hn : (dkeys dm.available).Nodup) (hm : dm.missing = []) (h : cliAnnounce E sd ctx t bs gs dm = .ok dm') :
    (dkeys dm'.available).Nodup ∧ dm'.missing = [] ∧
      ∀ id, id ∈ dkeys dm'.available ↔ id ∈ dkeys dm.available ∨ id ∈ gs.map Guardian.id := by
  induction gs generalizing dm with
  | nil => cases h; exact ⟨hn, hm, by simp⟩
  | cons g gs ih =>
    unfold cliAnnounce at h
    cases hs : getOptional (g.computeTallyShare E t ctx (sd.tally g.id)) with
    | error e => rw [hs] at h; cases h
    | ok sh =>
      rw [hs] at h
      by_cases hk : g.shareKey.ownerId ∈ dkeys dm.available
      · have h' : cliAnnounce E sd ctx t bs gs dm = .ok dm' := by
          have := h
          simp only [bind, Except.bind, DM.announce_of_mem dm g.shareKey _ _ hk] at this
          exact this
        obtain ⟨a, b, c⟩ := ih dm hn hm h'
        refine ⟨a, b, fun id => ?_⟩
        rw [c id, List.map_cons, List.mem_cons]
        constructor
        · rintro (h | h)
          · exact .inl h
          · exact .inr (.inr h)
        · rintro (h | rfl | h)
          · exact .inl h
          · exact .inl hk
          · exact .inr h
      · obtain ⟨f1, f2, -⟩ := DM.announce_fields dm g.shareKey sh (some (g.computeBallotShares E bs ctx (sd.ballot g.id))) hk
        obtain ⟨a, b, c⟩ := ih _ (by rw [f1]; exact dset_nodup hn _ _) (by rw [f2, hm]; rfl) h
        refine ⟨a, b, fun id => ?_⟩
        rw [c id, f1, dset_fresh _ hk]
        have : g.shareKey.ownerId = g.id := rfl
        simp only [dkeys, List.map_append, List.mem_append, List.map_cons, List.map_nil, List.mem_cons, List.not_mem_nil, or_false,
          this, or_assoc]

/-- `decrypt` returns only if the guardians it is given are as many as the context says, counting each id once, and at least
the quorum. -/
theorem cliDecrypt_needs_all {sd : TallySeeds} {maxE : Nat} {ctx : Context} {t : Tally} {bs : List SBallot} {gs : List Guardian}
    {m : Manifest} {res : DecryptResults} (h : cliDecrypt E sd maxE ctx t bs gs m = .ok res) :
    ((gs.map Guardian.id).toFinset.card : Int) = ctx.numberOfGuardians ∧ ctx.quorum ≤ ctx.numberOfGuardians := by
  unfold cliDecrypt at h
  simp only [bind, Except.bind, pure, Except.pure] at h
  cases ha : cliAnnounce E sd ctx t bs gs DM.init with
  | error e => rw [ha] at h; cases h
  | ok dm =>
    rw [ha] at h
    simp only at h
    obtain ⟨hn, hmi, hav⟩ := cliAnnounce_available gs DM.init dm (by simp [DM.init, dkeys]) rfl ha
    have hc : dm.announcementComplete ctx = true := by
      by_contra hc
      have hc' : dm.announcementComplete ctx = false := by simpa using hc
      cases hl : lagrangeForGuardians E.P (dm.available.map (·.2)) with
      | error e => rw [hl] at h; cases h
      | ok l =>
        rw [hl] at h
        simp only [DM.plaintextTally, hc', Bool.not_false, Bool.true_or, if_true, getOptional] at h
        cases h
    obtain ⟨c1, c2⟩ := (C48_complete_iff dm ctx).1 hc
    rw [hmi] at c2
    have hcard : (gs.map Guardian.id).toFinset.card = dm.available.length := by
      have e : (gs.map Guardian.id).toFinset = (dkeys dm.available).toFinset := by
        ext id
        rw [List.mem_toFinset, List.mem_toFinset, hav id]
        simp [DM.init, dkeys]
      rw [e, List.toFinset_card_of_nodup hn, dkeys, List.length_map]
    rw [hcard]
    simp only [List.length_nil, Nat.cast_zero, add_zero] at c2
    exact ⟨c2, c2 ▸ c1⟩

/-! ### The setup -/

/-- The key ceremony and the election builder of the CLI. -/
theorem cli_setup (hv : E.P.Valid) (hlen : HmacLen E) (loads : Bytes → R (List Char)) (hl : ReadsCoordinate loads)
    (hq : E.P.q ≤ 256 ^ 246) (n quorum : Nat) (hquorum : 0 < quorum) (hn0 : 0 < n) (hn : n < E.P.q)
    (hpow : ∀ i < quorum, n ^ i < E.P.p) (rands : Nat → List (Nat × Nat)) (hr : ∀ i < n, (rands i).length = quorum)
    (nonces : String → Nat → Nat) (m : Manifest) (im : InternalManifest) (hm : m.isValid = true)
    (him : mkInternalManifest E m = .ok im) (url : Option String) :
    ∃ gs0 gs jk kps rands' ctx, createGuardians E ⟨n, quorum⟩ rands = .ok gs0 ∧
      runKeyCeremony E loads nonces gs0 = .ok (gs, jk) ∧
      buildElection E n quorum m jk.jointPublicKey jk.commitmentHash url
        = .ok (im, ctx, url.map (fun u => [("verification_url", u)])) ∧
      kps.length = n ∧ Team E quorum rands' kps ∧ (kps.map (fun kp => kp.sequenceOrder)).Nodup ∧
      List.Forall₂ (Guardian.Equipped E loads rands' kps) gs kps ∧
      ctx = makeContext E n quorum (combinePublicKeys E.P (kps.map (fun kp => kp.share.key))) jk.commitmentHash (m.cryptoHash E) ∧
      jk.commitmentHash = hashElems E [.list ((kps.flatMap (fun kp => kp.share.commitments)).map HArg.elem)] := by
  obtain ⟨kps, rands', hcreate, hnum, hteam, horders, -⟩ := C65_created_guardians (E := E) n quorum hquorum hn hpow rands hr
  obtain ⟨gs, kcm, hceremony, hequip, hjoint⟩ := C65_full_ceremony_partial hv hlen loads hl hq "mediator_1" quorum rands' kps
    hteam nonces
  have hordersN : (kps.map (fun kp => kp.sequenceOrder)).Nodup := by
    rw [horders]
    exact (List.nodup_range).map (fun a b hab => by simpa using hab)
  have hK : (kps.map (fun kp => E.P.g ^ polyAt ((rands' kp.ownerId).map Prod.fst) 0 % E.P.p)).prod % E.P.p
      = combinePublicKeys E.P (kps.map (fun kp => kp.share.key)) := by
    rw [combinePublicKeys_prod hv.one_lt_p]
    congr 2
    refine List.map_congr_left (fun kp hkp => ?_)
    rw [hteam.key_eq hkp]
    rfl
  rw [hK] at hjoint
  refine ⟨_, gs, ⟨combinePublicKeys E.P (kps.map (fun kp => kp.share.key)),
    hashElems E [.list ((kps.flatMap (fun kp => kp.share.commitments)).map HArg.elem)]⟩, kps, rands', _, hcreate, ?_, ?_, hnum, hteam,
    hordersN, hequip, rfl, rfl⟩
  · cases kps with
    | nil => simp at hnum; omega
    | cons kp kps =>
      have hd : (Guardian.init kp ⟨((kp :: kps).length : Nat), quorum⟩).details = ⟨((kp :: kps).length : Nat), quorum⟩ := rfl
      rw [List.map_cons] at hceremony ⊢
      unfold runKeyCeremony
      simp only [hd]
      simp only [hceremony, hjoint, bind, Except.bind, getOptional, pure, Except.pure]
  · rw [buildElection_eq hm, him]
    rfl

/-! ### The run -/

theorem map_filter_state (vs : List VotedBallot) (spoilId : Option String)
    (hst : ∀ v ∈ vs, v.state = if some v.plain.objectId = spoilId then .spoiled else .cast) :
    (vs.filter (fun v => decide (v.state = .cast))).map (fun v => v.plain) = castIn spoilId (vs.map (fun v => v.plain)) ∧
    (vs.filter (fun v => decide (v.state = .spoiled))).map (fun v => v.plain) = spoiledIn spoilId (vs.map (fun v => v.plain)) := by
  unfold castIn spoiledIn
  rw [List.filter_map, List.filter_map]
  constructor <;> congr 1 <;> refine List.filter_congr (fun v hv' => ?_) <;> rw [hst v hv'] <;>
    by_cases h : some v.plain.objectId = spoilId <;> simp [h]

/-- The encryptions of ballots are valid ballots of the election. -/
theorem encrypted_valid (hv : E.P.Valid) (hpq : (E.P.q - 1) * (E.P.q - 1) < E.P.p) {json : ContestData → Bytes} {m : Manifest}
    {im : InternalManifest} (he : ElectionReady E m im) {ctx : Context} (hres : isValidResidue E.P ctx.elgamalPublicKey = true)
    {v : VotedBallot} (h1 : v.Encrypted E json im ctx) (h2 : ∃ d, im.StyleHas v.plain.styleId d) :
    v.enc.objectId = v.plain.objectId ∧ ballotIsValidForElection E v.enc im ctx true = .ok true := by
  obtain ⟨im', him', hids, hsorted, -, -, -, -⟩ := C40_unique_ids_partial E m he.manifest
  rw [he.internal] at him'
  cases him'
  obtain ⟨ds, hspec⟩ := encryptBallot_some hv hpq hres (fun d hd => by
    obtain ⟨-, -, -, -, hd, -⟩ := hd
    exact he.seats d hd) h1
  exact ⟨hspec.id, hspec.forElection hids hsorted h2⟩

/-- What `e2e` does after the encryption of the ballots. -/
theorem e2e_rest (hv : E.P.Valid) (hpq : (E.P.q - 1) * (E.P.q - 1) < E.P.p)
    (loads : Bytes → R (List Char)) (quorum : Nat) (hq : 0 < quorum)
    (rands : String → List (Nat × Nat)) (kps : List ElectionKeyPair) (ht : Team E quorum rands kps)
    (horders : (kps.map (fun kp => kp.sequenceOrder)).Nodup) (sd : TallySeeds) (ctx : Context)
    (hctx : ctx.quorum = quorum ∧ ctx.numberOfGuardians = kps.length) (hh : ctx.cryptoExtendedBaseHash < E.P.q)
    (hkey : ctx.elgamalPublicKey = combinePublicKeys E.P (kps.map (fun kp => kp.share.key)))
    (maxE : Nat) (hmaxE : 1 ≤ maxE) (json : ContestData → Bytes) (m : Manifest) (im : InternalManifest) (he : ElectionReady E m im)
    (gs : List Guardian) (hgs : List.Forall₂ (Guardian.Equipped E loads rands kps) gs kps) (hmany : quorum ≤ kps.length)
    (spoilId : Option String) (vs : List VotedBallot) (hn : (vs.map (fun v => v.plain.objectId)).Nodup)
    (hof : ∀ v ∈ vs, v.Of E json im ctx spoilId) (hstyle : ∀ v ∈ vs, ∃ d, im.StyleHas v.plain.styleId d)
    (hsmall : (castIn spoilId (vs.map (fun v => v.plain))).length < E.P.q)
    (hmax : (castIn spoilId (vs.map (fun v => v.plain))).length ≤ maxE) :
    ∃ t sp res out, castAndSpoil E im ctx spoilId (vs.map (fun v => v.enc)) []
        = .ok (vs.map (fun v => (v.plain.objectId, submitBallot E v.enc v.state))) ∧
      tallyFromStore E im ctx (vs.map (fun v => (v.plain.objectId, submitBallot E v.enc v.state))) = .ok (t, sp) ∧
      cliDecrypt E sd maxE ctx t sp gs m = .ok res ∧
      res.Right im (castIn spoilId (vs.map (fun v => v.plain))) (spoiledIn spoilId (vs.map (fun v => v.plain))) ∧
      printElectionResults m res.tally res.spoiled = .ok out ∧ res.Printed m out := by
  obtain ⟨hf1, hf2⟩ := map_filter_state vs spoilId (fun v hv' => (hof v hv').2)
  have hlen1 : (vs.filter (fun v => decide (v.state = .cast))).length = (castIn spoilId (vs.map (fun v => v.plain))).length := by
    rw [← hf1, List.length_map]
  have hown : gs.map (fun g => g.electionKeys) = kps := by
    clear hmany hctx hkey horders ht
    have key : ∀ (l : List ElectionKeyPair) (gs : List Guardian),
        List.Forall₂ (Guardian.Equipped E loads rands kps) gs l → gs.map (fun g => g.electionKeys) = l := by
      intro l gs h1
      induction h1 with
      | nil => rfl
      | cons hx _ ih => rw [List.map_cons, ih, hx.own]
    exact key kps gs hgs
  have hgid : (gs.map Guardian.id).Nodup := by
    have : gs.map Guardian.id = kps.map (fun kp => kp.ownerId) := by rw [← hown, List.map_map]; rfl
    rw [this]
    exact ht.ids
  obtain ⟨avs, hav, hpres⟩ := C66_ceremony_present gs hgs gs (fun g hg => hg) hgid
  have hall : (avs.map Prod.snd).Perm kps := by
    have : avs.map Prod.snd = kps := by
      rw [← hown, ← hav, List.map_map]
      exact List.map_congr_left (fun x hx => ((hpres.equipped x hx).2.own).symm)
    rw [this]
  have hres : isValidResidue E.P ctx.elgamalPublicKey = true := by
    have := combined_residue hv (ht.sharedKeys hv horders)
    rw [List.map_map] at this
    rw [hkey]
    exact this
  have hvalid := fun v (hv' : v ∈ vs) => encrypted_valid hv hpq he hres (hof v hv').1 (hstyle v hv')
  obtain ⟨t, res, out, h1, h2, h3, h4, h5⟩ := cli_results hv hpq loads quorum hq rands kps ht horders sd ctx hctx hh hkey maxE hmaxE
    json m im he avs hpres hall hmany vs hn (fun v hv' => ⟨(hof v hv').1, hstyle v hv'⟩) (by rw [hlen1]; exact hsmall)
    (by rw [hlen1]; exact hmax)
  rw [hav] at h2
  rw [hf1, hf2] at h3
  refine ⟨t, _, res, out, ?_, ?_, h2, h3, h4, h5⟩
  · refine (castAndSpoil_iff im ctx spoilId vs (fun v hv' => (hvalid v hv').1) (fun v hv' => (hvalid v hv').2)
      (fun v hv' => (hof v hv').2) [] _).2 ⟨hn, by simp [dkeys], rfl⟩
  · unfold tallyFromStore getBallots Store.all
    rw [List.map_map]
    have e1 : (vs.map (fun v => (v.plain.objectId, submitBallot E v.enc v.state))).map (fun e => e.2)
        = vs.map (fun v => submitBallot E v.enc v.state) := by rw [List.map_map]; rfl
    have e2 : ((vs.map (fun v => (v.plain.objectId, submitBallot E v.enc v.state))).filter (fun e => decide (e.2.state = .spoiled))).map
        (fun e => e.2) = (vs.filter (fun v => decide (v.state = .spoiled))).map (fun v => submitBallot E v.enc v.state) := by
      rw [List.filter_map, List.map_map]
      rfl
    rw [List.map_map] at e1
    simp only [e1, h1, bind, Except.bind, pure, Except.pure, e2]

/-- The context of an election that the CLI made. -/
theorem e2e_inv {loads : Bytes → R (List Char)} {json : ContestData → Bytes} {maxE : Nat} {rnd : E2eRandom}
    {guardianCount quorum : Int} {m : Manifest} {ballots : List PlaintextBallot} {spoilId url : Option String} {r : E2eResult}
    (h : e2eRun E loads json maxE rnd guardianCount quorum m ballots spoilId url = .ok r) :
    ∃ gs0 gs jk im ctx ext cs store t sp, createGuardians E ⟨guardianCount, quorum⟩ rnd.polynomials = .ok gs0 ∧
      (m.isValid = true ∧ m.Named) ∧
      runKeyCeremony E loads rnd.backups gs0 = .ok (gs, jk) ∧
      buildElection E guardianCount quorum m jk.jointPublicKey jk.commitmentHash url = .ok (im, ctx, ext) ∧
      encryptVotes E json im ctx rnd.device (ballots.zip rnd.ballots) = .ok cs ∧
      castAndSpoil E im ctx spoilId cs [] = .ok store ∧ tallyFromStore E im ctx store = .ok (t, sp) ∧
      cliDecrypt E rnd.seeds maxE ctx t sp gs m = .ok r.results ∧
      printElectionResults m r.results.tally r.results.spoiled = .ok r.printed ∧
      r.guardians = gs ∧ r.context = ctx ∧ r.extendedData = ext ∧ r.store = store := by
  unfold e2eRun at h
  simp only [bind, Except.bind, pure, Except.pure] at h
  cases h1 : createGuardians E ⟨guardianCount, quorum⟩ rnd.polynomials with
  | error e => rw [h1] at h; cases h
  | ok gs0 =>
  rw [h1] at h
  simp only at h
  cases h2 : cliGetManifest m with
  | error e => rw [h2] at h; cases h
  | ok m' =>
  obtain ⟨rfl, hm⟩ := (cliGetManifest_iff m m').1 h2
  rw [h2] at h
  simp only at h
  cases h3 : runKeyCeremony E loads rnd.backups gs0 with
  | error e => rw [h3] at h; cases h
  | ok x =>
  obtain ⟨gs, jk⟩ := x
  rw [h3] at h
  simp only at h
  cases h4 : buildElection E guardianCount quorum m' jk.jointPublicKey jk.commitmentHash url with
  | error e => rw [h4] at h; cases h
  | ok x =>
  obtain ⟨im, ctx, ext⟩ := x
  rw [h4] at h
  simp only at h
  cases h5 : encryptVotes E json im ctx rnd.device (ballots.zip rnd.ballots) with
  | error e => rw [h5] at h; cases h
  | ok cs =>
  rw [h5] at h
  simp only at h
  cases h6 : castAndSpoil E im ctx spoilId cs [] with
  | error e => rw [h6] at h; cases h
  | ok store =>
  rw [h6] at h
  simp only at h
  cases h7 : tallyFromStore E im ctx store with
  | error e => rw [h7] at h; cases h
  | ok x =>
  obtain ⟨t, sp⟩ := x
  rw [h7] at h
  simp only at h
  cases h8 : cliDecrypt E rnd.seeds maxE ctx t sp gs m' with
  | error e => rw [h8] at h; cases h
  | ok res =>
  rw [h8] at h
  simp only at h
  cases h9 : printElectionResults m' res.tally res.spoiled with
  | error e => rw [h9] at h; cases h
  | ok out =>
  rw [h9] at h
  cases h
  exact ⟨gs0, gs, jk, im, ctx, ext, cs, store, t, sp, rfl, hm, h3, h4, h5, h6, h7, h8, h9, rfl, rfl, rfl, rfl⟩

/-- C74 Whatever `e2e` publishes is right.  If a run returns, no two ballots had the same id, the quorum was not above the number of
guardians, the published tally has exactly the votes of all ballots but the spoiled one, the spoiled ballot is published with exactly
the voter's votes, and the results are printed under the names of the manifest.
Partial: manifests in sequence order with distinct selection ids, ballots of styles that have a contest, at most `maxE` cast
ballots, `(q-1)² < p`, orders with powers below `p` (as in C60 and C65). -/
theorem C74_e2e_sound_partial (hv : E.P.Valid) (hpq : (E.P.q - 1) * (E.P.q - 1) < E.P.p) (hlen : HmacLen E)
    (loads : Bytes → R (List Char)) (hl : ReadsCoordinate loads) (hq : E.P.q ≤ 256 ^ 246) (json : ContestData → Bytes)
    (maxE : Nat) (hmaxE : 1 ≤ maxE) (rnd : E2eRandom) (n quorum : Nat) (hquorum : 0 < quorum) (hn : n < E.P.q)
    (hpow : ∀ i < quorum, n ^ i < E.P.p) (hr : ∀ i < n, (rnd.polynomials i).length = quorum)
    (m : Manifest) (im : InternalManifest) (he : ElectionReady E m im) (ballots : List PlaintextBallot)
    (hrnd : rnd.ballots.length = ballots.length) (hstyle : ∀ b ∈ ballots, ∃ d, im.StyleHas b.styleId d)
    (spoilId url : Option String) (hsmall : (castIn spoilId ballots).length < E.P.q)
    (hmax : (castIn spoilId ballots).length ≤ maxE) (r : E2eResult)
    (h : e2eRun E loads json maxE rnd n quorum m ballots spoilId url = .ok r) :
    (ballots.map (fun b => b.objectId)).Nodup ∧ quorum ≤ n ∧ m.Named ∧
      r.results.Right im (castIn spoilId ballots) (spoiledIn spoilId ballots) ∧ r.results.Printed m r.printed ∧
      r.store.map (fun e => (e.1, e.2.state))
        = ballots.map (fun b => (b.objectId, if some b.objectId = spoilId then .spoiled else .cast)) := by
  obtain ⟨gs0, gs, jk, im', ctx, ext, cs, store, t, sp, h1, ⟨hm, hnamed⟩, h3, h4, h5, h6, h7, h8, h9, -, -, -, hstore⟩ := e2e_inv h
  have hn0 : 0 < n := by
    rcases Nat.eq_zero_or_pos n with rfl | h0
    · have : gs0 = [] := by
        unfold createGuardians at h1
        simpa [pure, Except.pure, eq_comm] using h1
      subst this
      cases h3
    · exact h0
  obtain ⟨gs0', gs', jk', kps, rands', ctx', k1, k2, k3, hnum, hteam, horders, hequip, hctx, -⟩ := cli_setup hv hlen loads hl hq n quorum
    hquorum hn0 hn hpow rnd.polynomials hr rnd.backups m im hm he.internal url
  rw [h1] at k1
  cases k1
  rw [h3] at k2
  cases k2
  rw [h4] at k3
  cases k3
  have hq' : ctx.quorum = (quorum : Int) ∧ ctx.numberOfGuardians = (kps.length : Int) := by
    rw [hctx, hnum]; exact ⟨rfl, rfl⟩
  have hkey : ctx.elgamalPublicKey = combinePublicKeys E.P (kps.map (fun kp => kp.share.key)) := by rw [hctx]; rfl
  have hh : ctx.cryptoExtendedBaseHash < E.P.q := by
    rw [hctx]
    exact hashElems_lt (by have := hv.one_lt_q; omega) _
  have hmany : quorum ≤ n := by
    have := (cliDecrypt_needs_all h8).2
    rw [hq'.1, hq'.2, hnum] at this
    exact_mod_cast this
  obtain ⟨vs, rfl, hplain, hof⟩ := encryptLoop_sound json im ctx spoilId _ _ _ h5
  rw [List.map_fst_zip (by rw [hrnd])] at hplain
  have hids : vs.map (fun v => v.plain.objectId) = ballots.map (fun b => b.objectId) := by
    rw [← hplain, List.map_map]; rfl
  have hres : isValidResidue E.P ctx.elgamalPublicKey = true := by
    have := combined_residue hv (hteam.sharedKeys hv horders)
    rw [List.map_map] at this
    rw [hkey]
    exact this
  have hst : ∀ v ∈ vs, ∃ d, im.StyleHas v.plain.styleId d := fun v hv' =>
    hstyle v.plain (by rw [← hplain]; exact List.mem_map_of_mem hv')
  have hvalid := fun v (hv' : v ∈ vs) => encrypted_valid hv hpq he hres (hof v hv').1 (hst v hv')
  obtain ⟨hnd, -, hstore'⟩ := (castAndSpoil_iff im ctx spoilId vs (fun v hv' => (hvalid v hv').1) (fun v hv' => (hvalid v hv').2)
      (fun v hv' => (hof v hv').2) [] _).1 h6
  obtain ⟨t', sp', res, out, j1, j2, j3, j4, j5, j6⟩ := e2e_rest hv hpq loads quorum hquorum rands' kps hteam horders rnd.seeds ctx hq'
    hh hkey maxE hmaxE json m im he gs hequip (by rw [hnum]; exact hmany) spoilId vs hnd hof hst (by rw [hplain]; exact hsmall)
    (by rw [hplain]; exact hmax)
  rw [List.nil_append] at hstore'
  rw [← hstore', h7] at j2
  cases j2
  rw [h8] at j3
  obtain rfl : r.results = res := Except.ok.inj j3
  rw [h9] at j5
  obtain rfl : r.printed = out := Except.ok.inj j5
  rw [hplain] at j4
  refine ⟨by rw [← hids]; exact hnd, hmany, hnamed, j4, j6, ?_⟩
  rw [hstore, hstore', List.map_map, ← hplain, List.map_map]
  refine List.map_congr_left (fun v hv' => ?_)
  show (v.plain.objectId, v.state) = _
  rw [(hof v hv').2]
  rfl

/-- C74 A run of `e2e` with encryptable ballots returns exactly if no two ballots have the same id, the quorum is not above the number of
guardians, and the manifest has a name to print or none.
Partial: as `C74_e2e_sound_partial`; the conditions of `Encryptable` (C28). -/
theorem C74_e2e_returns_iff_partial (hv : E.P.Valid) (hpq : (E.P.q - 1) * (E.P.q - 1) < E.P.p) (hlen : HmacLen E)
    (loads : Bytes → R (List Char)) (hl : ReadsCoordinate loads) (hq : E.P.q ≤ 256 ^ 246) (json : ContestData → Bytes)
    (maxE : Nat) (hmaxE : 1 ≤ maxE) (rnd : E2eRandom) (n quorum : Nat) (hquorum : 0 < quorum) (hn : n < E.P.q)
    (hpow : ∀ i < quorum, n ^ i < E.P.p) (hr : ∀ i < n, (rnd.polynomials i).length = quorum)
    (m : Manifest) (im : InternalManifest) (he : ElectionReady E m im) (ballots : List PlaintextBallot)
    (hrnd : rnd.ballots.length = ballots.length) (hstyle : ∀ b ∈ ballots, ∃ d, im.StyleHas b.styleId d)
    (henc : ∀ c ∈ ballots.zip rnd.ballots, ∀ d, im.StyleHas c.1.styleId d →
      Encryptable E json (c.1.voted d.toContestDescription) d (nonceSeed E im.manifestHash c.1.objectId c.2.1))
    (spoilId url : Option String) (hsmall : (castIn spoilId ballots).length < E.P.q)
    (hmax : (castIn spoilId ballots).length ≤ maxE) :
    (∃ r, e2eRun E loads json maxE rnd n quorum m ballots spoilId url = .ok r) ↔
      (ballots.map (fun b => b.objectId)).Nodup ∧ quorum ≤ n ∧ m.Named := by
  constructor
  · rintro ⟨r, h⟩
    obtain ⟨a, b, c, -⟩ := C74_e2e_sound_partial hv hpq hlen loads hl hq json maxE hmaxE rnd n quorum hquorum hn hpow hr m im he
      ballots hrnd hstyle spoilId url hsmall hmax r h
    exact ⟨a, b, c⟩
  · rintro ⟨hnd, hmany, hnamed⟩
    have hm : m.isValid = true := (C41_iff_partial m).2 he.manifest.ok
    obtain ⟨gs0, gs, jk, kps, rands', ctx, k1, k2, k3, hnum, hteam, horders, hequip, hctx, -⟩ := cli_setup hv hlen loads hl hq n quorum
      hquorum (by omega) hn hpow rnd.polynomials hr rnd.backups m im hm he.internal url
    have hq' : ctx.quorum = (quorum : Int) ∧ ctx.numberOfGuardians = (kps.length : Int) := by
      rw [hctx, hnum]; exact ⟨rfl, rfl⟩
    have hkey : ctx.elgamalPublicKey = combinePublicKeys E.P (kps.map (fun kp => kp.share.key)) := by rw [hctx]; rfl
    have hh : ctx.cryptoExtendedBaseHash < E.P.q := by
      rw [hctx]
      exact hashElems_lt (by have := hv.one_lt_q; omega) _
    have hres : isValidResidue E.P ctx.elgamalPublicKey = true := by
      have := combined_residue hv (hteam.sharedKeys hv horders)
      rw [List.map_map] at this
      rw [hkey]
      exact this
    obtain ⟨im', him', -, hsorted, -⟩ := C40_unique_ids_partial E m he.manifest
    rw [he.internal] at him'
    cases him'
    obtain ⟨cs, hcs⟩ := encryptLoop_ok json im ctx (ballots.zip rnd.ballots) (rnd.device.getHash E) (fun c hc seed => by
      have hb : c.1 ∈ ballots := (List.of_mem_zip (a := c.1) (b := c.2) hc).1
      obtain ⟨e, he', -⟩ := C28_returns_partial hv hpq hlen json c.1 im ctx seed c.2.1 c.2.2 false hres (fun d hd => by
          obtain ⟨-, -, -, -, hd, -⟩ := hd
          exact he.seats d hd) hsorted (hstyle _ hb) (henc c hc)
      exact ⟨e, he'⟩)
    obtain ⟨vs, rfl, hplain, hof⟩ := encryptLoop_sound json im ctx spoilId _ _ _ hcs
    rw [List.map_fst_zip (by rw [hrnd])] at hplain
    have hids : vs.map (fun v => v.plain.objectId) = ballots.map (fun b => b.objectId) := by
      rw [← hplain, List.map_map]; rfl
    obtain ⟨t, sp, res, out, j1, j2, j3, j4, j5, j6⟩ := e2e_rest hv hpq loads quorum hquorum rands' kps hteam horders rnd.seeds ctx hq'
      hh hkey maxE hmaxE json m im he gs hequip (by rw [hnum]; exact hmany) spoilId vs (by rw [hids]; exact hnd) hof
      (fun v hv' => hstyle v.plain (by rw [← hplain]; exact List.mem_map_of_mem hv')) (by rw [hplain]; exact hsmall)
      (by rw [hplain]; exact hmax)
    refine ⟨⟨gs, ctx, url.map (fun u => [("verification_url", u)]),
      vs.map (fun v => (v.plain.objectId, submitBallot E v.enc v.state)), res, out⟩, ?_⟩
    unfold e2eRun encryptVotes
    simp only [k1, (cliGetManifest_iff m m).2 ⟨rfl, hm, hnamed⟩, k2, k3, hcs, j1, j2, j3, j5, bind, Except.bind, pure, Except.pure]

/-- C74 `e2e` writes the guardians' keys only when an election record was asked for: without `--output-record` the command raises
after the results were printed, and the directory of the keys stays as it was. -/
theorem C74_no_output_record_fails (keysDir : Option Dir) (r : E2eResult) : e2ePublish none keysDir r = .error .type := rfl

/-! ### The toy election -/

theorem toy_encryptable (b : PlaintextBallot) (nn : Nat)
    (h2 : ∀ d ∈ toyIM.contests,
      let c := b.voted d.toContestDescription
      c.objectId = d.objectId ∧ c.ballotSelections.length ≤ d.ballotSelections.length ∧
      (∀ s ∈ c.ballotSelections, ∃ sd ∈ d.ballotSelections, sd.objectId = s.objectId) ∧
      (c.chosen = d.numberElected → 0 < c.chosen → ∀ v ∈ d.votesAllowed, v ≤ c.chosen ∨ v < c.voteSum) ∧
      (∀ s ∈ c.ballotSelections, s.vote = 0 ∨ s.vote = 1))
    (h3 : ∀ d ∈ toyIM.contests, ∀ sd ∈ d.ballotSelections ++ d.placeholders,
      nonce toyEnv (sd.cryptoHash toyEnv) [.elem (nonce toyEnv (d.cryptoHash toyEnv)
        [.elem (nonceSeed toyEnv toyIM.manifestHash b.objectId nn)] d.sequenceOrder.toNat)] sd.sequenceOrder.toNat ≠ 0 ∧
      nonce toyEnv (nonce toyEnv (sd.cryptoHash toyEnv) [.elem (nonce toyEnv (d.cryptoHash toyEnv)
        [.elem (nonceSeed toyEnv toyIM.manifestHash b.objectId nn)] d.sequenceOrder.toNat)] 0) disjHeader 0 ≠ 0) :
    ∀ d ∈ toyIM.contests, Encryptable toyEnv toyJson (b.voted d.toContestDescription) d
      (nonceSeed toyEnv toyIM.manifestHash b.objectId nn) := by
  intro d hd
  have h1 : ∀ d ∈ toyIM.contests, d.isValid = true ∧ 0 ≤ d.sequenceOrder ∧ d.ballotSelections ++ d.placeholders ≠ [] ∧
      ∀ sd ∈ d.ballotSelections ++ d.placeholders, 0 ≤ sd.sequenceOrder := by decide +kernel
  obtain ⟨a1, a2, a3, a4, a5⟩ := h2 d hd
  exact ⟨⟨a1, a2, (h1 d hd).1, a3⟩, fun e1 e2 v hv => a4 e1 e2 v hv, fun _ => a5, (h1 d hd).2.2.1, (h1 d hd).2.1,
    (h1 d hd).2.2.2, h3 d hd, fun _ _ => by simp [toyJson], fun _ => by simp [toyJson]⟩

/-- The random numbers of the toy run. -/
def toyRnd : E2eRandom := ⟨fun i => [(i + 4, 3), (2, i + 5)], fun _ i => i + 1, ⟨1, 2, 3, "x"⟩, [(7, 17), (3, 18), (3, 19)],
  ⟨fun _ _ _ => 1, fun _ _ _ _ => 1, fun _ _ _ _ => 1, fun _ _ _ _ _ => 1⟩⟩

/-- Its ballots; the second is spoiled. -/
def toyPlain : List PlaintextBallot := [toyVote "b" 1 0 1, toyVote "v" 0 1 1, toyVote "w" 0 1 1]

theorem toyPlain_encryptable : ∀ c ∈ toyPlain.zip toyRnd.ballots, ∀ d ∈ toyIM.contests,
    Encryptable toyEnv toyJson (c.1.voted d.toContestDescription) d (nonceSeed toyEnv toyIM.manifestHash c.1.objectId c.2.1) := by
  intro c hc
  simp only [toyPlain, toyRnd, List.zip_cons_cons, List.zip_nil_left, List.mem_cons, List.not_mem_nil, or_false] at hc
  rcases hc with rfl | rfl | rfl
  · exact toy_encryptable _ 7 (by decide +kernel) (by decide +kernel)
  · exact toy_encryptable _ 3 (by decide +kernel) (by decide +kernel)
  · exact toy_encryptable _ 3 (by decide +kernel) (by decide +kernel)

theorem toyPlain_style : ∀ b ∈ toyPlain, ∃ d, toyIM.StyleHas b.styleId d := by
  intro b hb
  have hs : b.styleId = "t" := by
    simp only [toyPlain, List.mem_cons, List.not_mem_nil, or_false] at hb
    rcases hb with rfl | rfl | rfl <;> rfl
  rw [hs]
  have : toyIM.contests ≠ [] := by decide +kernel
  obtain ⟨d, hd⟩ := List.exists_mem_of_ne_nil _ this
  exact ⟨d, toy_style_t d hd⟩

/-- A run with three guardians and three ballots returns. -/
example : (∃ r, e2eRun toyEnv strictLoads toyJson 12 toyRnd (3 : Nat) (2 : Nat) toyManifest toyPlain (some "v") none = .ok r ∧
    r.results.Right toyIM (castIn (some "v") toyPlain) (spoiledIn (some "v") toyPlain)) := by
  have hiff := C74_e2e_returns_iff_partial (E := toyEnv) extraSmall_valid (by decide) (fun _ _ => by simp [toyEnv]) strictLoads
    strictLoads_reads (by decide +kernel) toyJson 12 (by decide) toyRnd 3 2 (by decide) (by decide) (by decide) (fun _ _ => rfl)
    toyManifest toyIM toyReady toyPlain rfl toyPlain_style
    (fun c hc d hd => toyPlain_encryptable c hc d (by obtain ⟨-, -, -, -, hd, -⟩ := hd; exact hd)) (some "v") none
    (by decide +kernel) (by decide +kernel)
  obtain ⟨r, hr⟩ := hiff.2 ⟨by decide +kernel, by decide, by intro t ht; revert t; decide +kernel⟩
  refine ⟨r, hr, ?_⟩
  exact (C74_e2e_sound_partial (E := toyEnv) extraSmall_valid (by decide) (fun _ _ => by simp [toyEnv]) strictLoads
    strictLoads_reads (by decide +kernel) toyJson 12 (by decide) toyRnd 3 2 (by decide) (by decide) (by decide) (fun _ _ => rfl)
    toyManifest toyIM toyReady toyPlain rfl toyPlain_style (some "v") none
    (by decide +kernel) (by decide +kernel) r hr).2.2.2.1

example : toyIM.contests.map (fun d => d.ballotSelections.map (fun s =>
    ((castIn (some "v") toyPlain).map (fun b => b.votesFor toyIM d s.objectId)).sum)) = [[1, 1], [2]] := by decide +kernel

/-- With a second ballot of the same id, or with a quorum of four, it does not. -/
example : (∀ r, e2eRun toyEnv strictLoads toyJson 12 toyRnd (3 : Nat) (2 : Nat) toyManifest
      [toyVote "b" 1 0 1, toyVote "v" 0 1 1, toyVote "b" 0 1 1] (some "v") none ≠ .ok r) ∧
    ∀ r, e2eRun toyEnv strictLoads toyJson 12 { toyRnd with polynomials := fun i => [(i + 4, 3), (2, i + 5), (1, 1), (1, 2)] }
      (3 : Nat) (4 : Nat) toyManifest toyPlain (some "v") none ≠ .ok r := by
  refine ⟨fun r h => ?_, fun r h => ?_⟩
  · have := (C74_e2e_sound_partial (E := toyEnv) extraSmall_valid (by decide) (fun _ _ => by simp [toyEnv]) strictLoads
      strictLoads_reads (by decide +kernel) toyJson 12 (by decide) toyRnd 3 2 (by decide) (by decide) (by decide) (fun _ _ => rfl)
      toyManifest toyIM toyReady [toyVote "b" 1 0 1, toyVote "v" 0 1 1, toyVote "b" 0 1 1] rfl (by
        intro b hb
        obtain ⟨d, hd⟩ := List.exists_mem_of_ne_nil toyIM.contests (by decide +kernel)
        refine ⟨d, ?_⟩
        have hs : b.styleId = "t" := by
          simp only [List.mem_cons, List.not_mem_nil, or_false] at hb
          rcases hb with rfl | rfl | rfl <;> rfl
        rw [hs]
        exact toy_style_t d hd) (some "v") none (by decide +kernel) (by decide +kernel) r h).1
    revert this
    decide +kernel
  · have := (C74_e2e_sound_partial (E := toyEnv) extraSmall_valid (by decide) (fun _ _ => by simp [toyEnv]) strictLoads
      strictLoads_reads (by decide +kernel) toyJson 12 (by decide) _ 3 4 (by decide) (by decide) (by decide) (fun _ _ => rfl)
      toyManifest toyIM toyReady toyPlain rfl toyPlain_style (some "v") none (by decide +kernel) (by decide +kernel) r h).2.1
    exact absurd this (by decide)

end EG
