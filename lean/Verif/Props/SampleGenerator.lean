import Verif.Lemmas.SampleGenerator
import Verif.Props.Marking

/-!
# C89: the sample generator
-/

namespace EG

variable {E : Env}

/-- The election of a run. -/
theorem sampleElection_setup (hv : E.P.Valid) (hlen : HmacLen E) (loads : Bytes → R (List Char)) (hl : ReadsCoordinate loads)
    (hq : E.P.q ≤ 256 ^ 246) (n quorum : Nat) (hquorum : 0 < quorum) (hn : n < E.P.q) (hpow : ∀ i < quorum, n ^ i < E.P.p)
    (rands : Nat → List (Nat × Nat)) (hr : ∀ i < n, (rands i).length = quorum) (nonces : String → Nat → Nat)
    (m : Manifest) (im : InternalManifest) (he : ElectionReady E m im) :
    ∃ gs ctx kps rands', sampleElection E loads n quorum m rands nonces = .ok ⟨m, im, ctx, none, gs.map Guardian.publish, gs⟩ ∧
      kps.length = n ∧ Team E quorum rands' kps ∧ (kps.map (fun kp => kp.sequenceOrder)).Nodup ∧
      List.Forall₂ (Guardian.Equipped E loads rands' kps) gs kps ∧
      ctx = makeContext E kps.length quorum (combinePublicKeys E.P (kps.map (fun kp => kp.share.key)))
        (hashElems E [.list ((kps.flatMap (fun kp => kp.share.commitments)).map HArg.elem)]) (m.cryptoHash E) := by
  obtain ⟨gs0, gs, kcm, jk, b, ctx, kps, rands', h1, h2, h3, h4, h5, hnum, hteam, horders, hequip, hctx⟩ := election_setup hv hlen loads hl
    hq n quorum hquorum hn hpow rands hr nonces "key-ceremony-mediator" m im ((C41_iff_partial m).2 he.manifest.ok) he.internal
  refine ⟨gs, ctx, kps, rands', ?_, hnum, hteam, horders, hequip, hctx⟩
  unfold sampleElection
  simp only [h1, h2, h3, h4, h5, getOptional, bind, Except.bind, pure, Except.pure]

theorem announceAvailable_length (sd : TallySeeds) (ctx : Context) (t : Tally) (bs : List SBallot) (gs : List Guardian) (m m' : DM)
    (h : announceAvailable E sd ctx t bs gs m = .ok m') : m'.available.length ≤ m.available.length + gs.length := by
  induction gs generalizing m m' with
  | nil => cases h; simp
  | cons g gs ih =>
    unfold announceAvailable at h
    cases hs : getOptional (g.computeTallyShare E t ctx (sd.tally g.id)) with
    | error e => rw [hs] at h; cases h
    | ok sh =>
      rw [hs] at h
      have h1 := ih _ _ h
      have h2 : ∀ l, (m.announce g.shareKey sh l).available.length ≤ m.available.length + 1 := by
        intro l
        by_cases hk : g.shareKey.ownerId ∈ dkeys m.available
        · rw [DM.announce_of_mem m _ _ _ hk]; omega
        · rw [(DM.announce_fields m g.shareKey sh l hk).1, dset_fresh _ hk]; simp
      have := h2 (some ((getValidBallotShares (g.computeBallotShares E bs ctx (sd.ballot g.id))).map (fun e => (e.1, some e.2))))
      simp only [List.length_cons]
      omega

/-- Below the quorum nothing is decrypted. -/
theorem sampleSetup_needs_quorum (loads : Bytes → R (List Char)) (sd : TallySeeds) (ctx : Context) (t : Tally) (bs : List SBallot)
    (gs : List Guardian) (quorum : Int) (all : Bool) (hq : ctx.quorum = quorum) (dm : DM)
    (h : sampleSetup E loads sd ctx t bs gs quorum all = .ok dm) (maxE : Nat) (m : Manifest) (pts : List (String × PlaintextTally))
    (hp : dm.plaintextBallots E maxE ctx bs m = .ok (some pts)) : quorum ≤ gs.length := by
  by_contra hc
  unfold sampleSetup at h
  cases all with
  | false =>
    have := (C66_below_quorum loads sd ctx t bs (gs.take quorum.toNat) (gs.map Guardian.shareKey) (by
      have : (gs.take quorum.toNat).length ≤ gs.length := List.length_take_le' _ _
      omega) dm (by simpa using h) maxE m).2
    rw [this] at hp
    cases hp
  | true =>
    have h : performDecryptionSetup E sd ctx t bs gs DM.init = .ok dm := by simpa using h
    rw [performDecryptionSetup_eq] at h
    have hle := announceAvailable_length sd ctx t bs gs _ _ h
    have hcomp : dm.announcementComplete ctx = false := by
      by_contra hc'
      have := ((C48_complete_iff dm ctx).1 (by simpa using hc')).1
      simp only [DM.init, List.length_nil] at hle
      omega
    unfold DM.plaintextBallots at hp
    simp [hcomp] at hp

/-- The rest of a run, once its ballots are encrypted. -/
theorem sample_core (hv : E.P.Valid) (hpq : (E.P.q - 1) * (E.P.q - 1) < E.P.p)
    (loads : Bytes → R (List Char)) (quorum : Nat) (hquorum : 0 < quorum)
    (rands : String → List (Nat × Nat)) (kps : List ElectionKeyPair) (ht : Team E quorum rands kps)
    (horders : (kps.map (fun kp => kp.sequenceOrder)).Nodup) (sd : TallySeeds) (ctx : Context)
    (maxE : Nat) (hmaxE : 1 ≤ maxE) (json : ContestData → Bytes) (m : Manifest) (im : InternalManifest) (he : ElectionReady E m im)
    (hctx : ctx = makeContext E kps.length quorum (combinePublicKeys E.P (kps.map (fun kp => kp.share.key)))
      (hashElems E [.list ((kps.flatMap (fun kp => kp.share.commitments)).map HArg.elem)]) (m.cryptoHash E))
    (gs : List Guardian) (hequip : List.Forall₂ (Guardian.Equipped E loads rands kps) gs kps)
    (device : Device) (plain : List PlaintextBallot) (rnd : Nat → Nat × Int) (encrypted : List CBallot)
    (henc : encryptVotes E json im ctx device (plain.zipIdx.map (fun e => (e.1, rnd e.2))) = .ok encrypted)
    (hstyle : ∀ b ∈ plain, ∃ d, im.StyleHas b.styleId d) (rate : Int) (drawn : Nat → Nat)
    (hsmall : (sampleCast rate drawn plain).length < E.P.q) (hmax : (sampleCast rate drawn plain).length ≤ maxE) :
    encrypted.map (fun b => b.objectId) = plain.map (fun b => b.objectId) ∧
    ∃ submitted store, (∀ x, sampleSubmit E im ctx rate drawn 0 encrypted [] = .ok x ↔
      (plain.map (fun b => b.objectId)).Nodup ∧ x = (submitted, store)) ∧
      ((plain.map (fun b => b.objectId)).Nodup → submitted.map (fun b => (b.objectId, b.state))
        = plain.zipIdx.map (fun e => (e.1.objectId, if ((drawn e.2 % 101 : Nat) : Int) < rate then .spoiled else .cast)) ∧
      (quorum ≤ kps.length → ∀ all, ∃ t dm pt pts L, tallyBallots E im ctx true store = .ok (some t) ∧
        sampleSetup E loads sd ctx t ((getBallots store (some .spoiled)).map (fun e => e.2)) gs quorum all = .ok dm ∧
        dm.plaintextTally E maxE ctx t m = .ok (some pt) ∧
        dm.plaintextBallots E maxE ctx ((getBallots store (some .spoiled)).map (fun e => e.2)) m = .ok (some pts) ∧
        lagrangeForGuardians E.P (dm.available.map (·.2)) = .ok L ∧
        ∀ (constants : Constants) (devices : List Device) (ext : Option (List (String × String))) (v : RecordView),
          constants.params = E.P →
          v.Of (exportRecord m ctx ext constants devices submitted (pts.map (fun e => e.2)) t.publish
            pt (some (gs.map Guardian.publish)) L) →
          v.QuorumAudited E ∧ (all = true → v.Audited E) ∧
            v.Publishes im (sampleCast rate drawn plain) (sampleSpoiled rate drawn plain))) := by
  obtain ⟨vs0, rfl, hplain0, hof⟩ := encryptLoop_sound json im ctx none _ _ _ henc
  obtain ⟨vs, e1, e2, hencr, hst⟩ := give_states rate drawn vs0 (fun v hv' => (hof v hv').1) 0
  rw [← e1]
  have hplain : vs.map (fun v => v.plain) = plain := by
    rw [e2, hplain0, List.map_map]
    exact List.zipIdx_map_fst 0 plain
  subst hplain
  have hids : (vs.map (fun v => v.plain)).map (fun b => b.objectId) = vs.map (fun v => v.plain.objectId) := by rw [List.map_map]; rfl
  have hres : isValidResidue E.P ctx.elgamalPublicKey = true := by
    have := combined_residue hv (ht.sharedKeys hv horders)
    rw [List.map_map] at this
    rw [hctx]
    exact this
  have hvs : ∀ v ∈ vs, ∃ d, im.StyleHas v.plain.styleId d := fun v hv' => hstyle v.plain (List.mem_map_of_mem hv')
  have hvalid := fun v (hv' : v ∈ vs) => encrypted_valid hv hpq he hres (hencr v hv') (hvs v hv')
  obtain ⟨hcast, hspoil⟩ := hst.parts
  refine ⟨?_, vs.map (fun v => submitBallot E v.enc v.state), vs.map (fun v => (v.plain.objectId, submitBallot E v.enc v.state)), fun x => ?_, fun hnd => ?_⟩
  · rw [hids, List.map_map]
    exact List.map_congr_left (fun v hv' => (hvalid v hv').1)
  · rw [sampleSubmit_iff im ctx rate drawn vs 0 (fun v hv' => (hvalid v hv').1) (fun v hv' => (hvalid v hv').2) hst [] x, hids]
    simp only [dkeys, List.map_nil, List.not_mem_nil, not_false_eq_true, implies_true, true_and, List.nil_append]
  · rw [hids] at hnd
    refine ⟨?_, fun hmany all => ?_⟩
    · rw [List.map_map]
      have hgen : ∀ (l : List VotedBallot) (i : Nat), StatesFrom rate drawn i l → (∀ v ∈ l, v.enc.objectId = v.plain.objectId) →
          l.map ((fun b : SBallot => (b.objectId, b.state)) ∘ fun v => submitBallot E v.enc v.state)
            = ((l.map (fun v => v.plain)).zipIdx i).map
              (fun e => (e.1.objectId, if ((drawn e.2 % 101 : Nat) : Int) < rate then BallotBoxState.spoiled else .cast)) := by
        intro l
        induction l with
        | nil => intro i _ _; rfl
        | cons v l ih =>
          intro i h1 h2
          rw [List.map_cons, List.map_cons, List.zipIdx_cons, List.map_cons, ih (i + 1) h1.2 (fun v hv' => h2 v (List.mem_cons_of_mem _ hv'))]
          congr 1
          show (v.enc.objectId, v.state) = _
          rw [h2 v List.mem_cons_self, h1.1]
      exact hgen vs 0 hst (fun v hv' => (hvalid v hv').1)
    · have hc : (vs.filter (fun v => decide (v.state = .cast))).map (fun v => v.plain) = sampleCast rate drawn (vs.map (fun v => v.plain)) := hcast
      have hs : (vs.filter (fun v => decide (v.state = .spoiled))).map (fun v => v.plain) = sampleSpoiled rate drawn (vs.map (fun v => v.plain)) := hspoil
      have hlen : (vs.filter (fun v => decide (v.state = .cast))).length = (sampleCast rate drawn (vs.map (fun v => v.plain))).length := by
        rw [← hc, List.length_map]
      obtain ⟨t, dm, pt, pts, L, r1, r2, r3, r4, r5, r6⟩ := sample_rest hv hpq loads quorum hquorum rands kps ht horders sd ctx maxE hmaxE
        json m im he hctx gs hequip hmany vs hnd (fun v hv' => ⟨hencr v hv', hvs v hv'⟩) hst.either (by rw [hlen]; exact hsmall)
        (by rw [hlen]; exact hmax) all
      have hstored : stored E vs = vs.map (fun v => (v.plain.objectId, submitBallot E v.enc v.state)) := by
        unfold stored
        rw [firsts_of_nodup vs hnd]
      have hget : (getBallots (vs.map (fun v => (v.plain.objectId, submitBallot E v.enc v.state))) (some .spoiled)).map (fun e => e.2)
          = (vs.filter (fun v => decide (v.state = .spoiled))).map (fun v => submitBallot E v.enc v.state) := by
        unfold getBallots
        rw [List.filter_map, List.map_map]
        rfl
      rw [hstored] at r1
      rw [hget]
      refine ⟨t, dm, pt, pts, L, r1, r2, r3, r4, r5, ?_⟩
      rw [← hc, ← hs]
      exact r6

/-! ### Whole runs -/

theorem writeAll_eq {α : Type} (pre : String) (id : α → String) (l : List α) (hn : (l.map id).Nodup) :
    writeAll pre id l = l.map (fun x => (pre ++ id x ++ ".json", x)) := by
  unfold writeAll
  rw [foldl_dset_fresh (fun x => pre ++ id x ++ ".json") l [] ?_ (by simp [dkeys]), List.nil_append]
  have : l.map (fun x => pre ++ id x ++ ".json") = (l.map id).map (fun n => pre ++ n ++ ".json") := by rw [List.map_map]; rfl
  rw [this]
  exact hn.map (fun a b h => name_inj h)

theorem secrets_key (hv : E.P.Valid) {quorum : Nat} {rands : String → List (Nat × Nat)} {kps : List ElectionKeyPair}
    (ht : Team E quorum rands kps) :
    combinePublicKeys E.P (kps.map (fun kp => kp.share.key)) = E.P.g ^ (kps.map (fun kp => kp.keyPair.secret)).sum % E.P.p := by
  rw [combinePublicKeys_prod hv.one_lt_p]
  have : ∀ l : List ElectionKeyPair, (∀ kp ∈ l, kp ∈ kps) →
      (l.map (fun kp => kp.share.key)).prod % E.P.p = E.P.g ^ (l.map (fun kp => kp.keyPair.secret)).sum % E.P.p := by
    intro l
    induction l with
    | nil => intro _; rfl
    | cons kp l ih =>
      intro h
      have h1 : kp.share.key = E.P.g ^ kp.keyPair.secret % E.P.p := (C47_key_pair (ht.generated kp (h kp List.mem_cons_self))).2.2.2.2
      rw [List.map_cons, List.map_cons, List.prod_cons, List.sum_cons, pow_add, Nat.mul_mod, ih (fun kp hk => h kp (List.mem_cons_of_mem _ hk)), h1,
        Nat.mod_mod, ← Nat.mul_mod]
  exact this kps (fun _ h => h)

/-- C89 What a run of the sample generator makes, whenever it returns, with any random numbers.  The ids of the ballots were distinct and there
were enough guardians.  The ballots have the drawn ids, one style of the manifest each, the contests of this style, and in every contest at
least one vote and at most one for each seat.  They are submitted in this order; those for which the number drawn from 0 to 100 is below the spoil rate
are spoiled, the others cast.  A record is exported.  Every view of it stands the audit for records that a quorum decrypted, and when all
guardians took part the stricter audit; it publishes the sums of the votes of the cast ballots, and the spoiled ballots with their votes.  The
private data are exported if and only if asked for: a file for each guardian, whose secrets together are the secret key of the election, a file for
each ballot, and a file for each encrypted ballot.
Partial: a positive quorum; hypotheses as `C74_e2e_sound_partial`. -/
theorem C89_sound_partial (hv : E.P.Valid) (hpq : (E.P.q - 1) * (E.P.q - 1) < E.P.p) (hlen : HmacLen E)
    (loads : Bytes → R (List Char)) (hl : ReadsCoordinate loads) (hq : E.P.q ≤ 256 ^ 246) (json : ContestData → Bytes)
    (maxE : Nat) (hmaxE : 1 ≤ maxE) (constants : Constants) (hk : constants.params = E.P) (device : Device) (rnd : SampleRandom) (n quorum : Nat)
    (hquorum : 0 < quorum) (hn : n < E.P.q) (hpow : ∀ i < quorum, n ^ i < E.P.p) (hr : ∀ i < n, (rnd.polynomials i).length = quorum)
    (m : Manifest) (im : InternalManifest) (he : ElectionReady E m im) (hstyles : ∀ s ∈ im.ballotStyles, ∃ d, im.StyleHas s.objectId d)
    (rate : Int) (all priv : Bool) (hsmall : (sampleCast rate rnd.spoil rnd.draws).length < E.P.q)
    (hmax : (sampleCast rate rnd.spoil rnd.draws).length ≤ maxE) (r : SampleResult)
    (h : sampleRun E loads json maxE constants device rnd n quorum m rate all priv = .ok r) :
    (rnd.draws.map (fun d => d.id)).Nodup ∧ quorum ≤ n ∧
    r.plain.map (fun b => b.objectId) = rnd.draws.map (fun d => d.id) ∧
    (∀ b ∈ r.plain, b.styleId ∈ im.ballotStyles.map BallotStyle.objectId ∧ b.FilledIn im false true) ∧
    r.submitted.map (fun b => (b.objectId, b.state))
      = rnd.draws.zipIdx.map (fun e => (e.1.id, if ((rnd.spoil e.2 % 101 : Nat) : Int) < rate then .spoiled else .cast)) ∧
    (∃ rec, r.record = some rec ∧ ∀ v : RecordView, v.Of rec →
      v.QuorumAudited E ∧ (all = true → v.Audited E) ∧
        v.Publishes im (sampleCast rate rnd.spoil r.plain) (sampleSpoiled rate rnd.spoil r.plain)) ∧
    r.secret.isSome = priv ∧
    ∀ s, r.secret = some s →
      s.guardians.length = n ∧
      E.P.g ^ (s.guardians.map (fun e => e.2.electionKeys.keyPair.secret)).sum % E.P.p = r.election.context.elgamalPublicKey ∧
      s.plaintextBallots = r.plain.map (fun b => ("plaintext_ballot_" ++ b.objectId ++ ".json", b)) ∧
      s.ciphertextBallots = r.encrypted.map (fun b => ("ciphertext_ballot_" ++ b.objectId ++ ".json", b)) ∧
      r.encrypted.map (fun b => b.objectId) = r.plain.map (fun b => b.objectId) := by
  obtain ⟨gs, ctx, kps, rands', hel, hnum, ht, horders, hequip, hctx⟩ := sampleElection_setup hv hlen loads hl hq n quorum hquorum hn hpow
    rnd.polynomials hr rnd.backups m im he
  unfold sampleRun at h
  simp only [hel, bindOk] at h
  obtain ⟨el, hel', plain, hplain, encrypted, henc, ⟨submitted, store⟩, hsub, t', ht', t, htt, dm, hdm, pt, hpt, pts', hpts', pts, hpts, h⟩ := h
  cases hel'
  dsimp only at hplain henc hsub ht' htt hdm hpt hpts' h
  obtain ⟨hids, hfill⟩ := C87_ballots im rnd.draws none false true plain hplain
  have hpl : plain.length = rnd.draws.length := by simpa using congrArg List.length hids
  have hstyle : ∀ b ∈ plain, ∃ d, im.StyleHas b.styleId d := by
    intro b hb
    obtain ⟨-, hmem⟩ := (hfill b hb).1
    obtain ⟨s, hs, hse⟩ := List.mem_map.1 hmem
    rw [← hse]
    exact hstyles s hs
  obtain ⟨hei, sub', store', hsubmit, hcore⟩ := sample_core hv hpq loads quorum hquorum rands' kps ht horders rnd.seeds ctx maxE hmaxE json m im he hctx
    gs hequip device plain rnd.ballots encrypted henc hstyle rate rnd.spoil (by rw [sample_length rate rnd.spoil plain rnd.draws hpl]; exact hsmall)
    (by rw [sample_length rate rnd.spoil plain rnd.draws hpl]; exact hmax)
  obtain ⟨hnd, hx⟩ := (hsubmit _).1 hsub
  cases hx
  obtain ⟨hstates, hrest⟩ := hcore hnd
  have hctxq : ctx.quorum = (quorum : Int) := by rw [hctx]; rfl
  have hgl : gs.length = kps.length := hequip.length_eq
  obtain rfl : pts' = some pts := by cases pts' <;> simp_all [getOptional]
  have hmany : quorum ≤ n := by
    have := sampleSetup_needs_quorum loads rnd.seeds ctx t _ gs quorum all hctxq dm hdm maxE m pts hpts'
    omega
  obtain ⟨t1, dm1, pt1, pts1, L1, r1, r2, r3, r4, r5, r6⟩ := hrest (by rw [hnum]; exact hmany) all
  rw [r1] at ht'
  cases ht'
  cases htt
  rw [r2] at hdm
  cases hdm
  rw [r3] at hpt
  cases hpt
  rw [r4] at hpts'
  cases hpts'
  simp only [r5, bindOk, pureOk] at h
  obtain ⟨L, hL, h⟩ := h
  cases hL
  subst h
  have hgnd : (gs.map Guardian.id).Nodup := by
    have : gs.map Guardian.id = kps.map (fun kp => kp.ownerId) := by
      rw [← equipped_own hequip, List.map_map]
      rfl
    rw [this]
    exact ht.ids
  refine ⟨hids ▸ hnd, hmany, hids, fun b hb => ⟨(hfill b hb).1.2, (hfill b hb).2⟩, ?_, ⟨_, rfl, fun v hof => r6 constants [device] none v hk hof⟩, ?_, ?_⟩
  · dsimp only
    rw [hstates]
    have : ∀ (as : List PlaintextBallot) (ds : List BallotDraws) (i : Nat), as.map (fun b => b.objectId) = ds.map (fun d => d.id) →
        (as.zipIdx i).map (fun e => (e.1.objectId, if ((rnd.spoil e.2 % 101 : Nat) : Int) < rate then BallotBoxState.spoiled else .cast))
          = (ds.zipIdx i).map (fun e => (e.1.id, if ((rnd.spoil e.2 % 101 : Nat) : Int) < rate then .spoiled else .cast)) := by
      intro as
      induction as with
      | nil => intro ds i h; cases ds with
        | nil => rfl
        | cons d ds => cases h
      | cons a as ih => intro ds i h; cases ds with
        | nil => cases h
        | cons d ds =>
          simp only [List.map_cons, List.cons.injEq] at h
          simp only [List.zipIdx_cons, List.map_cons, h.1, ih ds (i + 1) h.2]
    exact this plain rnd.draws 0 hids
  · cases priv <;> rfl
  · intro s hs
    cases priv with
    | false => cases hs
    | true =>
      cases hs
      have hg : ((exportPrivateData plain encrypted (gs.map Guardian.exportPrivate)).guardians).map Prod.snd = gs.map Guardian.exportPrivate :=
        writeAll_snd _ _ _ (by rw [List.map_map]; exact hgnd)
      refine ⟨?_, ?_, ?_, ?_, hei⟩
      · have := congrArg List.length hg
        rw [List.length_map, List.length_map] at this
        rw [this, hgl, hnum]
      · have h1 : ∀ l : List (String × PrivateGuardianRecord), l.map (fun e => e.2.electionKeys.keyPair.secret)
            = (l.map Prod.snd).map (fun r => r.electionKeys.keyPair.secret) := fun l => by rw [List.map_map]; rfl
        rw [h1, hg, List.map_map]
        show E.P.g ^ (gs.map ((fun kp : ElectionKeyPair => kp.keyPair.secret) ∘ fun g => g.electionKeys)).sum % E.P.p = ctx.elgamalPublicKey
        rw [← List.map_map, equipped_own hequip, ← secrets_key hv ht, hctx]
        rfl
      · exact writeAll_eq _ _ _ hnd
      · exact writeAll_eq _ _ _ (hei ▸ hnd)

/-- C89 and it returns if and only if the ids are distinct and there are enough guardians.
Partial: as above; the manifest has a ballot style, no contest allows more votes than it has seats (`C87_votes_allowed_fails`) or has no seats
(`C87_no_seats_fails`), the orders are not negative, and no nonce is 0. -/
theorem C89_returns_iff_partial (hv : E.P.Valid) (hpq : (E.P.q - 1) * (E.P.q - 1) < E.P.p) (hlen : HmacLen E)
    (loads : Bytes → R (List Char)) (hl : ReadsCoordinate loads) (hq : E.P.q ≤ 256 ^ 246)
    (maxE : Nat) (hmaxE : 1 ≤ maxE) (constants : Constants) (hk : constants.params = E.P) (device : Device) (rnd : SampleRandom) (n quorum : Nat)
    (hquorum : 0 < quorum) (hn : n < E.P.q) (hpow : ∀ i < quorum, n ^ i < E.P.p) (hr : ∀ i < n, (rnd.polynomials i).length = quorum)
    (m : Manifest) (im : InternalManifest) (he : ElectionReady E m im) (hstyles : ∀ s ∈ im.ballotStyles, ∃ d, im.StyleHas s.objectId d)
    (hsome : im.ballotStyles ≠ []) (hseats : ∀ d ∈ im.contests, d.numberElected ≠ 0)
    (hall : ∀ d ∈ im.contests, ∀ v, d.votesAllowed = some v → v ≤ d.numberElected) (ho : ∀ d ∈ im.contests, OrdersUsable d)
    (hnonces : ∀ e ∈ rnd.draws.zipIdx, ∀ d ∈ im.contests, NoncesUsable E d (nonceSeed E im.manifestHash e.1.id (rnd.ballots e.2).1))
    (rate : Int) (all priv : Bool) (hsmall : (sampleCast rate rnd.spoil rnd.draws).length < E.P.q)
    (hmax : (sampleCast rate rnd.spoil rnd.draws).length ≤ maxE) :
    (∃ r, sampleRun E loads contestDataJson maxE constants device rnd n quorum m rate all priv = .ok r) ↔
      (rnd.draws.map (fun d => d.id)).Nodup ∧ quorum ≤ n := by
  constructor
  · rintro ⟨r, h⟩
    obtain ⟨a, b, -⟩ := C89_sound_partial hv hpq hlen loads hl hq contestDataJson maxE hmaxE constants hk device rnd n quorum hquorum hn hpow hr m im
      he hstyles rate all priv hsmall hmax r h
    exact ⟨a, b⟩
  · rintro ⟨hnd, hmany⟩
    obtain ⟨gs, ctx, kps, rands', hel, hnum, ht, horders, hequip, hctx⟩ := sampleElection_setup hv hlen loads hl hq n quorum hquorum hn hpow
      rnd.polynomials hr rnd.backups m im he
    obtain ⟨im', him', huniq, hsorted, -, -, -, hvalid⟩ := C40_unique_ids_partial E m he.manifest
    rw [he.internal] at him'
    cases him'
    have hres : isValidResidue E.P ctx.elgamalPublicKey = true := by
      have := combined_residue hv (ht.sharedKeys hv horders)
      rw [List.map_map] at this
      rw [hctx]
      exact this
    obtain ⟨s, hs⟩ := List.exists_mem_of_ne_nil _ hsome
    obtain ⟨plain, hplain⟩ := C87_returns_partial im rnd.draws none false true
      (fun d hd => ⟨(hvalid d hd).1, fun h0 => absurd h0 (hseats d hd)⟩) ⟨s.objectId, (fun _ h => by cases h), List.mem_map_of_mem hs⟩
    obtain ⟨hids, hfill⟩ := C87_ballots im rnd.draws none false true plain hplain
    have hpl : plain.length = rnd.draws.length := by simpa using congrArg List.length hids
    have hstyle : ∀ b ∈ plain, ∃ d, im.StyleHas b.styleId d := by
      intro b hb
      obtain ⟨-, hmem⟩ := (hfill b hb).1
      obtain ⟨s, hs, hse⟩ := List.mem_map.1 hmem
      rw [← hse]
      exact hstyles s hs
    obtain ⟨encrypted, henc⟩ := encryptLoop_ok contestDataJson im ctx (plain.zipIdx.map (fun e => (e.1, rnd.ballots e.2))) (device.getHash E)
      (fun c hc seed => by
        obtain ⟨e, he', rfl⟩ := List.mem_map.1 hc
        have hb : e.1 ∈ plain := by
          have := List.mem_map_of_mem (f := Prod.fst) he'
          rwa [List.zipIdx_map_fst] at this
        obtain ⟨x, hx, -⟩ := C28_returns_partial hv hpq hlen contestDataJson e.1 im ctx seed (rnd.ballots e.2).1 (rnd.ballots e.2).2 false hres
          (fun d hd => by
            obtain ⟨-, -, -, -, hd, -⟩ := hd
            exact he.seats d hd) hsorted (hstyle _ hb) (fun d hd => by
            have hd' : d ∈ im.contests := by obtain ⟨_, _, _, _, hd, _⟩ := hd; exact hd
            refine C87_encryptable_partial im huniq false true e.1 (hfill e.1 hb).2 d hd (hvalid d hd').1 (hvalid d hd').2 (hall d hd') (ho d hd') _ ?_
            obtain ⟨hi, hei⟩ := List.mem_zipIdx' he'
            have hid : e.1.objectId = (rnd.draws[e.2]'(by omega)).id := by
              have := congrArg (fun l => l[e.2]?) hids
              simp only [List.getElem?_map, List.getElem?_eq_getElem hi, List.getElem?_eq_getElem (show e.2 < rnd.draws.length by omega),
                Option.map_some, Option.some.injEq] at this
              rw [hei]
              exact this
            rw [hid]
            exact hnonces (rnd.draws[e.2]'(by omega), e.2) (List.mem_zipIdx_iff_getElem?.2 (List.getElem?_eq_getElem _)) d hd')
        exact ⟨x, hx⟩)
    obtain ⟨-, submitted, store, hsubmit, hcore⟩ := sample_core hv hpq loads quorum hquorum rands' kps ht horders rnd.seeds ctx maxE hmaxE contestDataJson
      m im he hctx gs hequip device plain rnd.ballots encrypted henc hstyle rate rnd.spoil
      (by rw [sample_length rate rnd.spoil plain rnd.draws hpl]; exact hsmall)
      (by rw [sample_length rate rnd.spoil plain rnd.draws hpl]; exact hmax)
    have hnd' : (plain.map (fun b => b.objectId)).Nodup := hids ▸ hnd
    obtain ⟨-, hrest⟩ := hcore hnd'
    obtain ⟨t, dm, pt, pts, L, r1, r2, r3, r4, r5, -⟩ := hrest (by rw [hnum]; exact hmany) all
    have hsub := (hsubmit _).2 ⟨hnd', rfl⟩
    refine ⟨⟨⟨m, im, ctx, none, gs.map Guardian.publish, gs⟩, plain, encrypted, submitted,
      some (exportRecord m ctx none constants [device] submitted (pts.map (·.2)) t.publish pt (some (gs.map Guardian.publish)) L),
      if priv then some (exportPrivateData plain encrypted (gs.map Guardian.exportPrivate)) else none⟩, ?_⟩
    unfold sampleRun encryptVotes
    simp only [hel, hplain, henc, hsub, r1, r2, r3, r4, r5, getOptional, bind, Except.bind, pure, Except.pure]

/-! ### The spoil rate -/

/-- C89 A rate of 0 or less spoils nothing, and a rate above 100 everything. -/
theorem C89_rate_bounds {α : Type} (rate : Int) (drawn : Nat → Nat) (bs : List α) :
    (rate ≤ 0 → sampleSpoiled rate drawn bs = [] ∧ sampleCast rate drawn bs = bs) ∧
    (101 ≤ rate → sampleSpoiled rate drawn bs = bs ∧ sampleCast rate drawn bs = []) := by
  have h1 : ∀ p : α × Nat → Bool, (∀ e, p e = false) → (bs.zipIdx.filter p).map Prod.fst = [] := fun p hp => by
    rw [List.filter_eq_nil_iff.2 (fun e _ => by simp [hp e])]
    rfl
  have h2 : ∀ p : α × Nat → Bool, (∀ e, p e = true) → (bs.zipIdx.filter p).map Prod.fst = bs := fun p hp => by
    rw [List.filter_eq_self.2 (fun e _ => hp e)]
    exact List.zipIdx_map_fst 0 bs
  refine ⟨fun h => ⟨h1 _ (fun e => ?_), h2 _ (fun e => ?_)⟩, fun h => ⟨h2 _ (fun e => ?_), h1 _ (fun e => ?_)⟩⟩
  · simp only [decide_eq_false_iff_not]; omega
  · simp only [decide_eq_true_eq]; omega
  · simp only [decide_eq_true_eq]; omega
  · simp only [decide_eq_false_iff_not]; omega

/-- C89 Every ballot is either cast or spoiled. -/
theorem C89_parted {α : Type} (rate : Int) (drawn : Nat → Nat) (bs : List α) :
    (sampleCast rate drawn bs ++ sampleSpoiled rate drawn bs).Perm bs := by
  have h : bs = bs.zipIdx.map Prod.fst := (List.zipIdx_map_fst 0 bs).symm
  unfold sampleCast sampleSpoiled
  rw [← List.map_append]
  conv_rhs => rw [h]
  refine List.Perm.map _ ?_
  have : (fun e : α × Nat => decide (((drawn e.2 % 101 : Nat) : Int) < rate)) = fun e => !decide (rate ≤ ((drawn e.2 % 101 : Nat) : Int)) := by
    funext e
    by_cases hc : ((drawn e.2 % 101 : Nat) : Int) < rate
    · rw [decide_eq_true hc, decide_eq_false (by omega)]; rfl
    · rw [decide_eq_false hc, decide_eq_true (by omega)]; rfl
  rw [this]
  exact List.filter_append_perm _ _

/-- C89 The help text of the option says that the rate is a percentage from 0 to 100.  But 101 numbers can be drawn: a rate from 0 to 100 spoils a
ballot for as many of the 101 numbers as it says, and with a rate of 100 any ballot can still be cast. -/
theorem C89_spoil_rate_fails {α : Type} (bs : List α) :
    (∀ rate : Nat, rate ≤ 100 → ((List.range 101).filter (fun k => decide (sampleSpoiled rate (fun _ => k) [()] = [()]))).length = rate) ∧
    ∃ drawn, sampleCast 100 drawn bs = bs := by
  refine ⟨fun rate hr => ?_, fun _ => 100, ?_⟩
  · have h1 : (List.range 101).filter (fun k => decide (sampleSpoiled rate (fun _ => k) [()] = [()])) = (List.range 101).filter (fun k => decide (k < rate)) := by
      refine List.filter_congr (fun k hk => ?_)
      have hk := List.mem_range.1 hk
      have : (((k % 101 : Nat) : Int) < (rate : Int)) ↔ k < rate := by omega
      simp only [sampleSpoiled, List.zipIdx_cons, List.zipIdx_nil, List.filter_cons, List.filter_nil, decide_eq_true_eq, this]
      by_cases hc : k < rate
      · simp [hc]
      · simp [hc]
    have h2 : List.range 101 = List.range rate ++ (List.range (101 - rate)).map (rate + ·) := by
      rw [← List.range_add]
      congr 1
      omega
    rw [h1, h2, List.filter_append, List.filter_eq_self.2 (fun k hk => by simpa using hk), List.filter_eq_nil_iff.2 ?_]
    · simp
    · intro k hk
      obtain ⟨x, -, rfl⟩ := List.mem_map.1 hk
      simp
  · unfold sampleCast
    have : ∀ e ∈ bs.zipIdx, decide ((100 : Int) ≤ (((fun _ => 100) e.2 % 101 : Nat) : Int)) = true := fun e _ => rfl
    rw [List.filter_eq_self.2 this]
    exact List.zipIdx_map_fst 0 bs

/-! ### The votes -/

theorem filled_bounds {b : PlaintextBallot} {im : InternalManifest} (h : b.FilledIn im false true) (hid : im.UniqueIds)
    {d : ContestWithPlaceholders} (hd : d ∈ im.contests) (hv : d.isValid = true) (h1 : 1 ≤ d.numberElected) :
    ∃ s : Nat, (d.ballotSelections.map (fun sd => b.votesFor im d sd.objectId)).sum = s ∧
      if im.onStyle b.styleId d then 1 ≤ s ∧ (s : Int) ≤ d.numberElected else s = 0 := by
  refine ⟨_, rfl, ?_⟩
  unfold PlaintextBallot.votesFor
  by_cases hs : im.onStyle b.styleId d = true
  · simp only [if_pos hs]
    obtain ⟨k, hm, ha⟩ := FilledIn.voted h hid hd hs
    have hk : 1 ≤ k ∧ k ≤ d.numberElected := by
      unfold VotesAsked at ha
      simp at ha
      omega
    have hov := Marked.not_over hm hk.2 (fun v hva => valid_allowed hv hva)
    have := hid.2 d hd
    rw [List.map_append] at this
    have hsum := marked_sum hm (List.nodup_append.1 this).1
    unfold PlaintextContest.effective
    rw [hov]
    rw [← hsum] at hk
    exact ⟨by exact_mod_cast hk.1, hk.2⟩
  · simp only [if_neg hs]
    simp

/-- C89 The votes that the tally of a sample has for a contest: at least one for each cast ballot that has the contest, and at most as many as there are
seats. -/
theorem C89_votes (im : InternalManifest) (hid : im.UniqueIds) (cast : List PlaintextBallot) (hf : ∀ b ∈ cast, b.FilledIn im false true)
    (pt : PlaintextTally) (hp : pt.Counts im cast) (d : ContestWithPlaceholders) (hd : d ∈ im.contests) (hv : d.isValid = true)
    (h1 : 1 ≤ d.numberElected) :
    ∃ counts : List Nat, List.Forall₂ (fun sd n => pt.Reports d.objectId sd.objectId n) d.ballotSelections counts ∧
      (cast.filter (fun b => im.onStyle b.styleId d)).length ≤ counts.sum ∧
      (counts.sum : Int) ≤ d.numberElected * (cast.filter (fun b => im.onStyle b.styleId d)).length := by
  refine ⟨d.ballotSelections.map (fun sd => (cast.map (fun b => b.votesFor im d sd.objectId)).sum), ?_, ?_⟩
  · rw [List.forall₂_map_right_iff, List.forall₂_same]
    exact fun sd hsd => (hp _ _ _).2 ⟨d, hd, rfl, List.mem_map_of_mem hsd, rfl⟩
  · clear hp
    induction cast with
    | nil => simp
    | cons b cast ih =>
      obtain ⟨ih1, ih2⟩ := ih (fun b hb => hf b (List.mem_cons_of_mem _ hb))
      obtain ⟨s, hse, hb⟩ := filled_bounds (hf b List.mem_cons_self) hid hd hv h1
      have e : (d.ballotSelections.map (fun sd => ((b :: cast).map (fun b => b.votesFor im d sd.objectId)).sum)).sum
          = (d.ballotSelections.map (fun sd => b.votesFor im d sd.objectId)).sum
            + (d.ballotSelections.map (fun sd => (cast.map (fun b => b.votesFor im d sd.objectId)).sum)).sum := by
        generalize d.ballotSelections = l
        induction l with
        | nil => rfl
        | cons x l ih =>
          simp only [List.map_cons, List.sum_cons] at ih ⊢
          omega
      rw [e, hse, List.filter_cons]
      generalize (d.ballotSelections.map (fun sd => (cast.map (fun b => b.votesFor im d sd.objectId)).sum)).sum = t at ih1 ih2
      by_cases hs : im.onStyle b.styleId d = true
      · rw [if_pos hs] at hb
        rw [if_pos hs, List.length_cons, Nat.cast_add, Nat.cast_add, mul_add, Nat.cast_one, mul_one]
        omega
      · rw [if_neg hs] at hb
        rw [if_neg hs, hb, Nat.zero_add]
        exact ⟨ih1, ih2⟩

/-! ### Runs that raise -/

/-- C89 A manifest that is not valid raises at once. -/
theorem C89_invalid_manifest (loads : Bytes → R (List Char)) (json : ContestData → Bytes) (maxE : Nat) (constants : Constants) (device : Device)
    (rnd : SampleRandom) (n quorum : Int) (m : Manifest) (rate : Int) (all priv : Bool) (r : SampleResult) (hm : m.isValid = false) :
    sampleRun E loads json maxE constants device rnd n quorum m rate all priv ≠ .ok r := by
  intro h
  unfold sampleRun sampleElection at h
  simp only [bindOk] at h
  obtain ⟨el, ⟨b, hb, gs, -, x, -, jk, -, z, hz, y, hy, -⟩, -⟩ := h
  unfold ElectionBuilder.new at hb
  simp only [bindOk, pureOk] at hb
  obtain ⟨im, -, rfl⟩ := hb
  have : (((ElectionBuilder.mk n quorum m im none none none).setPublicKey jk.jointPublicKey).setCommitmentHash jk.commitmentHash).build E = .ok none := by
    unfold ElectionBuilder.build ElectionBuilder.setCommitmentHash ElectionBuilder.setPublicKey
    simp [hm]
  rw [this] at hz
  cases hz
  simp [getOptional] at hy

/-- C89 What is published does not depend on whether the private data are exported. -/
theorem C89_public_same (loads : Bytes → R (List Char)) (json : ContestData → Bytes) (maxE : Nat) (constants : Constants) (device : Device)
    (rnd : SampleRandom) (n quorum : Int) (m : Manifest) (rate : Int) (all priv : Bool) :
    (sampleRun E loads json maxE constants device rnd n quorum m rate all priv).map (fun r => { r with secret := none })
      = sampleRun E loads json maxE constants device rnd n quorum m rate all false := by
  unfold sampleRun
  simp only [bind, Except.bind, pure, Except.pure]
  repeat' split
  all_goals first | rfl | simp_all

end EG
