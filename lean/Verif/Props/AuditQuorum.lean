import Verif.Lemmas.QuorumElection
import Verif.Props.Audit

/-!
# C88: the audit of a record when guardians were missing at the decryption
-/

namespace EG

variable {E : Env}

/-! ### What the audit shows -/

/-- C88 The numbers in an audited record, whoever made it and whoever was missing: the number shown for a selection is, modulo `q`, the
number of votes for it on all cast ballots of the record, and every selection of a spoiled ballot is shown with the number that it
encrypts; or else the hash of some proof of a share, or of a part of a recovered share, hit the one challenge with which a wrong one can be
proved.
Partial: as C76. -/
theorem C88_audit_sound_partial (hv : E.P.Valid) (v : RecordView) (h : v.QuorumAudited E) (im : InternalManifest)
    (he : ElectionReady E v.manifest im) (hreg : ∀ b ∈ v.ballots, b.toCBallot.Regular im)
    (hwf : WFContests v.encryptedTally.contests) :
    (∀ d ∈ im.contests, ∀ sd ∈ d.ballotSelections, ∃ ps, v.tally.Shows d.objectId sd.objectId ps ∧
      ∀ votes : SBallot → Nat, (∀ b ∈ v.ballots, b.state = .cast →
          b.toCBallot.Holds E.P v.context.elgamalPublicKey d.objectId sd.objectId (votes b)) →
        ps.tally ≡ ((v.ballots.filter (fun b => decide (b.state = .cast))).map votes).sum [MOD E.P.q] ∨
          ps.Lucky E v ∨ ps.LuckyPart E v) ∧
    ∀ b ∈ v.ballots, b.state = .spoiled → ∃ pt ∈ v.spoiled, pt.objectId = b.objectId ∧
      ∀ c ∈ b.contests, ∀ s ∈ c.ballotSelections, Describes v.manifest c.objectId s.objectId →
        ∃ ps, pt.Shows c.objectId s.objectId ps ∧
          ∀ n, Encrypts E.P v.context.elgamalPublicKey n s.ciphertext → ps.tally ≡ n [MOD E.P.q] ∨ ps.Lucky E v ∨ ps.LuckyPart E v :=
  core_sound hv v (h.core hv) im he hreg hwf

/-- C88 The votes in an audited record: unless some proof is lucky, every ciphertext of the ballots is a vote or none, and the record shows
these votes.
Partial: as C76, and `(q-1)² < p`. -/
theorem C88_shows_votes_partial (hv : E.P.Valid) (hpq : (E.P.q - 1) * (E.P.q - 1) < E.P.p) (v : RecordView) (h : v.QuorumAudited E)
    (im : InternalManifest) (he : ElectionReady E v.manifest im) (hreg : ∀ b ∈ v.ballots, b.toCBallot.Regular im)
    (hwf : WFContests v.encryptedTally.contests) (hl : ¬ v.Lucky E) (hlp : ¬ v.LuckyPart E) : ∃ plain, v.ShowsVotes E im plain :=
  core_shows_votes hv hpq v (h.core hv) im he hreg hwf (fun hb => hl (.inl hb)) (fun pt hpt cid sid ps hs hlk => by
    rcases hlk with hlk | hlk
    · exact hl (.inr ⟨pt, hpt, cid, sid, ps, hs, hlk⟩)
    · exact hlp ⟨pt, hpt, cid, sid, ps, hs, hlk⟩)

/-- C88 There is only one way to read the votes. -/
theorem C88_votes_unique (hv : E.P.Valid) (v : RecordView) (h : v.QuorumAudited E) (im : InternalManifest)
    (plain plain' : Ciphertext → Nat) (h1 : v.ShowsVotes E im plain) (h2 : v.ShowsVotes E im plain') :
    ∀ b ∈ v.ballots, ∀ c ∈ b.contests, ∀ s ∈ c.ballotSelections, plain s.ciphertext = plain' s.ciphertext := by
  intro b hb c hc s hs
  obtain ⟨a1, a2⟩ := h1.votes b hb c hc s hs
  obtain ⟨b1, b2⟩ := h2.votes b hb c hc s hs
  have := C04_plaintext_unique E.P hv _ _ _ (quorum_joint hv h) _ a2 b2
  have hq := hv.one_lt_q
  rwa [Nat.mod_eq_of_lt (by omega), Nat.mod_eq_of_lt (by omega)] at this

/-- C88 The share of a missing guardian in an audited record is the one that the guardian would have made: there is a secret that belongs to
the guardian's public key, and every recovered share is the ciphertext's pad to the power of it, or some part is lucky. -/
theorem C88_recovered_share (hv : E.P.Valid) (v : RecordView) (h : v.QuorumAudited E) (g : GuardianRecord) (hg : g ∈ v.guardians) :
    ∃ s, g.publicKey = E.P.g ^ s % E.P.p ∧ ∀ (c : Ciphertext) (x : DecSelection) (parts : List (String × CompSelection)),
      isValidResidue E.P c.pad = true → x.Recovered E v g c parts →
      x.share = c.pad ^ s % E.P.p ∨ ∃ e ∈ parts, e.2.Lucky E c v.context.cryptoExtendedBaseHash := by
  obtain ⟨coef, hcoef⟩ := quorum_polynomials hv h
  refine ⟨polyAt (coef g.guardianId) 0, quorum_secrets h hcoef g hg, fun c x parts hpad hr => recovered_right hv h (hcoef g hg) ?_ hpad hr⟩
  have h1 := (h.guardians g hg).2.1
  rw [hcoef g hg, List.length_map] at h1
  have h2 := h.quorum
  omega

/-- C88 A right part is never lucky: with another challenge there would be a valid proof too. -/
theorem C88_right_part_not_lucky (hv : E.P.Valid) (z : CompSelection) (message : Ciphertext) (s base : Nat)
    (hk : z.recoveryKey = E.P.g ^ s % E.P.p) (hz : z.share = message.pad ^ s % E.P.p)
    (hval : z.proof.isValid E message z.recoveryKey z.share base = true) : ¬ z.Lucky E message base := by
  intro hl
  refine C76_right_share_not_lucky hv ⟨z.objectId, z.guardianId, z.share, some z.proof, none⟩ message s base z.proof hz rfl
    (by rw [hk] at hval; exact hval) ⟨z.proof, rfl, fun E' b pf' h1 h2 h3 h4 => ?_⟩
  rw [← hk] at h4
  exact hl E' b pf' h1 h2 h3 h4

/-! ### Which records pass -/

/-- C88 A record that passes the audit of C76, where all guardians took part, passes this one, if the guardians have different sequence
orders below `q` and are at least as many as the quorum. -/
theorem C88_all_present (v : RecordView) (h : v.Audited E) (hq : v.context.quorum ≤ v.guardians.length)
    (ho : (v.guardians.map GuardianRecord.sequenceOrder).Nodup)
    (hr : ∀ g ∈ v.guardians, 0 ≤ g.sequenceOrder ∧ g.sequenceOrder < E.P.q) : v.QuorumAudited E ∧ v.available = v.guardians := by
  have hav : v.available = v.guardians := by
    unfold RecordView.available
    refine List.filter_eq_self.2 (fun g hg => ?_)
    obtain ⟨w, hw, -⟩ := h.coefficients g hg
    rw [hw]
    rfl
  have hin : ∀ (pt : PlaintextTally) cs, pt.InOrder E v cs → pt.InQuorumOrder E v cs := by
    intro pt cs hp
    refine ⟨?_, hp.shown, hp.only⟩
    rintro cid sid ps ⟨pc, h1, h2⟩ x hx
    obtain ⟨k, pf, hk, h3, h4⟩ := (C57_success_iff pt v.keys v.context).1 hp.proofs ps.message x
      ⟨(cid, pc), mem_of_dget h1, (sid, ps), mem_of_dget h2, rfl, hx⟩
    obtain ⟨g, hg, he⟩ := List.mem_map.1 (mem_of_dget hk)
    simp only [Prod.mk.injEq] at he
    refine ⟨g, hg, he.1, .inl ⟨pf, h3, ?_⟩⟩
    rw [← he.2] at h4
    exact h4
  refine ⟨?_, hav⟩
  exact {
    constants := h.constants, manifest := h.manifest, context := h.context, commitmentHash := h.commitmentHash
    guardianIds := h.guardianIds, guardians := h.guardians, jointKey := h.jointKey, ballotIds := h.ballotIds, ballots := h.ballots
    aggregation := h.aggregation
    quorum := by rw [hav]; exact hq
    orders := by rw [hav]; exact ho
    range := by rw [hav]; exact hr
    coefficients := by
      rw [hav]
      intro g hg
      obtain ⟨w, h1, h2⟩ := h.coefficients g hg
      refine ⟨w, h1, ?_⟩
      unfold RecordView.IsQuorumCoefficient
      rw [hav]
      exact h2
    tally := hin _ _ h.tally
    spoiled := fun b hb hst => by
      obtain ⟨pt, h1, h2, h3⟩ := h.spoiled b hb hst
      exact ⟨pt, h1, h2, hin _ _ h3⟩
    spoiledOnly := h.spoiledOnly, spoiledIds := h.spoiledIds }

/-- C88 Completeness: a whole election of which only some guardians, at least the quorum, hold the tally ceremony.  The guardians are created
and run the key ceremony, the builder makes the election, ballots are encrypted, cast or spoiled, and tallied; those present decrypt.
Whatever is in the exported files passes the audit, and publishes the votes of the cast ballots and every spoiled ballot.
Partial: as C68, and ballots with distinct ids. -/
theorem C88_whole_election_partial (hv : E.P.Valid) (hpq : (E.P.q - 1) * (E.P.q - 1) < E.P.p) (hlen : HmacLen E)
    (loads : Bytes → R (List Char)) (hl : ReadsCoordinate loads) (hq : E.P.q ≤ 256 ^ 246) (n quorum : Nat)
    (hquorum : 0 < quorum) (hn : n < E.P.q) (hpow : ∀ i < quorum, n ^ i < E.P.p)
    (rands : Nat → List (Nat × Nat)) (hr : ∀ i < n, (rands i).length = quorum) (nonces : String → Nat → Nat) (me : String)
    (maxE : Nat) (hmaxE : 1 ≤ maxE) (json : ContestData → Bytes) (m : Manifest) (im : InternalManifest)
    (he : ElectionReady E m im) :
    ∃ gs0 gs kcm jk b ctx, createGuardians E ⟨n, quorum⟩ rands = .ok gs0 ∧
      performFullCeremony E loads nonces gs0 (KCM.init me ⟨n, quorum⟩) = .ok (gs, kcm) ∧ kcm.publishJointKey E = some jk ∧
      ElectionBuilder.new E n quorum m = .ok b ∧
      ((b.setPublicKey jk.jointPublicKey).setCommitmentHash jk.commitmentHash).build E = .ok (some (im, ctx, none)) ∧ gs.length = n ∧
      ∀ vs : List VotedBallot, (∀ v ∈ vs, v.Encrypted E json im ctx ∧ ∃ d, im.StyleHas v.plain.styleId d) →
        (vs.map (fun v => v.plain.objectId)).Nodup → (∀ v ∈ vs, v.state = .cast ∨ v.state = .spoiled) →
        (vs.filter (fun v => decide (v.state = .cast))).length < E.P.q → (vs.filter (fun v => decide (v.state = .cast))).length ≤ maxE →
        ∀ present : List Guardian, (∀ g ∈ present, g ∈ gs) → (present.map Guardian.id).Nodup → quorum ≤ present.length →
        ∀ sd : TallySeeds, ∃ store t bs dm pt pts L, store = runBox E im ctx [] (vs.map (fun v => ⟨v.enc, v.state⟩)) ∧
          tallyBallots E im ctx true store = .ok (some t) ∧ (getBallots store (some .spoiled)).map (fun e => e.2) = bs ∧
          performCompensatedSetup E loads sd ctx t bs present (gs.map Guardian.shareKey) DM.init = .ok dm ∧
          dm.plaintextTally E maxE ctx t m = .ok (some pt) ∧ dm.plaintextBallots E maxE ctx bs m = .ok (some pts) ∧
          lagrangeForGuardians E.P (dm.available.map (·.2)) = .ok L ∧
          ∀ (constants : Constants) (devices : List Device) (ext : Option (List (String × String))) (v : RecordView),
            constants.params = E.P →
            v.Of (exportRecord m ctx ext constants devices store.all (pts.map (fun e => e.2)) t.publish pt
              (some (gs.map Guardian.publish)) L) →
            v.QuorumAudited E ∧ v.Publishes im ((vs.filter (fun v => decide (v.state = .cast))).map (fun v => v.plain))
              ((vs.filter (fun v => decide (v.state = .spoiled))).map (fun v => v.plain)) := by
  obtain ⟨gs0, gs, kcm, jk, b, ctx, kps, rands', h1, h2, h3, h4, h5, hnum, hteam, horders, hequip, hctx⟩ := election_setup hv hlen loads hl
    hq n quorum hquorum hn hpow rands hr nonces me m im ((C41_iff_partial m).2 he.manifest.ok) he.internal
  have hown := equipped_own hequip
  refine ⟨gs0, gs, kcm, jk, b, ctx, h1, h2, h3, h4, h5, by rw [← hnum, ← hown, List.length_map], ?_⟩
  intro vs hvs hnd hst hsmall hmax present hpin hpn hmany sd
  obtain ⟨avs, hav, hpres⟩ := C66_ceremony_present gs hequip present hpin hpn
  have hlav : quorum ≤ avs.length := by
    have := congrArg List.length hav
    rw [List.length_map] at this
    omega
  have hshare : gs.map Guardian.shareKey = kps.map (fun kp => kp.share) := by
    rw [← hown, List.map_map]
    rfl
  have hpub : gs.map Guardian.publish = kps.map (fun kp => publishGuardianRecord kp.share) := by
    rw [← hown, List.map_map]
    rfl
  obtain ⟨t, dm, pt, pts, L, r1, r2, r3, r4, r5, r6⟩ := quorum_results hv hpq loads quorum hquorum rands' kps hteam horders sd ctx maxE hmaxE
    json m im he hctx avs hpres hlav (gs.map Guardian.shareKey) (List.Perm.of_eq hshare) vs hnd hvs hst hsmall hmax
  have hf := firsts_of_nodup vs hnd
  have hres : isValidResidue E.P ctx.elgamalPublicKey = true := by
    have := combined_residue hv (hteam.sharedKeys hv horders)
    rw [List.map_map] at this
    rw [hctx]
    exact this
  have hbox : runBox E im ctx [] (vs.map (fun v => ⟨v.enc, v.state⟩)) = stored E vs :=
    (election_core hv hpq maxE json m im he ctx hres vs hvs (by unfold counted; rw [hf]; exact hsmall)
      (by unfold counted; rw [hf]; exact hmax)).1
  have hall : (stored E vs).all = vs.map (fun v => submitBallot E v.enc v.state) := by
    unfold stored Store.all
    rw [hf, List.map_map]
    rfl
  have hget : (getBallots (stored E vs) (some .spoiled)).map (fun e => e.2)
      = (vs.filter (fun v => decide (v.state = .spoiled))).map (fun v => submitBallot E v.enc v.state) := by
    unfold getBallots stored
    rw [hf, List.filter_map, List.map_map]
    rfl
  rw [hav] at r2
  refine ⟨_, t, _, dm, pt, pts, L, rfl, by rw [hbox]; exact r1, rfl, ?_⟩
  rw [hbox, hget, hall]
  exact ⟨r2, r3, r4, r5, fun constants devices ext v hk hof => r6 constants devices ext _ v hk (List.Perm.of_eq hpub) hof⟩

/-- C88 The shipped verifier does not accept such a decryption: if a decryption is in order and shows a share without proof, `verify_decryption`
raises `AttributeError`. -/
theorem C88_shipped_verifier_fails (v : RecordView) (pt : PlaintextTally) (cs : List CtContest)
    (h : pt.InQuorumOrder E v cs) (hn : (v.guardians.map GuardianRecord.guardianId).Nodup)
    (hd : (dkeys pt.contests).Nodup ∧ ∀ e ∈ pt.contests, (dkeys e.2.selections).Nodup)
    (hx : ∃ cid sid ps, pt.Shows cid sid ps ∧ ∃ x ∈ ps.shares, x.proof = none) :
    verifyDecryption E pt v.keys v.context = .error .attribute := by
  refine C57_reconstructed_fails pt v.keys v.context ?_ ?_
  · rintro message s ⟨c, hc, x, hx, rfl, hs⟩
    obtain ⟨g, hg, hid, hsh⟩ := h.shares c.1 x.1 x.2 ⟨c.2, dget_of_mem hd.1 hc, dget_of_mem (hd.2 c hc) hx⟩ s hs
    rcases hsh with ⟨pf, h1, h2⟩ | ⟨h1, -⟩
    · refine .inr ⟨g.toKey, pf, ?_, h1, h2⟩
      rw [← hid]
      refine dget_of_mem ?_ (List.mem_map.2 ⟨g, hg, rfl⟩)
      unfold RecordView.keys dkeys
      rw [List.map_map]
      exact hn
    · exact .inl h1
  · obtain ⟨cid, sid, ps, ⟨pc, h1, h2⟩, x, hx, hp⟩ := hx
    exact ⟨ps.message, x, ⟨(cid, pc), mem_of_dget h1, (sid, ps), mem_of_dget h2, rfl, hx⟩, hp⟩

/-! ### The toy election: three guardians, two of whom are there -/

/-- The exported files of the toy election without ballots, decrypted by the first and the third guardian. -/
example : ∃ (ctx : Context) (pt : PlaintextTally) (t : Tally) (pts : List (String × PlaintextTally)) (L : List (String × Nat))
    (rs : List GuardianRecord), rs.length = 3 ∧ ∀ v : RecordView,
    v.Of (exportRecord toyManifest ctx none ⟨157, 13, 12, 16⟩ [⟨1, 2, 3, "x"⟩] [] (pts.map (fun e => e.2)) t.publish pt (some rs) L) →
    v.QuorumAudited toyEnv ∧ v.Publishes toyIM [] [] ∧
      ∀ d ∈ toyIM.contests, ∀ sd ∈ d.ballotSelections, ∃ ps, v.tally.Shows d.objectId sd.objectId ps := by
  obtain ⟨gs0, gs, kcm, jk, b, ctx, h1, h2, h3, h4, h5, hgl, h⟩ := C88_whole_election_partial (E := toyEnv)
    extraSmall_valid (by decide) (fun _ _ => by simp [toyEnv]) strictLoads strictLoads_reads (by decide +kernel) 3 2 (by decide)
    (by decide) (by decide) (fun i => [(i + 4, 3), (2, i + 5)]) (fun _ _ => rfl) (fun _ i => i + 1) "m" 12 (by decide) toyJson
    toyManifest toyIM toyReady
  obtain ⟨gs0', gs', kcm', jk', b', ctx', g1, -, g2, hid, -⟩ := C68_whole_election_partial (E := toyEnv)
    extraSmall_valid (by decide) (fun _ _ => by simp [toyEnv]) strictLoads strictLoads_reads (by decide +kernel) 3 2 (by decide)
    (by decide) (by decide) (fun i => [(i + 4, 3), (2, i + 5)]) (fun _ _ => rfl) (fun _ i => i + 1) "m" 12 (by decide) toyJson
    toyManifest toyIM toyReady
  rw [h1] at g1
  cases g1
  rw [h2] at g2
  cases g2
  have hnd : (gs.map Guardian.id).Nodup := by
    rw [hid]
    have : (match createGuardians toyEnv ⟨3, 2⟩ (fun i => [(i + 4, 3), (2, i + 5)]) with
      | .ok l => decide (l.map Guardian.id).Nodup
      | .error _ => true) = true := by decide +kernel
    rw [show createGuardians toyEnv ⟨3, 2⟩ (fun i => [(i + 4, 3), (2, i + 5)]) = .ok gs0 from h1] at this
    exact of_decide_eq_true this
  match gs, hgl, h, hnd with
  | [x, y, z], _, h, hnd =>
    obtain ⟨store, t, bs, dm, pt, pts, L, rfl, -, -, -, -, -, -, hv⟩ := h [] (by simp) (by simp) (by simp) (by decide) (by decide) [x, z]
      (by simp) (by
        simp only [List.map_cons, List.map_nil, List.nodup_cons, List.mem_cons, List.not_mem_nil] at hnd ⊢
        tauto) (by simp) ⟨fun _ _ _ => 3, fun _ _ _ _ => 4, fun _ _ _ _ => 5, fun _ _ _ _ _ => 6⟩
    refine ⟨ctx, pt, t, pts, L, [x, y, z].map Guardian.publish, rfl, fun v hof => ?_⟩
    obtain ⟨a, b⟩ := hv ⟨157, 13, 12, 16⟩ [⟨1, 2, 3, "x"⟩] none v rfl hof
    refine ⟨a, b, fun d hd sd hsd => ?_⟩
    obtain ⟨ps, hps, -⟩ := (C88_audit_sound_partial extraSmall_valid v a toyIM (by rw [hof.manifest]; exact toyReady) b.regular b.dicts).1
      d hd sd hsd
    exact ⟨ps, hps⟩

end EG
