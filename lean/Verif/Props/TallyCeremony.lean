import Verif.Lemmas.TallyCeremony
import Verif.Lemmas.EncryptBallot

/-!
# C66: a tally ceremony run by the orchestrator
-/

namespace EG

variable {E : Env}

theorem Decryptable.readable {P : Params} {maxE K : Nat} {m : Manifest} {cs : List CtContest}
    (h : Decryptable P maxE K m cs) : Readable P cs := ⟨h.ids, h.elements⟩

theorem plaintextTally_congr {s s' : DM} (h1 : s.available = s'.available) (h2 : s.missing = s'.missing)
    (h3 : s.tallyShares = s'.tallyShares) (maxE : Nat) (ctx : Context) (t : Tally) (m : Manifest) :
    s.plaintextTally E maxE ctx t m = s'.plaintextTally E maxE ctx t m := by
  unfold DM.plaintextTally DM.announcementComplete
  rw [h1, h2, h3]

theorem exchangeCompensation_ok {loads : Bytes → R (List Char)} {sd : TallySeeds} {ctx : Context} {t : Tally}
    {bs : List SBallot} {gs : List Guardian} {m m1 m2 m3 : DM} {ks : List ElectionPublicKey}
    (hks : m.missing.map (·.2) = ks)
    (h1 : gs.foldlM (fun m g => sendCompensation E loads sd ctx t bs g ks m) m = .ok m1)
    (h2 : m1.reconstructTally E.P t = (.ok (), m2)) (h3 : m2.reconstructBallots E.P bs = (.ok (), m3)) :
    exchangeCompensation E loads sd ctx t bs gs m = .ok m3 := by
  subst hks
  unfold exchangeCompensation
  simp only [h1, bind, Except.bind, h2, h3, pure, Except.pure]

theorem exchangeCompensation_inv {loads : Bytes → R (List Char)} {sd : TallySeeds} {ctx : Context} {t : Tally}
    {bs : List SBallot} {gs : List Guardian} {m m3 : DM} 
    (h : exchangeCompensation E loads sd ctx t bs gs m = .ok m3) :
    ∃ m1 m2, gs.foldlM (fun m' g => sendCompensation E loads sd ctx t bs g (m.missing.map (·.2)) m') m = .ok m1 ∧
      m1.reconstructTally E.P t = (.ok (), m2) ∧ m2.reconstructBallots E.P bs = (.ok (), m3) := by
  unfold exchangeCompensation at h
  simp only [bind, Except.bind, pure, Except.pure] at h
  cases h2 : gs.foldlM (fun m' g => sendCompensation E loads sd ctx t bs g (m.missing.map (·.2)) m') m with
  | error e => rw [h2] at h; cases h
  | ok m1 =>
    rw [h2] at h
    simp only at h
    rcases hr : m1.reconstructTally E.P t with ⟨r, m2⟩
    rw [hr] at h
    cases r with
    | error e => cases h
    | ok u =>
      simp only at h
      rcases hr' : m2.reconstructBallots E.P bs with ⟨r', m4⟩
      rw [hr'] at h
      cases r' with
      | error e => cases h
      | ok u' =>
        cases h
        exact ⟨m1, m2, rfl, hr, hr'⟩

theorem setup_calls (hv : E.P.Valid) (loads : Bytes → R (List Char)) (quorum : Nat)
    (rands : String → List (Nat × Nat)) (kps : List ElectionKeyPair) (ht : Team E quorum rands kps) (sd : TallySeeds)
    (ctx : Context) (hctx : ctx.quorum = quorum ∧ ctx.numberOfGuardians = kps.length)
    (hh : ctx.cryptoExtendedBaseHash < E.P.q) (t : Tally) (bs : List SBallot)
    (hbs : (bs.map (fun b => b.objectId)).Nodup) (hrt : Readable E.P t.toCts) (hrb : ∀ b ∈ bs, Readable E.P b.toCts)
    (avs : List (Guardian × ElectionKeyPair)) (hp : Present E loads rands kps avs) (hmany : quorum ≤ avs.length)
    (keys : List ElectionPublicKey) (hkeys : keys.Perm (kps.map (fun kp => kp.share))) :
    ∃ ops : List DMOp, (∃ m0 ms, tallyAnnouncement E sd ctx t bs (avs.map Prod.fst) keys DM.init = .ok m0 ∧
        m0.missing.map (·.2) = ms ∧
        (avs.map Prod.fst).foldlM (fun m g => sendCompensation E loads sd ctx t bs g ms m) m0 = .ok (DM.run E.P ops)) ∧
      (∀ op ∈ ops, HonestOp E ctx.cryptoExtendedBaseHash t (kps.map (fun kp => kp.share)) (coefOf rands) op ∧
        HonestBallotOp E ctx.cryptoExtendedBaseHash bs (kps.map (fun kp => kp.share)) (coefOf rands) op) ∧
      (DM.run E.P ops).announcementComplete ctx = true ∧
      (∀ j ∈ dkeys (DM.run E.P ops).missing, ∀ i,
        (i, j) ∈ receivedPairs ops ↔ i ∈ dkeys (DM.run E.P ops).available) ∧
      ∀ b ∈ bs, ∀ j ∈ dkeys (DM.run E.P ops).missing, ∀ i,
        (i, j) ∈ receivedBallotPairs b.objectId ops ↔ i ∈ dkeys (DM.run E.P ops).available := by
  obtain ⟨o1, ms, a1, a2, a3, a4, a5, a6, a7, a8⟩ := tallyAnnouncement_spec hv ht sd ctx hh t bs hbs hrt hrb avs hp keys
    hkeys
  obtain ⟨o2, b1, b2, b3, b4⟩ := compensations_spec hv ht sd ctx hh t bs hbs hrt hrb ms avs hp.equipped a7 (DM.run E.P o1)
  have hrun : o2.foldl (DM.step E.P) (DM.run E.P o1) = DM.run E.P (o1 ++ o2) := by
    unfold DM.run; rw [List.foldl_append]
  rw [hrun] at b1
  obtain ⟨k1, k2⟩ := foldl_keeps E.P o2 (fun op hop => (b2 op hop).1) (DM.run E.P o1)
  rw [hrun, a5] at k1
  rw [hrun, a6] at k2
  have hmm : (DM.run E.P o1).missing.map (·.2) = ms := by
    rw [a6, List.map_map]
    exact List.map_id _
  have hpr : receivedPairs (o1 ++ o2) = avs.flatMap (fun x => ms.map (fun k => (x.2.ownerId, k.ownerId))) := by
    rw [receivedPairs_append, a3, b3, List.nil_append]
  have hpb : ∀ b ∈ bs, receivedBallotPairs b.objectId (o1 ++ o2)
      = avs.flatMap (fun x => ms.map (fun k => (x.2.ownerId, k.ownerId))) := by
    intro b hb
    rw [receivedBallotPairs_append, a4, b4 b hb, List.nil_append]
  have hpair : ∀ (j : String), j ∈ ms.map (fun k => k.ownerId) → ∀ i,
      (i, j) ∈ avs.flatMap (fun x => ms.map (fun k => (x.2.ownerId, k.ownerId))) ↔
        i ∈ avs.map (fun x => x.2.ownerId) := by
    intro j hj i
    obtain ⟨k, hk, rfl⟩ := List.mem_map.1 hj
    simp only [List.mem_flatMap, List.mem_map, Prod.mk.injEq]
    constructor
    · rintro ⟨x, hx, k', hk', rfl, _⟩; exact ⟨x, hx, rfl⟩
    · rintro ⟨x, hx, rfl⟩; exact ⟨x, hx, k, hk, rfl, rfl⟩
  refine ⟨o1 ++ o2, ⟨_, ms, a1, hmm, b1⟩, ?_, ?_, ?_, ?_⟩
  · intro op hop
    rcases List.mem_append.1 hop with h | h
    · exact a2 op h
    · exact (b2 op h).2
  all_goals
    generalize DM.run E.P (o1 ++ o2) = s at k1 k2
    have hav : dkeys s.available = avs.map (fun x => x.2.ownerId) := by
      rw [k1]; simp only [dkeys, List.map_map]; rfl
    have hmi : dkeys s.missing = ms.map (fun k => k.ownerId) := by
      rw [k2]; simp only [dkeys, List.map_map]; rfl
  · refine (C48_complete_iff _ ctx).2 ⟨?_, ?_⟩
    · rw [k1, hctx.1, List.length_map]; exact_mod_cast hmany
    · rw [k1, k2, hctx.2, List.length_map, List.length_map]; exact_mod_cast a8
  · rw [hpr, hav, hmi]; exact hpair
  · intro b hb; rw [hpb b hb, hav, hmi]; exact hpair

/-- C66 A tally ceremony run by the orchestrator with guardians of one key ceremony, at least as many as the quorum, decrypts
the tally and every given ballot, whoever is missing.  No call raises, and the results report exactly the
encrypted values.
Partial: sequence orders distinct, selection ids distinct across contests (`Decryptable`, see `C14_shared_selection_id_fails`). -/
theorem C66_compensated_setup_partial (hv : E.P.Valid) (loads : Bytes → R (List Char)) (quorum : Nat) (hq : 0 < quorum)
    (rands : String → List (Nat × Nat)) (kps : List ElectionKeyPair) (ht : Team E quorum rands kps)
    (horders : (kps.map (fun kp => kp.sequenceOrder)).Nodup) (sd : TallySeeds) (ctx : Context)
    (hctx : ctx.quorum = quorum ∧ ctx.numberOfGuardians = kps.length) (hh : ctx.cryptoExtendedBaseHash < E.P.q)
    (maxE : Nat) (man : Manifest) (t : Tally) (bs : List SBallot) (hbs : (bs.map (fun b => b.objectId)).Nodup)
    (hdt : Decryptable E.P maxE (combinePublicKeys E.P (kps.map (fun kp => kp.share.key))) man t.toCts)
    (hdb : ∀ b ∈ bs, Decryptable E.P maxE (combinePublicKeys E.P (kps.map (fun kp => kp.share.key))) man b.toCts)
    (avs : List (Guardian × ElectionKeyPair)) (hp : Present E loads rands kps avs) (hmany : quorum ≤ avs.length)
    (keys : List ElectionPublicKey) (hkeys : keys.Perm (kps.map (fun kp => kp.share))) :
    ∃ m, performCompensatedSetup E loads sd ctx t bs (avs.map Prod.fst) keys DM.init = .ok m ∧
      (∃ pt, m.plaintextTally E maxE ctx t man = .ok (some pt) ∧ pt.objectId = t.objectId ∧
        pt.Correct E.P (combinePublicKeys E.P (kps.map (fun kp => kp.share.key))) man t.toCts) ∧
      ∃ pts, m.plaintextBallots E maxE ctx bs man = .ok (some pts) ∧
        List.Forall₂ (fun (b : SBallot) (e : String × PlaintextTally) => e.1 = b.objectId ∧ e.2.objectId = b.objectId ∧
          e.2.Correct E.P (combinePublicKeys E.P (kps.map (fun kp => kp.share.key))) man b.toCts) bs pts := by
  obtain ⟨ops, ⟨m0, ms, a1, a2, a3⟩, hops, hcomplete, hc1, hc2⟩ := setup_calls hv loads quorum rands kps ht sd ctx hctx hh t bs
    hbs hdt.readable (fun b hb => (hdb b hb).readable) avs hp hmany keys hkeys
  have hK : (kps.map (fun kp => kp.share)).map (fun k => k.key) = kps.map (fun kp => kp.share.key) := by
    rw [List.map_map]; rfl
  have hshared := ht.sharedKeys hv horders
  rw [← hctx.1] at hshared
  have hnum : ctx.numberOfGuardians = (kps.map (fun kp => kp.share)).length := by rw [hctx.2, List.length_map]
  obtain ⟨t1, pt, t2, t3, t4⟩ := C15_quorum_decrypts_partial hv maxE ctx t man (kps.map (fun kp => kp.share)) (coefOf rands)
    hshared hnum (by rw [hK]; exact hdt) ops (fun op hop => (hops op hop).1) hcomplete hc1
  obtain ⟨r1, r2, _⟩ := DM.reconstructTally_fields (P := E.P) (DM.run E.P ops) t
  have hs2 : DM.run E.P (ops ++ [.reconstructTally t]) = ((DM.run E.P ops).reconstructTally E.P t).2 :=
    DM.run_concat _ _
  obtain ⟨u1, pts, u2, u3⟩ := C15_quorum_decrypts_ballots_partial hv maxE ctx bs man (kps.map (fun kp => kp.share))
    (coefOf rands) hshared hnum (by rw [hctx.1]; exact_mod_cast hq) hbs (by rw [hK]; exact hdb)
    (ops ++ [.reconstructTally t])
    (fun op hop => by
      rcases List.mem_append.1 hop with h | h
      · exact (hops op h).2
      · rw [List.mem_singleton.1 h]; trivial)
    (by
      rw [hs2]
      unfold DM.announcementComplete
      rw [r1, r2]
      exact hcomplete)
    (fun b hb j hj i => by
      rw [hs2, r2] at hj
      rw [receivedBallotPairs_append, hs2, r1]
      rw [show receivedBallotPairs b.objectId [DMOp.reconstructTally t] = [] from rfl, List.append_nil]
      exact hc2 b hb j hj i)
  refine ⟨_, ?_, ⟨pt, ?_, t3, ?_⟩, pts, u2, ?_⟩
  · unfold performCompensatedSetup
    rw [a1]
    simp only [bind, Except.bind]
    have e1 : (DM.run E.P ops).reconstructTally E.P t = (.ok (), DM.run E.P (ops ++ [.reconstructTally t])) :=
      Prod.ext t1 hs2.symm
    have hs3 := DM.run_concat (P := E.P) (ops ++ [.reconstructTally t]) (.reconstructBallots bs)
    have e2 : (DM.run E.P (ops ++ [.reconstructTally t])).reconstructBallots E.P bs
        = (.ok (), DM.run E.P (ops ++ [.reconstructTally t] ++ [.reconstructBallots bs])) := Prod.ext u1 hs3.symm
    exact exchangeCompensation_ok a2 a3 e1 e2
  · rw [← t2]
    rw [DM.run_concat (P := E.P) (ops ++ [DMOp.reconstructTally t])]
    obtain ⟨v1, v2, v3, _⟩ := DM.reconstructBallots_fields (P := E.P) (DM.run E.P (ops ++ [.reconstructTally t])) bs
    exact plaintextTally_congr v1 v2 v3 maxE ctx t man
  · rw [← hK]; exact t4
  · rw [← hK]; exact u3

/-- C66 When all guardians take part, the setup without compensation is enough. -/
theorem C66_all_present_partial (hv : E.P.Valid) (loads : Bytes → R (List Char)) (quorum : Nat) (hq : 0 < quorum)
    (rands : String → List (Nat × Nat)) (kps : List ElectionKeyPair) (ht : Team E quorum rands kps)
    (horders : (kps.map (fun kp => kp.sequenceOrder)).Nodup) (sd : TallySeeds) (ctx : Context)
    (hctx : ctx.quorum = quorum ∧ ctx.numberOfGuardians = kps.length) (hh : ctx.cryptoExtendedBaseHash < E.P.q)
    (maxE : Nat) (man : Manifest) (t : Tally) (bs : List SBallot) (hbs : (bs.map (fun b => b.objectId)).Nodup)
    (hdt : Decryptable E.P maxE (combinePublicKeys E.P (kps.map (fun kp => kp.share.key))) man t.toCts)
    (hdb : ∀ b ∈ bs, Decryptable E.P maxE (combinePublicKeys E.P (kps.map (fun kp => kp.share.key))) man b.toCts)
    (avs : List (Guardian × ElectionKeyPair)) (hp : Present E loads rands kps avs)
    (hall : (avs.map Prod.snd).Perm kps) (hmany : quorum ≤ kps.length) :
    ∃ m, performDecryptionSetup E sd ctx t bs (avs.map Prod.fst) DM.init = .ok m ∧
      (∃ pt, m.plaintextTally E maxE ctx t man = .ok (some pt) ∧ pt.objectId = t.objectId ∧
        pt.Correct E.P (combinePublicKeys E.P (kps.map (fun kp => kp.share.key))) man t.toCts) ∧
      ∃ pts, m.plaintextBallots E maxE ctx bs man = .ok (some pts) ∧
        List.Forall₂ (fun (b : SBallot) (e : String × PlaintextTally) => e.1 = b.objectId ∧ e.2.objectId = b.objectId ∧
          e.2.Correct E.P (combinePublicKeys E.P (kps.map (fun kp => kp.share.key))) man b.toCts) bs pts := by
  have hlen : avs.length = kps.length := by have := hall.length_eq; simpa using this
  have hkeys : ((avs.map Prod.fst).map Guardian.shareKey).Perm (kps.map (fun kp => kp.share)) := by
    have : (avs.map Prod.fst).map Guardian.shareKey = (avs.map Prod.snd).map (fun kp => kp.share) := by
      rw [List.map_map, List.map_map]
      refine List.map_congr_left (fun x hx => ?_)
      show x.1.electionKeys.share = _
      rw [(hp.equipped x hx).2.own]
      rfl
    rw [this]
    exact hall.map _
  obtain ⟨m', h1, h2, h3⟩ := C66_compensated_setup_partial hv loads quorum hq rands kps ht horders sd ctx hctx hh maxE man t
    bs hbs hdt hdb avs hp (by omega) _ hkeys
  obtain ⟨o1, ms, a1, a2, a3, a4, a5, a6, a7, a8⟩ := tallyAnnouncement_spec hv ht sd ctx hh t bs hbs hdt.readable
    (fun b hb => (hdb b hb).readable) avs hp _ hkeys
  have hms : ms = [] := List.length_eq_zero_iff.1 (by omega)
  subst hms
  -- with nobody missing the exchange changes nothing
  have hsend : ∀ (g : Guardian) (m : DM), sendCompensation E loads sd ctx t bs g [] m = .ok m := fun _ _ => rfl
  have hfold : ∀ (gs : List Guardian) (m : DM),
      gs.foldlM (fun m g => sendCompensation E loads sd ctx t bs g [] m) m = .ok m := by
    intro gs
    induction gs with
    | nil => intro m; rfl
    | cons g gs ih => intro m; rw [List.foldlM_cons, hsend]; exact ih m
  set s := DM.run E.P o1 with hs
  have hmiss : s.missing = [] := a6
  have hrt : (s.reconstructTally E.P t).2 = s := by
    unfold DM.reconstructTally
    cases lagrangeForGuardians E.P (s.available.map (·.2)) with
    | error e => rfl
    | ok L =>
      have hl : reconstructTallyLoop E.P t L s.compTally s.missing s.tallyShares = (.ok (), s.tallyShares) := by
        rw [hmiss]; rfl
      simp only [hl]
  unfold performCompensatedSetup at h1
  rw [a1] at h1
  obtain ⟨m1, m2, e1, e2, e3⟩ := exchangeCompensation_inv h1
  rw [show s.missing.map (·.2) = [] by rw [hmiss]; rfl, hfold] at e1
  cases e1
  have e2' : m2 = s := by rw [← hrt, e2]
  subst e2'
  have e3' : (DM.reconstructBallots E.P s bs).2 = m' := by rw [e3]
  subst e3'
  refine ⟨s, a1, ?_, ?_⟩
  · obtain ⟨v1, v2, v3, _⟩ := DM.reconstructBallots_fields (P := E.P) s bs
    obtain ⟨pt, p1, p2⟩ := h2
    rw [plaintextTally_congr v1 v2 v3] at p1
    exact ⟨pt, p1, p2⟩
  · obtain ⟨pts, p1, p2⟩ := h3
    refine ⟨pts, ?_, p2⟩
    have hbl : ∀ (L : List (String × Nat)) (bs : List SBallot) (s : DM), s.missing = [] → ∀ i,
        dget (reconstructBallotsLoop E.P L bs s).2.ballotShares i = dget s.ballotShares i := by
      intro L bs
      induction bs with
      | nil => intro s _ i; rfl
      | cons b bs ih =>
        intro s hm i
        unfold reconstructBallotsLoop
        cases hg : dgetR s.ballotShares b.objectId with
        | error e => rfl
        | ok sh =>
          have hg' : dget s.ballotShares b.objectId = some sh := by
            unfold dgetR at hg
            cases hd : dget s.ballotShares b.objectId with
            | none => rw [hd] at hg; cases hg
            | some x => rw [hd] at hg; cases hg; rfl
          have hl : reconstructBallotLoop E.P b L s.compBallot s.missing sh = (.ok (), sh) := by
            rw [hm]; rfl
          simp only [hl]
          rw [ih { s with ballotShares := dset s.ballotShares b.objectId sh } hm i]
          show dget (dset s.ballotShares b.objectId sh) i = _
          rw [dget_dset]
          split
          · rename_i h; rw [← h, hg']
          · rfl
    have hbs' : ∀ i, dget (s.reconstructBallots E.P bs).2.ballotShares i = dget s.ballotShares i := by
      intro i
      unfold DM.reconstructBallots
      cases lagrangeForGuardians E.P (s.available.map (·.2)) with
      | error e => rfl
      | ok L => exact hbl L bs s hmiss i
    obtain ⟨v1, v2, v3, _⟩ := DM.reconstructBallots_fields (P := E.P) s bs
    have hloop : ∀ (l : List SBallot) (d : List (String × PlaintextTally)),
        plaintextBallotsLoop E maxE (s.reconstructBallots E.P bs).2 ctx man l d
          = plaintextBallotsLoop E maxE s ctx man l d := by
      intro l
      induction l with
      | nil => intro d; rfl
      | cons b l ih =>
        intro d
        unfold plaintextBallotsLoop
        rw [hbs' b.objectId]
        simp only [ih]
    rw [← p1]
    unfold DM.plaintextBallots DM.announcementComplete
    rw [v1, v2, hloop]

/-- C66 With fewer guardians than the quorum, whoever they are and whatever they hold, a ceremony that runs through
ends in a mediator that decrypts nothing. -/
theorem C66_below_quorum (loads : Bytes → R (List Char)) (sd : TallySeeds) (ctx : Context) (t : Tally) (bs : List SBallot)
    (gs : List Guardian) (keys : List ElectionPublicKey) (hfew : (gs.length : Int) < ctx.quorum) (m : DM)
    (hm : performCompensatedSetup E loads sd ctx t bs gs keys DM.init = .ok m) (maxE : Nat) (man : Manifest) :
    m.plaintextTally E maxE ctx t man = .ok none ∧ m.plaintextBallots E maxE ctx bs man = .ok none := by
  have hann : ∀ (gs : List Guardian) (m m' : DM), announceAvailable E sd ctx t bs gs m = .ok m' →
      m'.available.length ≤ m.available.length + gs.length := by
    intro gs
    induction gs with
    | nil => intro m m' h; cases h; simp
    | cons g gs ih =>
      intro m m' h
      unfold announceAvailable at h
      cases hs : getOptional (g.computeTallyShare E t ctx (sd.tally g.id)) with
      | error e => rw [hs] at h; cases h
      | ok sh =>
        rw [hs] at h
        have h1 := ih _ _ h
        have h2 : ∀ l, (m.announce g.shareKey sh l).available.length ≤ m.available.length + 1 := by
          intro l
          by_cases hk : g.shareKey.ownerId ∈ dkeys m.available
          · rw [DM.announce_of_mem m _ _ _ hk]; omega
          · rw [(DM.announce_fields m g.shareKey sh l hk).1, dset_fresh _ hk]; simp
        have := h2 (some ((getValidBallotShares (g.computeBallotShares E bs ctx (sd.ballot g.id))).map
          (fun e => (e.1, some e.2))))
        simp only [List.length_cons]
        omega
  have hmis : ∀ (ks : List ElectionPublicKey) (m : DM), (ks.foldl DM.announceMissing m).available = m.available := by
    intro ks
    induction ks with
    | nil => intro m; rfl
    | cons k ks ih => intro m; rw [List.foldl_cons, ih, (DM.announceMissing_fields m k).1]
  have hsend : ∀ (g : Guardian) (ks : List ElectionPublicKey) (m m' : DM),
      sendCompensation E loads sd ctx t bs g ks m = .ok m' → m'.available = m.available := by
    intro g ks
    induction ks with
    | nil => intro m m' h; cases h; rfl
    | cons k ks ih =>
      intro m m' h
      unfold sendCompensation at h
      simp only [bind, Except.bind] at h
      cases h1 : g.computeCompTallyShare E loads k.ownerId t ctx (sd.compTally g.id k.ownerId) with
      | error e => rw [h1] at h; cases h
      | ok sh =>
        rw [h1] at h
        simp only at h
        cases h2 : g.computeCompBallotShares E loads k.ownerId bs ctx (sd.compBallot g.id k.ownerId) with
        | error e => rw [h2] at h; cases h
        | ok l =>
          rw [h2] at h
          have := ih _ _ h
          rw [this]
          cases sh <;> rfl
  have hfold : ∀ (l : List Guardian) (ks : List ElectionPublicKey) (m m' : DM),
      l.foldlM (fun m g => sendCompensation E loads sd ctx t bs g ks m) m = .ok m' → m'.available = m.available := by
    intro l ks
    induction l with
    | nil => intro m m' h; cases h; rfl
    | cons g l ih =>
      intro m m' h
      rw [List.foldlM_cons] at h
      cases h1 : sendCompensation E loads sd ctx t bs g ks m with
      | error e => rw [h1] at h; cases h
      | ok m1 => rw [h1] at h; rw [ih _ _ h, hsend _ _ _ _ h1]
  have hav : m.available.length ≤ gs.length := by
    unfold performCompensatedSetup at hm
    simp only [bind, Except.bind] at hm
    cases h1 : tallyAnnouncement E sd ctx t bs gs keys DM.init with
    | error e => rw [h1] at hm; cases hm
    | ok m1 =>
      rw [h1] at hm
      have e1 : m1.available.length ≤ gs.length := by
        unfold tallyAnnouncement at h1
        simp only [bind, Except.bind, pure, Except.pure] at h1
        cases h0 : announceAvailable E sd ctx t bs gs DM.init with
        | error e => rw [h0] at h1; cases h1
        | ok m0 =>
          rw [h0] at h1
          cases h1
          rw [hmis]
          have := hann gs DM.init m0 h0
          simp only [DM.init, List.length_nil] at this
          omega
      simp only at hm
      obtain ⟨m2, m3, e2, e3, e4⟩ := exchangeCompensation_inv hm
      have h5 := (DM.reconstructBallots_fields (P := E.P) m3 bs).1
      have h6 := (DM.reconstructTally_fields (P := E.P) m2 t).1
      rw [e4] at h5
      rw [e3] at h6
      rw [show m.available = m3.available from h5, show m3.available = m2.available from h6, hfold _ _ _ _ e2]
      exact e1
  have hnot : m.announcementComplete ctx = false := by
    unfold DM.announcementComplete
    rw [if_pos (by omega)]
  constructor
  · unfold DM.plaintextTally; rw [hnot]; rfl
  · unfold DM.plaintextBallots; rw [hnot]; rfl

/-! ### From the key ceremony to the tally ceremony -/

/-- C66 The guardians that come out of a key ceremony can be present at the tally ceremony, in any selection and order. -/
theorem C66_ceremony_present {loads : Bytes → R (List Char)} {rands : String → List (Nat × Nat)}
    {kps : List ElectionKeyPair} (gs : List Guardian)
    (h : List.Forall₂ (Guardian.Equipped E loads rands kps) gs kps) (present : List Guardian)
    (hin : ∀ g ∈ present, g ∈ gs) (hn : (present.map Guardian.id).Nodup) :
    ∃ avs, avs.map Prod.fst = present ∧ Present E loads rands kps avs := by
  refine ⟨present.map (fun g => (g, g.electionKeys)), ?_, ?_, ?_⟩
  · rw [List.map_map]
    exact List.map_id _
  · intro x hx
    obtain ⟨g, hg, rfl⟩ := List.mem_map.1 hx
    obtain ⟨kp, hkp, he⟩ := forall₂_left h (hin g hg)
    have := he.own
    dsimp only
    rw [this]
    exact ⟨hkp, he⟩
  · rw [List.map_map]
    exact hn

example : (toyTeam.map (fun kp => kp.sequenceOrder)).Nodup := by decide +kernel

end EG
