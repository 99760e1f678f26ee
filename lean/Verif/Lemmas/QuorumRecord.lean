import Verif.Lemmas.QuorumSetup
import Verif.Lemmas.CliCommands

/-!
# The audit of the record of an election that was decrypted by a quorum
-/

namespace EG

variable {E : Env}

theorem lagrange_keys {P : Params} {keys : List ElectionPublicKey} (hn : (keys.map (fun k => k.ownerId)).Nodup) {L : List (String × Nat)}
    (h : lagrangeForGuardians P keys = .ok L) : dkeys L = keys.map (fun k => k.ownerId) := by
  unfold lagrangeForGuardians at h
  obtain ⟨r', h1, h2⟩ := foldlM_dset_forall₂ (fun k : ElectionPublicKey => k.ownerId) (fun k => lagrangeForGuardian P k keys) keys [] L hn
    (by simp [dkeys]) h
  rw [List.nil_append] at h1
  subst h1
  exact forall₂_map_eq (fun k : ElectionPublicKey => k.ownerId) Prod.fst h2 (fun _ _ h => h.1)

theorem dget_isSome {β : Type} (d : List (String × β)) (k : String) : (dget d k).isSome = true ↔ k ∈ dkeys d := by
  rw [Option.isSome_iff_ne_none, ne_eq, dget_eq_none_iff, not_not]

/-- The record of an election that was run honestly and decrypted by at least a quorum of the guardians passes the audit. -/
theorem quorum_record_audited (hv : E.P.Valid) (hpq : (E.P.q - 1) * (E.P.q - 1) < E.P.p)
    {loads : Bytes → R (List Char)} {quorum : Nat} (hq : 0 < quorum)
    {rands : String → List (Nat × Nat)} {kps : List ElectionKeyPair} (ht : Team E quorum rands kps)
    (horders : (kps.map (fun kp => kp.sequenceOrder)).Nodup) {sd : TallySeeds} {ctx : Context}
    {maxE : Nat} (hmaxE : 1 ≤ maxE) {json : ContestData → Bytes} {m : Manifest} {im : InternalManifest} (he : ElectionReady E m im)
    (hctx : ctx = makeContext E kps.length quorum (combinePublicKeys E.P (kps.map (fun kp => kp.share.key)))
      (hashElems E [.list ((kps.flatMap (fun kp => kp.share.commitments)).map HArg.elem)]) (m.cryptoHash E))
    {avs : List (Guardian × ElectionKeyPair)} (hp : Present E loads rands kps avs) (hmany : quorum ≤ avs.length)
    {keys : List ElectionPublicKey} (hkeys : keys.Perm (kps.map (fun kp => kp.share))) {vs : List VotedBallot}
    (hn : (vs.map (fun v => v.plain.objectId)).Nodup)
    (hvs : ∀ v ∈ vs, v.Encrypted E json im ctx ∧ ∃ d, im.StyleHas v.plain.styleId d)
    (hsmall : (vs.filter (fun v => decide (v.state = .cast))).length < E.P.q)
    (hmax : (vs.filter (fun v => decide (v.state = .cast))).length ≤ maxE)
    {t : Tally} {dm : DM} {pt : PlaintextTally} {pts : List (String × PlaintextTally)}
    (hct : tallyBallots E im ctx true (stored E vs) = .ok (some t))
    (hset : performCompensatedSetup E loads sd ctx t
      ((vs.filter (fun v => decide (v.state = .spoiled))).map (fun v => submitBallot E v.enc v.state)) (avs.map Prod.fst) keys DM.init
      = .ok dm)
    (hpt : dm.plaintextTally E maxE ctx t m = .ok (some pt))
    (hpts : dm.plaintextBallots E maxE ctx
      ((vs.filter (fun v => decide (v.state = .spoiled))).map (fun v => submitBallot E v.enc v.state)) m = .ok (some pts))
    {w : RecordView} (wm : w.manifest = m) (wc : w.context = ctx) (wk : w.constants.params = E.P)
    (wg : w.guardians.Perm (kps.map (fun kp => publishGuardianRecord kp.share)))
    (wb : w.ballots.Perm (vs.map (fun v => submitBallot E v.enc v.state)))
    (ws : w.spoiled.Perm (pts.map (fun e => e.2))) (we : w.encryptedTally = t.publish)
    (wt : w.tally = pt) (wl : lagrangeForGuardians E.P (dm.available.map (·.2)) = .ok w.coefficients) :
    w.QuorumAudited E ∧ (∀ b ∈ w.ballots, b.toCBallot.Regular im) ∧ WFContests w.encryptedTally.contests := by
  have hkey : ctx.elgamalPublicKey = combinePublicKeys E.P (kps.map (fun kp => kp.share.key)) := by rw [hctx]; rfl
  have hctx' : ctx.quorum = (quorum : Int) ∧ ctx.numberOfGuardians = (kps.length : Int) := by rw [hctx]; exact ⟨rfl, rfl⟩
  have hh : ctx.cryptoExtendedBaseHash < E.P.q := by
    rw [hctx]
    exact hashElems_lt (by have := hv.one_lt_q; omega) _
  have hres : isValidResidue E.P ctx.elgamalPublicKey = true := by
    have := combined_residue hv (ht.sharedKeys hv horders)
    rw [List.map_map] at this
    rw [hkey]
    exact this
  -- the guardians
  set all := kps.map (fun kp => kp.share) with hall
  have wg' : w.guardians.Perm (all.map publishGuardianRecord) := by
    rw [hall, List.map_map]
    exact wg
  have hglen : w.guardians.length = kps.length := by rw [wg.length_eq, List.length_map]
  have hallids : (all.map (fun k => k.ownerId)).Nodup := by
    rw [hall, List.map_map]
    exact ht.ids
  have hgkey : ∀ g ∈ avs.map Prod.fst, g.electionKeys.keyPair.pub = E.P.g ^ g.electionKeys.keyPair.secret % E.P.p := by
    intro g hg
    obtain ⟨x, hx, rfl⟩ := List.mem_map.1 hg
    rw [(hp.equipped x hx).2.own]
    exact (C47_key_pair (ht.generated _ (hp.equipped x hx).1)).2.2.2.2
  have hgall : ∀ g ∈ avs.map Prod.fst, g.shareKey ∈ all := by
    intro g hg
    obtain ⟨x, hx, rfl⟩ := List.mem_map.1 hg
    refine List.mem_map.2 ⟨x.2, (hp.equipped x hx).1, ?_⟩
    show x.2.share = x.1.electionKeys.share
    rw [(hp.equipped x hx).2.own]
  have hcom : ∀ k ∈ all, k.commitments = (coefOf rands k.ownerId).map (fun a => E.P.g ^ a % E.P.p) := by
    intro k hk
    obtain ⟨kp, hkp, rfl⟩ := List.mem_map.1 hk
    exact (C47_key_pair (ht.generated kp hkp)).2.2.1
  have hord : ∀ k ∈ all, 0 ≤ k.sequenceOrder := by
    intro k hk
    obtain ⟨kp, hkp, rfl⟩ := List.mem_map.1 hk
    exact (ht.orders kp hkp).1
  -- the ballots and the tally
  obtain ⟨hbid, t', htally, hdec, -, hba⟩ := ballots_audited hv hpq he hres hn hvs hsmall hmax
  have hba := hba w.ballots wb
  rw [hct] at htally
  obtain rfl : t = t' := by simpa using htally
  have hwb : ∀ b ∈ w.ballots, ∃ v ∈ vs, b = submitBallot E v.enc v.state := fun b hb => by
    obtain ⟨v, hv', h⟩ := List.mem_map.1 (wb.mem_iff.1 hb)
    exact ⟨v, hv', h.symm⟩
  have hbnd : ((vs.map (fun v => submitBallot E v.enc v.state)).map (fun b => b.objectId)).Nodup := by
    rw [List.map_map]
    have : vs.map ((fun b : SBallot => b.objectId) ∘ fun v => submitBallot E v.enc v.state)
        = vs.map (fun v => v.plain.objectId) := List.map_congr_left hbid
    rw [this]
    exact hn
  -- the decryption
  set sp := (vs.filter (fun v => decide (v.state = .spoiled))).map (fun v => submitBallot E v.enc v.state) with hsp
  have hin : ∀ v ∈ vs.filter (fun v => decide (v.state = .spoiled)), v ∈ vs := fun v hv' => (List.mem_filter.1 hv').1
  have hspnd : (sp.map (fun b => b.objectId)).Nodup := by
    refine hbnd.sublist ?_
    rw [hsp]
    exact (List.filter_sublist.map _).map _
  have hball := fun v (hv' : v ∈ vs) => ballot_core hv hpq maxE hmaxE json m im he ctx hres v (hvs v hv').1
  have hspdec : ∀ b ∈ sp, Decryptable E.P maxE ctx.elgamalPublicKey m b.toCts := by
    intro b hb
    obtain ⟨v, hv', rfl⟩ := List.mem_map.1 hb
    exact (hball v (hin v hv')).1
  obtain ⟨dm', hd1, ⟨pt', hd2, -, hd3⟩, pts', hd4, hd5⟩ := C66_compensated_setup_partial hv loads quorum hq rands kps ht horders sd ctx
    hctx' hh maxE m t sp hspnd (by rw [← hkey]; exact hdec) (by rw [← hkey]; exact hspdec) avs hp hmany keys hkeys
  rw [hset] at hd1
  obtain rfl : dm = dm' := Except.ok.inj hd1
  rw [hpt] at hd2
  obtain rfl : pt = pt' := by simpa using hd2
  rw [hpts] at hd4
  obtain rfl : pts = pts' := by simpa using hd4
  rw [← hkey] at hd3 hd5
  obtain ⟨hav, L, hL, hrt, hrb⟩ := setup_rebuilt hv ht hctx' hh hspnd hdec.readable (fun b hb => (hspdec b hb).readable) hp hmany
    hkeys hset
  rw [wl] at hL
  obtain rfl : w.coefficients = L := Except.ok.inj hL
  have hready : ∀ shares, readyToDecrypt ctx shares = true → shares.length = all.length := by
    intro shares h
    unfold readyToDecrypt at h
    rw [hctx'.2] at h
    rw [hall, List.length_map]
    simpa using h
  have hshows : ∀ cs (pt : PlaintextTally), Decryptable E.P maxE ctx.elgamalPublicKey m cs → pt.Correct E.P ctx.elgamalPublicKey m cs →
      ∀ c ∈ cs, ∀ s ∈ c.selections, Describes m c.objectId s.objectId → ∃ n, pt.Reports c.objectId s.objectId n := by
    intro cs pt h1 h2 c hc s hs hd
    obtain ⟨n, hn1, -, hn2⟩ := h1.values c hc s hs hd
    exact ⟨n, (h2 _ _ _).2 ⟨c, hc, s, hs, rfl, rfl, hd, hn1, hn2⟩⟩
  -- those who took part
  have hkeysav : dm.available.map (·.2) = avs.map (fun x => x.2.share) := by
    rw [hav, List.map_map]
    rfl
  rw [hkeysav] at wl
  have havids : ((avs.map (fun x => x.2.share)).map (fun k => k.ownerId)).Nodup := by
    rw [List.map_map]
    exact hp.once
  have hLk := lagrange_keys havids wl
  have hgnd : (w.guardians.map GuardianRecord.guardianId).Nodup := by
    rw [(wg'.map _).nodup_iff, List.map_map]
    exact hallids
  have hgord : (w.guardians.map GuardianRecord.sequenceOrder).Nodup := by
    rw [(wg.map _).nodup_iff, List.map_map]
    exact horders
  have havail : w.available.Perm ((avs.map (fun x => x.2.share)).map publishGuardianRecord) := by
    refine (List.perm_ext_iff_of_nodup ?_ ?_).2 (fun a => ?_)
    · exact (List.Nodup.of_map _ hgnd).filter _
    · refine List.Nodup.of_map GuardianRecord.guardianId ?_
      rw [List.map_map]
      exact havids
    · unfold RecordView.available
      rw [List.mem_filter, dget_isSome, hLk]
      constructor
      · rintro ⟨h1, h2⟩
        obtain ⟨kp, hkp, rfl⟩ := List.mem_map.1 (wg.mem_iff.1 h1)
        obtain ⟨k, hk, h3⟩ := List.mem_map.1 h2
        obtain ⟨x, hx, rfl⟩ := List.mem_map.1 hk
        have : x.2 = kp := List.inj_on_of_nodup_map ht.ids (hp.equipped x hx).1 hkp h3
        rw [← this]
        exact List.mem_map_of_mem hk
      · intro h1
        obtain ⟨k, hk, rfl⟩ := List.mem_map.1 h1
        refine ⟨?_, List.mem_map_of_mem (f := fun k : ElectionPublicKey => k.ownerId) hk⟩
        obtain ⟨x, hx, rfl⟩ := List.mem_map.1 hk
        exact wg.mem_iff.2 (List.mem_map.2 ⟨x.2, (hp.equipped x hx).1, rfl⟩)
  have havgs : (w.available.map GuardianRecord.guardianId).Perm ((avs.map Prod.fst).map Guardian.id) := by
    have h1 := havail.map GuardianRecord.guardianId
    have h2 : ((avs.map (fun x => x.2.share)).map publishGuardianRecord).map GuardianRecord.guardianId
        = (avs.map Prod.fst).map Guardian.id := by
      rw [List.map_map, List.map_map, List.map_map]
      refine List.map_congr_left (fun x hx => ?_)
      show x.2.ownerId = x.1.electionKeys.ownerId
      rw [(hp.equipped x hx).2.own]
    rw [h2] at h1
    exact h1
  refine ⟨?_, hba.regular, by rw [we]; exact hba.tally.contests⟩
  refine
    { constants := wk
      manifest := ?_
      context := ?_
      commitmentHash := ?_
      guardianIds := hgnd
      guardians := ?_
      jointKey := ?_
      ballotIds := hba.ids
      ballots := ?_
      aggregation := ?_
      quorum := ?_
      orders := hgord.sublist (List.filter_sublist.map _)
      range := ?_
      coefficients := ?_
      tally := ?_
      spoiled := ?_
      spoiledOnly := ?_
      spoiledIds := ?_ }
  · rw [wm]; exact (C41_iff_partial m).2 he.manifest.ok
  · rw [wm, wc, hglen]
    conv_lhs => rw [hctx]
    rw [hctx]
    rfl
  · refine ⟨_, wg, ?_⟩
    rw [wc, hctx, List.flatMap_map]
    rfl
  · intro g hg
    obtain ⟨kp, hkp, rfl⟩ := List.mem_map.1 (wg.mem_iff.1 hg)
    obtain ⟨-, -, hc, hhead, -⟩ := C47_key_pair (ht.generated kp hkp)
    refine ⟨hhead, ?_, generated_proofs hv (ht.generated kp hkp)⟩
    rw [wc, hctx'.1]
    show ((kp.share.commitments.length : Nat) : Int) = _
    rw [hc, List.length_map, List.length_map, ht.coefficients kp hkp]
  · rw [wc, hkey, combinePublicKeys_prod hv.one_lt_p, (wg.map _).prod_eq, List.map_map]
    rfl
  · rw [wm, wc]
    exact hba.valid
  · rw [wm, wc]
    have := hba.aggregation w rfl we
    exact this
  · rw [wc, hctx'.1, havail.length_eq, List.length_map, List.length_map]
    exact_mod_cast hmany
  · intro g hg
    obtain ⟨kp, hkp, rfl⟩ := List.mem_map.1 (wg.mem_iff.1 (available_mem hg))
    obtain ⟨h1, h2, -⟩ := ht.orders kp hkp
    refine ⟨h1, ?_⟩
    show kp.sequenceOrder < _
    omega
  · intro g hg
    obtain ⟨k, hk, rfl⟩ := List.mem_map.1 (havail.mem_iff.1 hg)
    obtain ⟨l, hl1, hl2, hl3⟩ := coefficient_of_lagrange hv havids wl k hk
    refine ⟨l, hl1, hl2, ?_⟩
    have hperm : ((w.available.filter (fun h => decide (h.guardianId ≠ (publishGuardianRecord k).guardianId))).map
        GuardianRecord.sequenceOrder).Perm
        (((avs.map (fun x => x.2.share)).filter (fun g => decide (g.ownerId ≠ k.ownerId))).map (fun k => k.sequenceOrder)) := by
      have := (havail.filter (fun h => decide (h.guardianId ≠ (publishGuardianRecord k).guardianId))).map
        GuardianRecord.sequenceOrder
      rw [List.filter_map, List.map_map] at this
      exact this
    rw [hperm.prod_eq, (hperm.map _).prod_eq]
    exact hl3
  · rw [we, wt]
    show pt.InQuorumOrder E w t.toCts
    unfold DM.plaintextTally at hpt
    split at hpt
    · cases hpt
    · rename_i hcond
      simp only [Bool.or_eq_true, Bool.not_eq_true', not_or, Bool.not_eq_false] at hcond
      unfold decryptTally at hpt
      simp only [bind, Except.bind, pure, Except.pure] at hpt
      cases hl : decryptContestsLoop E maxE dm.tallyShares ctx.cryptoExtendedBaseHash m true t.toCts [] with
      | error e => rw [hl] at hpt; cases hpt
      | ok o =>
        rw [hl] at hpt
        cases o with
        | none => cases hpt
        | some r =>
          simp only [Option.map_some, Except.ok.injEq, Option.some.injEq] at hpt
          rw [← hpt] at hd3 ⊢
          exact inQuorumOrder_of_decrypt hv hh hgkey hallids hgall hcom hord hdec.readable hrt (hready _ hcond.2) hl w wm wc rfl wg'
            havgs (hshows _ _ hdec hd3)
  · intro b hb hst
    obtain ⟨v, hv', rfl⟩ := hwb b hb
    have hbsp : submitBallot E v.enc v.state ∈ sp := List.mem_map.2 ⟨v, List.mem_filter.2 ⟨hv', decide_eq_true (show v.state = .spoiled from hst)⟩, rfl⟩
    obtain ⟨e, he', he1, he2, he3⟩ := forall₂_left hd5 hbsp
    refine ⟨e.2, ws.mem_iff.2 (List.mem_map_of_mem he'), he2, ?_⟩
    unfold DM.plaintextBallots at hpts
    split at hpts
    · cases hpts
    · cases hloop : plaintextBallotsLoop E maxE dm ctx m sp [] with
      | error e => rw [hloop] at hpts; cases hpts
      | ok r =>
        rw [hloop] at hpts
        have hr : r = pts := by simpa [Except.map] using hpts
        rw [← hr] at he'
        rcases plaintextBallotsLoop_mem maxE dm ctx m sp [] r hloop e he' with h | ⟨b', hb', hid', shares, hsh, hrd, hdcr⟩
        · cases h
        · have hbb : b' = submitBallot E v.enc v.state :=
            List.inj_on_of_nodup_map hspnd hb' hbsp (by rw [← hid', he1])
          subst hbb
          unfold decryptBallotWithShares at hdcr
          simp only [bind, Except.bind, pure, Except.pure] at hdcr
          cases hl : decryptContestsLoop E maxE shares ctx.cryptoExtendedBaseHash m true
              (submitBallot E v.enc v.state).toCts [] with
          | error e => rw [hl] at hdcr; cases hdcr
          | ok o =>
            rw [hl] at hdcr
            cases o with
            | none => cases hdcr
            | some r' =>
              simp only [Option.map_some, Except.ok.injEq, Option.some.injEq] at hdcr
              rw [← hdcr] at he3 ⊢
              exact inQuorumOrder_of_decrypt hv hh hgkey hallids hgall hcom hord (hspdec _ hbsp).readable (hrb _ hbsp _ hsh) (hready _ hrd) hl
                w wm wc rfl wg' havgs (hshows _ _ (hspdec _ hbsp) he3)
  · intro pt hpt'
    obtain ⟨e, he', rfl⟩ := List.mem_map.1 (ws.mem_iff.1 hpt')
    obtain ⟨b, hb, -, h2, -⟩ := forall₂_left hd5.flip he'
    obtain ⟨v, hv', rfl⟩ := List.mem_map.1 hb
    exact ⟨_, wb.mem_iff.2 (List.mem_map.2 ⟨v, hin v hv', rfl⟩), of_decide_eq_true (List.mem_filter.1 hv').2, h2.symm⟩
  · rw [(ws.map _).nodup_iff, List.map_map]
    have key : ∀ (l : List SBallot) (r : List (String × PlaintextTally)), List.Forall₂ (fun (b : SBallot)
        (e : String × PlaintextTally) => e.1 = b.objectId ∧ e.2.objectId = b.objectId ∧
        e.2.Correct E.P ctx.elgamalPublicKey m b.toCts) l r →
        r.map (PlaintextTally.objectId ∘ fun e => e.2) = l.map (fun b => b.objectId) := by
      intro l r h
      induction h with
      | nil => rfl
      | cons h _ ih => rw [List.map_cons, List.map_cons, ih]; exact congrArg (· :: _) h.2.1
    rw [key _ _ hd5]
    exact hspnd

/-- The results for some ballots with distinct ids, decrypted by at least a quorum, and the audit of the record that is exported. -/
theorem quorum_results (hv : E.P.Valid) (hpq : (E.P.q - 1) * (E.P.q - 1) < E.P.p)
    (loads : Bytes → R (List Char)) (quorum : Nat) (hq : 0 < quorum)
    (rands : String → List (Nat × Nat)) (kps : List ElectionKeyPair) (ht : Team E quorum rands kps)
    (horders : (kps.map (fun kp => kp.sequenceOrder)).Nodup) (sd : TallySeeds) (ctx : Context)
    (maxE : Nat) (hmaxE : 1 ≤ maxE) (json : ContestData → Bytes) (m : Manifest) (im : InternalManifest) (he : ElectionReady E m im)
    (hctx : ctx = makeContext E kps.length quorum (combinePublicKeys E.P (kps.map (fun kp => kp.share.key)))
      (hashElems E [.list ((kps.flatMap (fun kp => kp.share.commitments)).map HArg.elem)]) (m.cryptoHash E))
    (avs : List (Guardian × ElectionKeyPair)) (hp : Present E loads rands kps avs) (hmany : quorum ≤ avs.length)
    (keys : List ElectionPublicKey) (hkeys : keys.Perm (kps.map (fun kp => kp.share))) (vs : List VotedBallot)
    (hn : (vs.map (fun v => v.plain.objectId)).Nodup)
    (hvs : ∀ v ∈ vs, v.Encrypted E json im ctx ∧ ∃ d, im.StyleHas v.plain.styleId d)
    (hst : ∀ v ∈ vs, v.state = .cast ∨ v.state = .spoiled)
    (hsmall : (vs.filter (fun v => decide (v.state = .cast))).length < E.P.q)
    (hmax : (vs.filter (fun v => decide (v.state = .cast))).length ≤ maxE) :
    ∃ t dm pt pts L, tallyBallots E im ctx true (stored E vs) = .ok (some t) ∧
      performCompensatedSetup E loads sd ctx t
        ((vs.filter (fun v => decide (v.state = .spoiled))).map (fun v => submitBallot E v.enc v.state)) (avs.map Prod.fst) keys DM.init
        = .ok dm ∧
      dm.plaintextTally E maxE ctx t m = .ok (some pt) ∧
      dm.plaintextBallots E maxE ctx
        ((vs.filter (fun v => decide (v.state = .spoiled))).map (fun v => submitBallot E v.enc v.state)) m = .ok (some pts) ∧
      lagrangeForGuardians E.P (dm.available.map (·.2)) = .ok L ∧
      ∀ (constants : Constants) (devices : List Device) (ext : Option (List (String × String))) (records : List GuardianRecord)
        (v : RecordView), constants.params = E.P → records.Perm (kps.map (fun kp => publishGuardianRecord kp.share)) →
        v.Of (exportRecord m ctx ext constants devices (vs.map (fun v => submitBallot E v.enc v.state)) (pts.map (fun e => e.2)) t.publish
          pt (some records) L) →
        v.QuorumAudited E ∧ v.Publishes im ((vs.filter (fun v => decide (v.state = .cast))).map (fun v => v.plain))
          ((vs.filter (fun v => decide (v.state = .spoiled))).map (fun v => v.plain)) := by
  have hf := firsts_of_nodup vs hn
  have hkey : ctx.elgamalPublicKey = combinePublicKeys E.P (kps.map (fun kp => kp.share.key)) := by rw [hctx]; rfl
  have hctx' : ctx.quorum = (quorum : Int) ∧ ctx.numberOfGuardians = (kps.length : Int) := by rw [hctx]; exact ⟨rfl, rfl⟩
  have hh : ctx.cryptoExtendedBaseHash < E.P.q := by
    rw [hctx]
    exact hashElems_lt (by have := hv.one_lt_q; omega) _
  have hres : isValidResidue E.P ctx.elgamalPublicKey = true := by
    have := combined_residue hv (ht.sharedKeys hv horders)
    rw [List.map_map] at this
    rw [hkey]
    exact this
  have hcnt : counted vs = vs.filter (fun v => decide (v.state = .cast)) := by unfold counted; rw [hf]
  obtain ⟨hbox, t, htally, -, -, hdec, -, hrep⟩ := election_core hv hpq maxE json m im he ctx hres vs hvs (by rw [hcnt]; exact hsmall)
    (by rw [hcnt]; exact hmax)
  rw [hbox] at htally
  set sp := vs.filter (fun v => decide (v.state = .spoiled)) with hsp
  have hin : ∀ v ∈ sp, v ∈ vs := fun v hv' => (List.mem_filter.1 hv').1
  have hball := fun v (hv' : v ∈ sp) =>
    ballot_core hv hpq maxE hmaxE json m im he ctx hres v (hvs v (hin v hv')).1
  have hbsid : ∀ v ∈ sp, (submitBallot E v.enc v.state).objectId = v.plain.objectId := fun v hv' => (hball v hv').2.1
  have hspnd : ((sp.map (fun v => submitBallot E v.enc v.state)).map (fun b => b.objectId)).Nodup := by
    rw [List.map_map]
    have : sp.map ((fun b : SBallot => b.objectId) ∘ fun v => submitBallot E v.enc v.state)
        = sp.map (fun v => v.plain.objectId) := List.map_congr_left hbsid
    rw [this]
    exact hn.sublist (List.filter_sublist.map _)
  have hspdec : ∀ b ∈ sp.map (fun v => submitBallot E v.enc v.state),
      Decryptable E.P maxE (combinePublicKeys E.P (kps.map (fun kp => kp.share.key))) m b.toCts := by
    intro b hb
    obtain ⟨v, hv', rfl⟩ := List.mem_map.1 hb
    rw [← hkey]
    exact (hball v hv').1
  obtain ⟨dm, h1, ⟨pt, h2, -, h4⟩, pts, h5, h6⟩ := C66_compensated_setup_partial hv loads quorum hq rands kps ht horders sd ctx hctx' hh
    maxE m t (sp.map (fun v => submitBallot E v.enc v.state)) hspnd (by rw [← hkey]; exact hdec) hspdec avs hp hmany keys hkeys
  obtain ⟨-, L, hL, -, -⟩ := setup_rebuilt hv ht hctx' hh hspnd hdec.readable (fun b hb => (hspdec b hb).readable) hp hmany
    hkeys h1
  refine ⟨t, dm, pt, pts, L, htally, h1, h2, h5, hL, fun constants devices ext records v hk hrec hof => ?_⟩
  rw [← hkey] at h4 h6
  have h0 := (quorum_record_audited hv hpq hq ht horders hmaxE he hctx hp hmany hkeys hn hvs hsmall hmax htally h1 h2 h5
    (w := ⟨m, ctx, constants, records, vs.map (fun v => submitBallot E v.enc v.state), pts.map (fun e => e.2), t.publish, pt, L, devices⟩)
    rfl rfl hk hrec (List.Perm.refl _) (List.Perm.refl _) rfl rfl hL).1
  have w1 := hof.guardians
  have w2 := hof.ballots
  have w3 := hof.spoiled
  simp only [exportRecord, Option.getD_some] at w1 w2 w3
  rw [writeAll_snd _ _ _ h0.guardianIds] at w1
  rw [writeAll_snd _ _ _ h0.ballotIds] at w2
  rw [writeAll_snd _ _ _ h0.spoiledIds] at w3
  obtain ⟨ha, hreg, hwf⟩ := quorum_record_audited hv hpq hq ht horders hmaxE he hctx hp hmany hkeys hn hvs hsmall hmax htally h1 h2 h5
    hof.manifest hof.context ((congrArg _ hof.constants).trans hk) (w1.trans hrec) w2 w3 hof.encryptedTally hof.tally
    (by rw [hof.coefficients]; exact hL)
  refine ⟨ha, publishes_of (fun v hv' => ?_) hst w2 hreg hwf ?_ ?_⟩
  · exact (ballot_core hv hpq maxE hmaxE json m im he ctx hres v (hvs v hv').1).2.1
  · rw [hof.tally]
    intro cid sid n
    show pt.Reports cid sid n ↔ _
    rw [hrep pt h4 cid sid n]
    unfold electionResult
    rw [hcnt]
    simp only [List.map_map]
    rfl
  · intro b hb
    obtain ⟨v', hv', rfl⟩ := List.mem_map.1 hb
    rw [List.forall₂_map_left_iff] at h6
    obtain ⟨e, he', e1, e2, e3⟩ := forall₂_left h6 hv'
    rw [hbsid v' hv'] at e1 e2
    exact ⟨e.2, w3.mem_iff.2 (List.mem_map_of_mem he'), e2, fun cid sid k => (hball v' hv').2.2 e.2 e3 cid sid k⟩

end EG
