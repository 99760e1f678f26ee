import Verif.Model.GuiRecord
import Verif.Spec.Audit
import Verif.Lemmas.ExportAudit
import Verif.Props.GuiDecryptionLive

/-!
# Lemmas for the election record of the GUI
-/

namespace EG

variable {E : Env} {parse : List Char → Option SBallot}

/-- If a tally with the contests of `t` verifies for other ballots, with the tally `t'`, then `t` and `t'` encrypt the same numbers. -/
theorem BallotsAudited.same (hv : E.P.Valid) {maxE : Nat} {m : Manifest} {im : InternalManifest} (he : ElectionReady E m im)
    {ctx : Context} (hres : isValidResidue E.P ctx.elgamalPublicKey = true) {bs bs' : List SBallot} {t t' : Tally}
    (h : BallotsAudited E m im ctx bs t) (h' : BallotsAudited E m im ctx bs' t')
    (hdec : Decryptable E.P maxE ctx.elgamalPublicKey m t.toCts) (hdec' : Decryptable E.P maxE ctx.elgamalPublicKey m t'.toCts)
    {w : RecordView} (wb : w.ballots = bs') (we : w.encryptedTally = t.publish)
    (hver : verifyAggregation E true bs' w.tallyToCheck m ctx = .ok true) {cid sid : String} {n n' : Nat}
    (h1 : ∃ c ∈ t.toCts, c.objectId = cid ∧ ∃ s ∈ c.selections, s.objectId = sid ∧ Encrypts E.P ctx.elgamalPublicKey n s.ciphertext)
    (h2 : ∃ c ∈ t'.toCts, c.objectId = cid ∧ ∃ s ∈ c.selections, s.objectId = sid ∧ Encrypts E.P ctx.elgamalPublicKey n' s.ciphertext)
    (hd : ∃ d ∈ im.contests, d.objectId = cid ∧ ∃ sd ∈ d.ballotSelections, sd.objectId = sid) : n ≡ n' [MOD E.P.q] := by
  obtain ⟨im', him', hids, -, -, -, -, hdv⟩ := C40_unique_ids_partial E m he.manifest
  rw [he.internal] at him'
  cases him'
  have hm : TallyManifest im := ⟨hids.1, fun d hd => (hdv d hd).2⟩
  set w' : RecordView := { w with encryptedTally := t'.publish } with hw'
  have hver' := h'.aggregation w' wb rfl
  have hwf : w.tallyToCheck.WF := by
    have hi := h'.ids
    rw [← wb] at hi
    exact ⟨hi.sublist (List.filter_sublist.map _), hi.sublist (List.filter_sublist.map _), by
      show WFContests w.encryptedTally.contests
      rw [we]
      exact h.tally.contests⟩
  have hwf' : w'.tallyToCheck.WF := ⟨hwf.cast, hwf.spoiled, h'.tally.contests⟩
  obtain ⟨acc, -, -, -, -, -, htot⟩ := C56_sound_partial hv.one_lt_p bs' w.tallyToCheck m im ctx he.internal hm hwf h'.regular hver
  obtain ⟨d, hd, rfl, sd, hsd, rfl⟩ := hd
  obtain ⟨c, hc, -⟩ := htot d hd sd hsd
  have hc' : w'.tallyToCheck.total d.objectId sd.objectId = some c := by
    rw [← ((C56_success_iff true bs' _ m im ctx he.internal hwf').1 hver').2.total,
      ((C56_success_iff true bs' _ m im ctx he.internal hwf).1 hver).2.total]
    exact hc
  obtain ⟨y, hy, y1, s, hs, s1, s2⟩ := verified_entry he.internal hm hwf h'.regular hver hc
  obtain ⟨y', hy', y1', s', hs', s1', s2'⟩ := verified_entry he.internal hm hwf' h'.regular hver' hc'
  have hone : ∀ (cs : List CtContest), Decryptable E.P maxE ctx.elgamalPublicKey m cs → ∀ {y z : CtContest}, y ∈ cs → z ∈ cs →
      y.objectId = z.objectId → ∀ {s u : CtSelection}, s ∈ y.selections → u ∈ z.selections → s.objectId = u.objectId → s = u := by
    intro cs hcs y z hy hz hyz s u hs hu hsu
    exact List.inj_on_of_nodup_map hcs.ids.2 (List.mem_flatMap.2 ⟨y, hy, hs⟩) (List.mem_flatMap.2 ⟨z, hz, hu⟩) hsu
  obtain ⟨z, hz, z1, u, hu, u1, u2⟩ := h1
  obtain ⟨z', hz', z1', u', hu', u1', u2'⟩ := h2
  have hyt : y ∈ t.toCts := by
    have : w.tallyToCheck.contests = t.contests := by
      show w.encryptedTally.contests = _
      rw [we]
      rfl
    rw [this] at hy
    exact hy
  have e1 := hone _ hdec hyt hz (y1.trans z1.symm) hs hu (s1.trans u1.symm)
  have e2 := hone _ hdec' hy' hz' (y1'.trans z1'.symm) hs' hu' (s1'.trans u1'.symm)
  rw [← e1, s2] at u2
  rw [← e2, s2'] at u2'
  exact C04_plaintext_unique E.P hv _ _ _ hres _ u2 u2'

/-- What stage 2 did when it succeeded. -/
theorem s2Compute_parts {maxE : Nat} {net : Nat → Nat → Bool} {db : GuiDb} {d : GuiDecryption} {e : ElectionDoc}
    (he : dget db.elections d.electionId = some e) {bs : List SBallot} (hread : db.getBallots parse net d.electionId = bs) {t : Tally}
    (htal : getTally E e.manifest e.context bs false = .ok t) {r : GuiResult} (h : s2Compute E maxE parse net db d = .ok r) :
    ∃ dm, announceShares e d.shares DM.init = .ok dm ∧ dm.plaintextTally E maxE e.context t e.manifest = .ok (some r.tally) ∧
      dm.plaintextBallots E maxE e.context (spoiledOf bs) e.manifest = .ok (some r.ballots) ∧
      lagrangeForGuardians E.P (dm.available.map (·.2)) = .ok r.lagrange ∧ r.ciphertextTally = t := by
  unfold s2Compute GuiDb.getElection at h
  rw [he] at h
  simp only [bind, Except.bind, pure, Except.pure] at h
  have hs : ∀ x, d.getShares = .ok x → x = d.shares := by
    intro x hx
    unfold GuiDecryption.getShares at hx
    split at hx
    · cases hx
    · cases hx; rfl
  cases h1 : d.getShares with
  | error x => rw [h1] at h; cases h
  | ok ss =>
  rw [h1] at h
  rw [hs _ h1] at h
  simp only at h
  cases h2 : announceShares e d.shares DM.init with
  | error x => rw [h2] at h; cases h
  | ok dm =>
  rw [h2] at h
  simp only at h
  rw [hread, htal] at h
  simp only at h
  cases h3 : dm.plaintextTally E maxE e.context t e.manifest with
  | error x => rw [h3] at h; cases h
  | ok o =>
  rw [h3] at h
  cases o with
  | none => cases h
  | some pt =>
  simp only at h
  cases h4 : dm.plaintextBallots E maxE e.context (spoiledOf bs) e.manifest with
  | error x => rw [h4] at h; cases h
  | ok o =>
  rw [h4] at h
  cases o with
  | none => cases h
  | some pbs =>
  simp only at h
  cases h5 : lagrangeForGuardians E.P (dm.available.map (·.2)) with
  | error x => rw [h5] at h; cases h
  | ok l =>
  rw [h5] at h
  cases h
  exact ⟨dm, rfl, h3, h4, h5, rfl⟩

/-- The result of a decryption that every guardian joined is in order for an auditor. -/
theorem s2_inOrder (hv : E.P.Valid) {maxE : Nat} {net : Nat → Nat → Bool} {db : GuiDb} {d : GuiDecryption}
    {e : ElectionDoc} {team : List Guardian} (ht : ElectionTeam E.P e team)
    (he : dget db.elections d.electionId = some e) {bs : List SBallot} {t : Tally}
    (hready : ReadyToDecrypt E maxE e team bs t) (hread : db.getBallots parse net d.electionId = bs)
    (hsh : ∀ s ∈ d.shares, ∃ g ∈ team, JoinOf E e g bs t s) (hall : ∀ g ∈ team, ∃ s ∈ d.shares, s.guardianId = g.id)
    {r : GuiResult} (h : s2Compute E maxE parse net db d = .ok r) (w : RecordView) (wm : w.manifest = e.manifest)
    (wc : w.context = e.context)
    (wg : (w.guardians.map (fun r => (r.guardianId, r.publicKey))).Perm (team.map (fun g => (g.id, g.electionKeys.keyPair.pub)))) :
    r.tally.InOrder E w t.toCts ∧
    (∀ b ∈ spoiledOf bs, ∀ pt, dget r.ballots b.objectId = some pt →
      pt.Correct E.P e.context.elgamalPublicKey e.manifest b.toCts → pt.InOrder E w b.toCts) ∧
    ∀ g ∈ team, ∃ l, dget r.lagrange (toString g.electionKeys.sequenceOrder) = some l ∧ l < E.P.q ∧
      (l : Int) * (((team.filter (fun h => decide (h.id ≠ g.id))).map (fun h => h.electionKeys.sequenceOrder)).map
        (fun j => j - g.electionKeys.sequenceOrder)).prod ≡
        ((team.filter (fun h => decide (h.id ≠ g.id))).map (fun h => h.electionKeys.sequenceOrder)).prod [ZMOD E.P.q] := by
  obtain ⟨r', hr', -, hcorr, -, -, -⟩ := s2_complete hv ht he hready hread hsh hall
  rw [h] at hr'
  obtain rfl : r = r' := Except.ok.inj hr'
  obtain ⟨dm, hann, hpt, hpts, hlag, -⟩ := s2Compute_parts he hread hready.tallied h
  have hnod : ∀ s ∈ d.shares, (dkeys s.ballotShares).Nodup := by
    intro s hs
    obtain ⟨g, hg, hj⟩ := hsh s hs
    obtain ⟨sd, hsd⟩ := hj.ballots
    rw [hsd]
    exact computeBallotShares_nodup ..
  obtain ⟨used, hbook, hsub, hcover⟩ := announceShares_book d.shares [] DM.init dm (Book.init e) hnod hann
  rw [List.nil_append] at hbook hcover
  have hused : ∀ s ∈ used, ∃ g ∈ team, JoinOf E e g bs t s := fun s hs => hsh s (hsub.subset hs)
  have hlen : ∀ shares, readyToDecrypt e.context shares = true → shares.length = team.length := by
    intro shares hr
    unfold readyToDecrypt at hr
    rw [ht.count] at hr
    simpa using hr
  have hshows : ∀ cs (pt : PlaintextTally), Decryptable E.P maxE e.context.elgamalPublicKey e.manifest cs →
      pt.Correct E.P e.context.elgamalPublicKey e.manifest cs →
      ∀ c ∈ cs, ∀ s ∈ c.selections, Describes e.manifest c.objectId s.objectId → ∃ n, pt.Reports c.objectId s.objectId n := by
    intro cs pt h1 h2 c hc s hs hd
    obtain ⟨n, hn1, -, hn2⟩ := h1.values c hc s hs hd
    exact ⟨n, (h2 _ _ _).2 ⟨c, hc, s, hs, rfl, rfl, hd, hn1, hn2⟩⟩
  have hids : (team.map Guardian.id).Nodup := ht.ids
  refine ⟨?_, ?_, ?_⟩
  · unfold DM.plaintextTally at hpt
    split at hpt
    · cases hpt
    · rename_i hcond
      simp only [Bool.or_eq_true, Bool.not_eq_true', not_or, Bool.not_eq_false] at hcond
      unfold decryptTally at hpt
      simp only [bind, Except.bind, pure, Except.pure] at hpt
      cases hl : decryptContestsLoop E maxE dm.tallyShares e.context.cryptoExtendedBaseHash e.manifest true t.toCts [] with
      | error x => rw [hl] at hpt; cases hpt
      | ok o =>
        rw [hl] at hpt
        cases o with
        | none => cases hpt
        | some x =>
          simp only [Option.map_some, Except.ok.injEq, Option.some.injEq] at hpt
          rw [← hpt] at hcorr ⊢
          refine inOrder_of_decrypt hv ht.hash ht.keys hids hready.tally.readable
            (own_of_names e.orderName ?_ (fun y hy => ?_)) (hlen _ hcond.2) hl w wm wc wg (hshows _ _ hready.tally hcorr)
          · rw [hbook.tally, dkeys, List.map_map]
            exact hbook.nodup
          · rw [hbook.tally] at hy
            obtain ⟨s, hs, rfl⟩ := List.mem_map.1 hy
            obtain ⟨g, hg, hj⟩ := hused s hs
            obtain ⟨sd, hsd⟩ := hj.tally
            exact ⟨g, hg, by rw [hj.user], _, sd, hsd⟩
  · intro b hb pt hget hcor
    unfold DM.plaintextBallots at hpts
    split at hpts
    · cases hpts
    · cases hloop : plaintextBallotsLoop E maxE dm e.context e.manifest (spoiledOf bs) [] with
      | error x => rw [hloop] at hpts; cases hpts
      | ok x =>
        rw [hloop] at hpts
        have hx : x = r.ballots := by simpa [Except.map] using hpts
        rw [← hx] at hget
        rcases plaintextBallotsLoop_mem maxE dm e.context e.manifest (spoiledOf bs) [] x hloop _ (mem_of_dget hget)
          with h1 | ⟨b', hb', hid', shares, hshares, hrd, hdcr⟩
        · cases h1
        · have hbb : b' = b := List.inj_on_of_nodup_map hready.ids hb' hb hid'.symm
          subst hbb
          unfold decryptBallotWithShares at hdcr
          simp only [bind, Except.bind, pure, Except.pure] at hdcr
          cases hl : decryptContestsLoop E maxE shares e.context.cryptoExtendedBaseHash e.manifest true b'.toCts [] with
          | error x => rw [hl] at hdcr; cases hdcr
          | ok o =>
            rw [hl] at hdcr
            cases o with
            | none => cases hdcr
            | some y =>
              simp only [Option.map_some, Except.ok.injEq, Option.some.injEq] at hdcr
              rw [← hdcr] at hcor ⊢
              have hsb := hbook.ballots b'.objectId
              rw [hshares, Option.getD_some] at hsb
              refine inOrder_of_decrypt hv ht.hash ht.keys hids (hready.ballots b' hb).readable
                (own_of_names e.orderName ?_ (fun z hz => ?_)) (hlen _ hrd) hl w wm wc wg (hshows _ _ (hready.ballots b' hb) hcor)
              · rw [hsb]
                exact (filterMap_keys (fun s => e.orderName s.guardianId) _ used).nodup hbook.nodup
              · rw [hsb] at hz
                obtain ⟨s, hs, hz⟩ := List.mem_filterMap.1 hz
                obtain ⟨g, hg, hj⟩ := hused s hs
                obtain ⟨sd, hsd⟩ := hj.ballots
                cases hgs : dget s.ballotShares b'.objectId with
                | none => rw [hgs] at hz; cases hz
                | some o =>
                  rw [hgs] at hz
                  cases o with
                  | none => cases hz
                  | some sh =>
                    cases hz
                    rw [hsd] at hgs
                    obtain ⟨b'', hb'', hbid, sd', hsh'⟩ := computeBallotShares_mem g (spoiledOf bs) e.context sd _ (mem_of_dget hgs) sh rfl
                    have : b'' = b' := List.inj_on_of_nodup_map hready.ids hb'' hb hbid
                    subst this
                    exact ⟨g, hg, by rw [hj.user], _, sd', hsh'⟩
  · intro g hg
    have hnames : ∀ a ∈ team, ∀ b ∈ team, e.orderName a.id = e.orderName b.id → a = b := by
      intro a ha b hb hab
      rw [ht.orderName ha, ht.orderName hb] at hab
      refine List.inj_on_of_nodup_map hready.distinct ha hb ?_
      have := Int.repr_injective hab
      rw [this]
    have hkeys : dm.available.map (·.2) = used.map (fun s => s.named e) := by
      rw [hbook.available, List.map_map]; rfl
    have hkn : ((used.map (fun s => s.named e)).map (fun k => k.ownerId)).Nodup := by
      rw [List.map_map]; exact hbook.nodup
    rw [hkeys] at hlag
    have hperm : (used.map (fun s => (s.guardianId, (s.named e).sequenceOrder))).Perm
        (team.map (fun g => (g.id, g.electionKeys.sequenceOrder))) := by
      have hnd1 : (used.map (fun s => (s.guardianId, (s.named e).sequenceOrder))).Nodup := by
        refine List.Nodup.of_map (fun x => e.orderName x.1) ?_
        rw [List.map_map]
        exact hbook.nodup
      have hnd2 : (team.map (fun g => (g.id, g.electionKeys.sequenceOrder))).Nodup := by
        refine List.Nodup.of_map Prod.fst ?_
        rw [List.map_map]
        exact hids
      have hval : ∀ s ∈ used, ∀ g ∈ team, JoinOf E e g bs t s →
          (s.guardianId, (s.named e).sequenceOrder) = (g.id, g.electionKeys.sequenceOrder) := by
        intro s hs g hg hj
        refine Prod.ext hj.user ?_
        unfold JoinedShare.named
        rw [hj.key]
        rfl
      refine (List.perm_ext_iff_of_nodup hnd1 hnd2).2 (fun x => ⟨fun hx => ?_, fun hx => ?_⟩)
      · obtain ⟨s, hs, rfl⟩ := List.mem_map.1 hx
        obtain ⟨g, hg, hj⟩ := hused s hs
        exact List.mem_map.2 ⟨g, hg, (hval s hs g hg hj).symm⟩
      · obtain ⟨g, hg, rfl⟩ := List.mem_map.1 hx
        obtain ⟨s, hs, hu⟩ := hall g hg
        obtain ⟨s', hs', hn'⟩ := List.mem_map.1 (hcover s hs)
        obtain ⟨g', hg', hj⟩ := hused s' hs'
        rw [hu, hj.user] at hn'
        have := hnames g' hg' g hg hn'
        subst this
        exact List.mem_map.2 ⟨s', hs', hval s' hs' g' hg hj⟩
    obtain ⟨s, hs, hsg⟩ := List.mem_map.1 (hperm.mem_iff.2 (List.mem_map.2 ⟨g, hg, rfl⟩))
    obtain ⟨hs1, hs2⟩ := Prod.mk.inj hsg
    obtain ⟨l, l1, l2, l3⟩ := coefficient_of_lagrange hv hkn hlag (s.named e) (List.mem_map_of_mem hs)
    have hown : (s.named e).ownerId = e.orderName g.id := by
      show e.orderName s.guardianId = _
      rw [hs1]
    refine ⟨l, ?_, l2, ?_⟩
    · rw [hown, ht.orderName hg] at l1
      exact l1
    · have hp : (((used.map (fun s => s.named e)).filter (fun k => decide (k.ownerId ≠ (s.named e).ownerId))).map
          (fun k => k.sequenceOrder)).Perm
          ((team.filter (fun h => decide (h.id ≠ g.id))).map (fun h => h.electionKeys.sequenceOrder)) := by
        have h1 := (hperm.filter (fun x => decide (e.orderName x.1 ≠ e.orderName g.id))).map Prod.snd
        rw [List.filter_map, List.map_map, List.filter_map, List.map_map] at h1
        rw [List.filter_map, List.map_map, hown]
        have h2 : team.filter ((fun x : String × Int => decide (e.orderName x.1 ≠ e.orderName g.id)) ∘
            fun g => (g.id, g.electionKeys.sequenceOrder)) = team.filter (fun h => decide (h.id ≠ g.id)) := by
          refine List.filter_congr (fun a ha => ?_)
          simp only [Function.comp_apply, decide_eq_decide, ne_eq, not_iff_not]
          constructor
          · intro h
            rw [hnames a ha g hg h]
          · intro h
            rw [h]
        rw [h2] at h1
        exact h1
      rw [← hp.prod_eq, ← (hp.map _).prod_eq]
      rw [hs2] at l3
      exact l3

/-- The record that is exported after a decryption. -/
theorem record_of_decrypted (hv : E.P.Valid) (hpq : (E.P.q - 1) * (E.P.q - 1) < E.P.p) {maxE : Nat} (hmax1 : 1 ≤ maxE)
    {json : ContestData → Bytes} {m : Manifest} {im : InternalManifest} (hem : ElectionReady E m im) {db : GuiDb} {eid : String}
    {e e' : ElectionDoc} {team : List Guardian} {vs : List VotedBallot} {net : Nat → Nat → Bool} (hnet : ∀ n, ∃ k < 3, net n k = true)
    {t : Tally} {d : GuiDecryption} {r : GuiResult} (h : Decrypted E maxE parse db eid e m im team vs net e' t d r)
    (hctx : e.context = makeContext E team.length e.context.quorum e.context.elgamalPublicKey e.context.commitmentHash
      (m.cryptoHash E))
    (hvs : ∀ v ∈ vs, v.Encrypted E json im e.context ∧ ∃ d, im.StyleHas v.plain.styleId d)
    (hst : ∀ v ∈ vs, v.state = .cast ∨ v.state = .spoiled)
    (hsmall : (counted vs).length < E.P.q) (hmax : (counted vs).length ≤ maxE)
    {constants : Constants} (hk : constants.params = E.P) {x : ElectionExtras}
    (hx : x.records.map (fun r => (r.guardianId, r.sequenceOrder, r.publicKey))
      = team.map (fun g => (g.id, g.electionKeys.sequenceOrder, g.electionKeys.keyPair.pub)))
    {net' : Nat → Nat → Bool} (hnet' : ∀ n, ∃ k < 3, net' n k = true) :
    ∃ rec, guiExportRecord constants parse net' db (some (d.setCompleted r)) x = .ok rec ∧
      ∀ v : RecordView, v.Of rec → v.ResultAudited E ∧
        v.Publishes im ((counted vs).map (fun v => v.plain))
          (((firsts vs).filter (fun v => decide (v.state = .spoiled))).map (fun v => v.plain)) ∧
        ∀ g ∈ v.guardians, ∃ w, dget v.coefficients (toString g.sequenceOrder) = some w ∧ v.IsCoefficient E.P g w := by
  obtain ⟨hm', hc'⟩ := h.same
  have hbal := h.read net' hnet'
  set bs := (firsts vs).map (fun v => submitBallot E v.enc v.state) with hbs
  have hteam := h.guardians
  have hres : isValidResidue E.P e.context.elgamalPublicKey = true := by
    rw [← hc', hteam.joint]
    exact jointKey_residue hv team _ _ hteam.keys
  have hfn := firsts_nodup vs
  have hff := firsts_of_nodup (firsts vs) hfn
  obtain ⟨hbid, t', htally, hdec, -, hba⟩ := ballots_audited hv hpq hem hres hfn (fun v hv' => hvs v (firsts_subset vs v hv')) hsmall hmax
  have hstore : (stored E (firsts vs)).all = bs := by
    unfold stored Store.all
    rw [hff, List.map_map]
    rfl
  have htt : t' = t := by
    have h1 := getTally_of_store hem.internal (fun b hb => (hba bs (List.Perm.refl _)).accepted b (by rw [← hstore]; exact hb)) htally
    have h2 := h.ready.tallied
    rw [← hbs, hm', hc', ← hstore, h1] at h2
    exact Except.ok.inj h2
  subst htt
  obtain ⟨r', hr', r1, r2, r3, r4, -⟩ := s2_complete hv hteam (by rw [h.id]; exact h.election) h.ready
    (by rw [h.id]; exact h.read net hnet) h.shares h.all
  rw [h.result] at hr'
  obtain rfl : r = r' := Except.ok.inj hr'
  have hspoiled := spoiledOf_submitted E (firsts vs)
  rw [← hbs] at hspoiled
  -- the record
  have hrec : guiExportRecord constants parse net' db (some (d.setCompleted r)) x = .ok (exportRecord m e.context x.extendedData
      constants x.devices bs (r.ballots.map (·.2)) r.ciphertextTally.publish r.tally (some x.records) r.lagrange) := by
    unfold guiExportRecord GuiDb.getElection GuiDecryption.setCompleted
    simp only [h.id, h.election, bind, Except.bind, hbal, hm', hc']
  refine ⟨_, hrec, fun v hof => ?_⟩
  have w1 := hof.guardians
  have w2 := hof.ballots
  have w3 := hof.spoiled
  simp only [exportRecord, Option.getD_some] at w1 w2 w3
  have hids : x.records.map GuardianRecord.guardianId = team.map (fun g => g.id) := by
    have := congrArg (List.map Prod.fst) hx
    rw [List.map_map, List.map_map] at this
    exact this
  have hpubs : x.records.map GuardianRecord.publicKey = team.map (fun g => g.electionKeys.keyPair.pub) := by
    have := congrArg (List.map (fun y => y.2.2)) hx
    rw [List.map_map, List.map_map] at this
    exact this
  have hspids : ((r.ballots.map (·.2)).map PlaintextTally.objectId) = (spoiledOf bs).map (fun b => b.objectId) := by
    rw [← r3, List.map_map]
    refine List.map_congr_left (fun y hy => ?_)
    obtain ⟨b, hb, hbi⟩ : ∃ b ∈ spoiledOf bs, b.objectId = y.1 := by
      have : y.1 ∈ r.ballots.map (fun x => x.1) := List.mem_map_of_mem hy
      rw [r3] at this
      exact List.mem_map.1 this
    obtain ⟨pt, h1, h2, -⟩ := r4 b hb
    have hnd : (dkeys r.ballots).Nodup := by
      unfold dkeys
      rw [r3]
      exact h.ready.ids
    have h3 := dget_of_mem hnd (show (y.1, y.2) ∈ r.ballots from hy)
    rw [hbi] at h1 h2
    rw [h1] at h3
    cases h3
    exact h2
  have hbsnd : (bs.map (fun b => b.objectId)).Nodup := (hba bs (List.Perm.refl _)).ids
  rw [writeAll_snd _ _ _ (by rw [hids]; exact hteam.ids)] at w1
  rw [writeAll_snd _ _ _ hbsnd] at w2
  rw [writeAll_snd _ _ _ (by rw [hspids]; exact h.ready.ids)] at w3
  have ha := hba v.ballots w2
  have wm : v.manifest = m := hof.manifest
  have wc : v.context = e.context := hof.context
  have we : v.encryptedTally = t'.publish := by rw [hof.encryptedTally, ← r1]; rfl
  have wt : v.tally = r.tally := hof.tally
  have wl : v.coefficients = r.lagrange := hof.coefficients
  have wg3 : (v.guardians.map (fun r => (r.guardianId, r.sequenceOrder, r.publicKey))).Perm
      (team.map (fun g => (g.id, g.electionKeys.sequenceOrder, g.electionKeys.keyPair.pub))) := by
    rw [← hx]
    exact w1.map _
  have wg : (v.guardians.map (fun r => (r.guardianId, r.publicKey))).Perm
      (team.map (fun g => (g.id, g.electionKeys.keyPair.pub))) := by
    have := wg3.map (fun y => (y.1, y.2.2))
    rw [List.map_map, List.map_map] at this
    exact this
  have wgo : (v.guardians.map (fun r => (r.guardianId, r.sequenceOrder))).Perm
      (team.map (fun g => (g.id, g.electionKeys.sequenceOrder))) := by
    have := wg3.map (fun y => (y.1, y.2.1))
    rw [List.map_map, List.map_map] at this
    exact this
  have wlen : v.guardians.length = team.length := by
    have := wg.length_eq
    rwa [List.length_map, List.length_map] at this
  obtain ⟨o1, o2, o3⟩ := s2_inOrder hv hteam (by rw [h.id]; exact h.election) h.ready (by rw [h.id]; exact h.read net hnet) h.shares h.all
    h.result v (wm.trans hm'.symm) (wc.trans hc'.symm) wg
  have hsp : ∀ b ∈ v.ballots, b.state = .spoiled → b ∈ spoiledOf bs := by
    intro b hb hs
    exact List.mem_filter.2 ⟨w2.mem_iff.1 hb, by simpa using hs⟩
  refine ⟨⟨?_, ?_, ?_, ?_, ?_, ?_, ha.ids, ?_, ?_, ?_, ?_, ?_, ?_⟩, ?_, ?_⟩
  · rw [hof.constants]; exact hk
  · rw [wm]; exact (C41_iff_partial m).2 hem.manifest.ok
  · rw [wm, wc, wlen]; exact hctx
  · have := (wg.map Prod.fst).nodup_iff.2 (by rw [List.map_map]; exact hteam.ids)
    rw [List.map_map] at this
    exact this
  · intro g hg
    have : g.publicKey ∈ x.records.map GuardianRecord.publicKey := List.mem_map_of_mem (w1.mem_iff.1 hg)
    rw [hpubs] at this
    obtain ⟨g', hg', hgk⟩ := List.mem_map.1 this
    rw [← hgk, hteam.keys g' hg']
    exact residue_of_pow hv (Nat.mod_lt _ hv.p_pos) (e := g'.electionKeys.keyPair.secret) (by rw [ZMod.natCast_mod]; push_cast; rfl)
  · rw [wc, ← hc', hteam.joint, combinePublicKeys_prod hv.one_lt_p]
    congr 1
    have := (w1.map GuardianRecord.publicKey).prod_eq
    rw [this, hpubs]
  · rw [wm, wc]; exact ha.valid
  · rw [wm, wc]; exact ha.aggregation v rfl we
  · rw [we, wt]; exact o1
  · intro b hb hs
    obtain ⟨pt, h1, h2, h3⟩ := r4 b (hsp b hb hs)
    exact ⟨pt, w3.mem_iff.2 (List.mem_map.2 ⟨_, mem_of_dget h1, rfl⟩), h2, o2 b (hsp b hb hs) pt h1 h3⟩
  · intro pt hpt
    have : pt.objectId ∈ (spoiledOf bs).map (fun b => b.objectId) := by
      rw [← hspids]
      exact List.mem_map_of_mem (w3.mem_iff.1 hpt)
    obtain ⟨b, hb, hbi⟩ := List.mem_map.1 this
    obtain ⟨hb1, hb2⟩ := List.mem_filter.1 hb
    exact ⟨b, w2.mem_iff.2 hb1, by simpa using hb2, hbi⟩
  · rw [(w3.map _).nodup_iff, hspids]
    exact h.ready.ids
  · refine publishes_of (fun v hv' => hbid v hv') (fun v hv' => hst v (firsts_subset vs v hv')) w2 ha.regular
      (by rw [we]; exact ha.tally.contests) ?_ ?_
    · rw [wt]
      intro cid sid n
      simp only [List.map_map]
      exact h.reports r.tally (by rw [← hm', ← hc']; exact r2) cid sid n
    · intro b hb
      obtain ⟨u, hu, rfl⟩ := List.mem_map.1 hb
      obtain ⟨hu1, hu2⟩ := List.mem_filter.1 hu
      have hmem : submitBallot E u.enc u.state ∈ spoiledOf bs := by
        rw [hspoiled]
        exact List.mem_map_of_mem hu
      obtain ⟨pt, h1, h2, h3⟩ := r4 _ hmem
      refine ⟨pt, w3.mem_iff.2 (List.mem_map.2 ⟨_, mem_of_dget h1, rfl⟩), h2.trans (hbid u hu1), ?_⟩
      rw [hm', hc'] at h3
      exact (ballot_core hv hpq maxE hmax1 json m im hem e.context hres u (hvs u (firsts_subset vs u hu1)).1).2.2 pt h3
  · intro g hg
    obtain ⟨g', hg', hgg⟩ := List.mem_map.1 (wgo.mem_iff.1 (List.mem_map_of_mem hg))
    obtain ⟨hg1, hg2⟩ := Prod.mk.inj hgg
    obtain ⟨l, l1, l2, l3⟩ := o3 g' hg'
    refine ⟨l, by rw [wl, ← hg2]; exact l1, l2, ?_⟩
    have hp : ((v.guardians.filter (fun h => decide (h.guardianId ≠ g.guardianId))).map GuardianRecord.sequenceOrder).Perm
        ((team.filter (fun h => decide (h.id ≠ g'.id))).map (fun h => h.electionKeys.sequenceOrder)) := by
      have h1 := (wgo.filter (fun x => decide (x.1 ≠ g.guardianId))).map Prod.snd
      rw [List.filter_map, List.map_map, List.filter_map, List.map_map, ← hg1] at h1
      rw [← hg1]
      exact h1
    show (l : Int) * _ ≡ _ [ZMOD E.P.q]
    rw [hp.prod_eq, (hp.map _).prod_eq, ← hg2]
    exact l3

end EG
