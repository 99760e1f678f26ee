import Verif.Lemmas.Export
import Verif.Props.Verify
import Verif.Props.VerifyBallot

/-!
# The audit of the record of an election by the CLI
-/

namespace EG

variable {E : Env}

/-- The proofs of a generated key are valid. -/
theorem generated_proofs (hv : E.P.Valid) {id : String} {order : Int} {rands : List (Nat × Nat)} {kp : ElectionKeyPair}
    (h : generateElectionKeyPair E id order rands = .ok kp) :
    List.Forall₂ (fun k (pf : SchnorrProof) => pf.k = k ∧ pf.isValid E = true) kp.share.commitments kp.share.proofs := by
  obtain ⟨-, -, h3, -, -⟩ := generateElectionKeyPair_ok h
  simp only [ElectionKeyPair.share, h3, getCommitments, getProofs, generatePolynomial, List.map_map]
  rw [List.forall₂_map_left_iff, List.forall₂_map_right_iff]
  exact List.forall₂_same.2 (fun x _ => ⟨rfl, C09_completeness E hv x.1 x.2⟩)

/-- Another tally with the same contests and ids verifies too. -/
theorem verifyAggregation_congr {bs : List SBallot} {t t' : Tally} {m : Manifest} {im : InternalManifest} {ctx : Context}
    (him : mkInternalManifest E m = .ok im) (ht : t.WF) (ht' : t'.WF) (hc : t'.contests = t.contests)
    (h1 : ∀ x, x ∈ t.castIds ↔ x ∈ t'.castIds) (h2 : ∀ x, x ∈ t.spoiledIds ↔ x ∈ t'.spoiledIds)
    (h : verifyAggregation E true bs t m ctx = .ok true) : verifyAggregation E true bs t' m ctx = .ok true := by
  rw [C56_success_iff true bs _ m im ctx him ht] at h
  rw [C56_success_iff true bs _ m im ctx him ht']
  exact ⟨h.1, fun x => (h.2.cast x).trans (h1 x), fun x => (h.2.spoiled x).trans (h2 x), by rw [hc]; exact h.2.contests⟩

/-- The coefficients that `compute_lagrange_coefficients_for_guardians` returns. -/
theorem coefficient_of_lagrange (hv : E.P.Valid) {keys : List ElectionPublicKey} (hid : (keys.map (fun k => k.ownerId)).Nodup)
    {d : List (String × Nat)} (h : lagrangeForGuardians E.P keys = .ok d) (k : ElectionPublicKey) (hk : k ∈ keys) :
    ∃ l, dget d k.ownerId = some l ∧ l < E.P.q ∧
      (l : Int) * (((keys.filter (fun g => decide (g.ownerId ≠ k.ownerId))).map (fun g => g.sequenceOrder)).map
        (fun j => j - k.sequenceOrder)).prod ≡
        ((keys.filter (fun g => decide (g.ownerId ≠ k.ownerId))).map (fun g => g.sequenceOrder)).prod [ZMOD E.P.q] := by
  have key : ∀ (all ks : List ElectionPublicKey) (d0 d : List (String × Nat)), (ks.map (fun k => k.ownerId)).Nodup →
      ks.foldlM (fun d k => do
        let l ← lagrangeForGuardian E.P k all
        return dset d k.ownerId l) d0 = Except.ok (ε := Err) d →
      (∀ x, x ∉ ks.map (fun k => k.ownerId) → dget d x = dget d0 x) ∧
      ∀ k ∈ ks, ∃ l, dget d k.ownerId = some l ∧ lagrangeForGuardian E.P k all = .ok l := by
    intro all ks
    induction ks with
    | nil =>
      intro d0 d _ h
      cases h
      exact ⟨fun _ _ => rfl, by simp⟩
    | cons a ks ih =>
      intro d0 d hn h
      rw [List.map_cons, List.nodup_cons] at hn
      rw [List.foldlM_cons] at h
      simp only [bind, Except.bind, pure, Except.pure] at h
      cases hl : lagrangeForGuardian E.P a all with
      | error e => rw [hl] at h; cases h
      | ok l =>
        rw [hl] at h
        obtain ⟨h1, h2⟩ := ih _ _ hn.2 h
        refine ⟨fun x hx => ?_, fun k hk => ?_⟩
        · rw [List.map_cons, List.mem_cons, not_or] at hx
          rw [h1 x hx.2, dget_dset, if_neg (fun h => hx.1 h.symm)]
        · rcases List.mem_cons.1 hk with rfl | hk
          · exact ⟨l, by rw [h1 _ hn.1, dget_dset, if_pos rfl], hl⟩
          · exact h2 k hk
  obtain ⟨l, h1, h2⟩ := (key keys keys [] d hid h).2 k hk
  unfold lagrangeForGuardian at h2
  have hne : ∀ j : Int, j ∈ (keys.filter (fun g => decide (g.ownerId ≠ k.ownerId))).map (fun g => g.sequenceOrder) →
      (j : ZMod E.P.q) ≠ (k.sequenceOrder : ZMod E.P.q) := by
    intro j hj heq
    rw [computeLagrange_error hv _ _ ⟨j, hj, heq⟩] at h2
    cases h2
  obtain ⟨l', h3, h4, h5⟩ := computeLagrange_spec hv k.sequenceOrder _ hne
  rw [h2] at h3
  cases h3
  refine ⟨l, h1, h4, ?_⟩
  rw [← ZMod.intCast_eq_intCast_iff]
  generalize (keys.filter (fun g => decide (g.ownerId ≠ k.ownerId))).map (fun g => g.sequenceOrder) = js at hne h5
  have : Fact E.P.q.Prime := ⟨hv.q_prime⟩
  push_cast
  rw [h5]
  clear h5 h2
  induction js with
  | nil => simp
  | cons j js ih =>
    have hj := hne j List.mem_cons_self
    simp only [List.map_cons, List.prod_cons]
    push_cast
    have := ih (fun x hx => hne x (List.mem_cons_of_mem _ hx))
    have hs : (j : ZMod E.P.q) - (k.sequenceOrder : ZMod E.P.q) ≠ 0 := sub_ne_zero.2 hj
    rw [← this]
    field_simp

/-- What an auditor can check about the ballots `bs` and their tally. -/
structure BallotsAudited (E : Env) (m : Manifest) (im : InternalManifest) (ctx : Context) (bs : List SBallot) (t : Tally) : Prop where
  regular : ∀ b ∈ bs, b.toCBallot.Regular im
  ids : (bs.map (fun b => b.objectId)).Nodup
  tally : t.WF
  accepted : ∀ b ∈ bs, ballotIsValidForElection E b.toCBallot im ctx true = .ok true
  valid : ∀ b ∈ bs, verifyBallot E b.toCBallot m ctx = .ok true
  aggregation : ∀ w : RecordView, w.ballots = bs → w.encryptedTally = t.publish → verifyAggregation E true bs w.tallyToCheck m ctx = .ok true

/-- Ballots with distinct ids, as they were encrypted and submitted, and their tally. -/
theorem ballots_audited (hv : E.P.Valid) (hpq : (E.P.q - 1) * (E.P.q - 1) < E.P.p) {maxE : Nat} {json : ContestData → Bytes}
    {m : Manifest} {im : InternalManifest} (he : ElectionReady E m im) {ctx : Context}
    (hres : isValidResidue E.P ctx.elgamalPublicKey = true) {vs : List VotedBallot}
    (hn : (vs.map (fun v => v.plain.objectId)).Nodup)
    (hvs : ∀ v ∈ vs, v.Encrypted E json im ctx ∧ ∃ d, im.StyleHas v.plain.styleId d)
    (hsmall : (vs.filter (fun v => decide (v.state = .cast))).length < E.P.q)
    (hmax : (vs.filter (fun v => decide (v.state = .cast))).length ≤ maxE) :
    (∀ v ∈ vs, (submitBallot E v.enc v.state).objectId = v.plain.objectId) ∧
    ∃ t, tallyBallots E im ctx true (stored E vs) = .ok (some t) ∧ Decryptable E.P maxE ctx.elgamalPublicKey m t.toCts ∧
      (∀ d ∈ im.contests, ∀ sd ∈ d.ballotSelections, electionResult im vs d sd.objectId ≤ (counted vs).length ∧
        ∃ c ∈ t.toCts, c.objectId = d.objectId ∧ ∃ s ∈ c.selections, s.objectId = sd.objectId ∧ Encrypts E.P ctx.elgamalPublicKey (electionResult im vs d sd.objectId) s.ciphertext) ∧
      ∀ bs : List SBallot, bs.Perm (vs.map (fun v => submitBallot E v.enc v.state)) → BallotsAudited E m im ctx bs t := by
  obtain ⟨im', him', hids, hsorted, -, -, -, hdv⟩ := C40_unique_ids_partial E m he.manifest
  rw [he.internal] at him'
  cases him'
  have hm : TallyManifest im := ⟨hids.1, fun d hd => (hdv d hd).2⟩
  have hspec : ∀ v ∈ vs, ∃ ds, BallotSpec E v.plain im ctx v.codeSeed v.nonce v.now ds v.enc := by
    intro v hv'
    refine encryptBallot_some hv hpq hres (fun d hd => ?_) (hvs v hv').1
    obtain ⟨-, -, -, -, hd, -⟩ := hd
    exact he.seats d hd
  have hvalid : ∀ v ∈ vs, ballotIsValidForElection E (submitBallot E v.enc v.state).toCBallot im ctx true = .ok true :=
    fun v hv' => by
      obtain ⟨ds, hs⟩ := hspec v hv'
      exact C34_validity_partial E v.enc v.state im ctx (hs.nonempty (hvs v hv').2) (hs.sorted hsorted)
        (hs.forElection hids hsorted (hvs v hv').2)
  have hbid : ∀ v ∈ vs, (submitBallot E v.enc v.state).objectId = v.plain.objectId := fun v hv' => by
    obtain ⟨ds, hs⟩ := hspec v hv'
    exact hs.id
  have hbnd : ((vs.map (fun v => submitBallot E v.enc v.state)).map (fun b => b.objectId)).Nodup := by
    rw [List.map_map]
    have : vs.map ((fun b : SBallot => b.objectId) ∘ fun v => submitBallot E v.enc v.state)
        = vs.map (fun v => v.plain.objectId) := List.map_congr_left hbid
    rw [this]
    exact hn
  have hf := firsts_of_nodup vs hn
  have hcnt : counted vs = vs.filter (fun v => decide (v.state = .cast)) := by unfold counted; rw [hf]
  obtain ⟨hbox, t, htally, hcast, hspoiled, hdec, henc, -⟩ := election_core hv hpq maxE json m im he ctx hres vs hvs
    (by rw [hcnt]; exact hsmall) (by rw [hcnt]; exact hmax)
  rw [hbox] at htally
  have hstore : (stored E vs).all = vs.map (fun v => submitBallot E v.enc v.state) := by
    unfold stored Store.all
    rw [hf, List.map_map]
    rfl
  refine ⟨hbid, t, htally, hdec, henc, fun bs wb => ?_⟩
  have hwb : ∀ b ∈ bs, ∃ v ∈ vs, b = submitBallot E v.enc v.state := fun b hb => by
    obtain ⟨v, hv', h⟩ := List.mem_map.1 (wb.mem_iff.1 hb)
    exact ⟨v, hv', h.symm⟩
  have hwnd : (bs.map (fun b => b.objectId)).Nodup := (wb.map _).nodup_iff.2 hbnd
  have hreg : ∀ b ∈ bs, b.toCBallot.Regular im := fun b hb => by
    obtain ⟨v, hv', rfl⟩ := hwb b hb
    obtain ⟨ds, hs⟩ := hspec v hv'
    exact submit_regular _ (hs.regular hids)
  have hsep : ∀ b ∈ bs, b.toCBallot.Separate im := fun b hb => by
    obtain ⟨v, hv', rfl⟩ := hwb b hb
    obtain ⟨ds, hs⟩ := hspec v hv'
    exact submit_separate _ (hs.separate he.distinct)
  have hval : ∀ b ∈ bs, ballotIsValidForElection E b.toCBallot im ctx true = .ok true := fun b hb => by
    obtain ⟨v, hv', rfl⟩ := hwb b hb
    exact hvalid v hv'
  have hwall : bs.Perm (stored E vs).all := by rw [hstore]; exact wb
  have hagg := C56_accepts_store_partial (stored E vs) bs hwall t m im ctx he.internal hm hwnd hreg hsep
    (fun b hb => ⟨true, hval b hb⟩) (fun b hb _ => hval b hb) htally
  have htwf : t.WF := by
    have hmem : ∀ b ∈ (stored E vs).all, b ∈ bs := fun b h => hwall.mem_iff.2 h
    have h := C37_batch_partial E im hm ctx true (newTally E "election-results" im) (newTally_wf E im)
      (newTally_shape E im) (stored E vs).all (fun b h => hreg b (hmem b h)) (fun b h => hsep b (hmem b h))
      ((hwall.map _).nodup_iff.1 hwnd) (fun b _ => by simp [Tally.contains, newTally]) (fun b h => ⟨true, hval b (hmem b h)⟩)
      (fun b h _ => hval b (hmem b h))
    unfold tallyBallots at htally
    rw [h] at htally
    simp only [Except.ok.injEq, Option.some.injEq] at htally
    rw [← htally]
    exact runAppends_wf (E := E) im ctx true true _ _ (newTally_WF (E := E) _ im) (newTally_shape E im)
  have hidsIff : ∀ st x, (∃ v ∈ vs.filter (fun v => decide (v.state = st)), v.plain.objectId = x) ↔
      x ∈ (bs.filter (fun b => decide (b.state = st))).map (fun b => b.objectId) := by
    intro st x
    simp only [List.mem_map, List.mem_filter, decide_eq_true_eq]
    constructor
    · rintro ⟨v, ⟨hv', h1⟩, h2⟩
      exact ⟨_, ⟨wb.mem_iff.2 (List.mem_map_of_mem hv'), h1⟩, (hbid v hv').trans h2⟩
    · rintro ⟨b, ⟨hb, h1⟩, h2⟩
      obtain ⟨v, hv', rfl⟩ := hwb b hb
      exact ⟨v, ⟨hv', h1⟩, (hbid v hv').symm.trans h2⟩
  refine ⟨hreg, hwnd, htwf, hval, ?_, fun w hw we => ?_⟩
  · intro b hb
    rw [verifyBallot_eq, ← mkInternalManifest_hash he.internal]
    exact (ballotIsValidForElection_true E _ im ctx true (hval b hb)).2 rfl
  · refine verifyAggregation_congr he.internal htwf ?_ ?_ ?_ ?_ hagg
    · refine ⟨?_, ?_, ?_⟩
      · show ((w.ballots.filter _).map _).Nodup
        rw [hw]
        exact hwnd.sublist (List.filter_sublist.map _)
      · show ((w.ballots.filter _).map _).Nodup
        rw [hw]
        exact hwnd.sublist (List.filter_sublist.map _)
      · show WFContests w.encryptedTally.contests
        rw [we]
        exact htwf.contests
    · show w.encryptedTally.contests = _
      rw [we]
      rfl
    · intro x
      show _ ↔ x ∈ (w.ballots.filter _).map _
      rw [hcast, hcnt, hw]
      exact hidsIff .cast x
    · intro x
      show _ ↔ x ∈ (w.ballots.filter _).map _
      rw [hspoiled, hf, hw]
      refine Iff.trans ?_ (hidsIff .spoiled x)
      simp only [List.mem_filter, decide_eq_true_eq, and_assoc]

/-- The record of an election that was run as by the CLI passes the audit. -/
theorem record_audited (hv : E.P.Valid) (hpq : (E.P.q - 1) * (E.P.q - 1) < E.P.p)
    {loads : Bytes → R (List Char)} {quorum : Nat} (hq : 0 < quorum)
    {rands : String → List (Nat × Nat)} {kps : List ElectionKeyPair} (ht : Team E quorum rands kps)
    (horders : (kps.map (fun kp => kp.sequenceOrder)).Nodup) {sd : TallySeeds} {ctx : Context}
    {maxE : Nat} (hmaxE : 1 ≤ maxE) {json : ContestData → Bytes} {m : Manifest} {im : InternalManifest} (he : ElectionReady E m im)
    (hctx : ctx = makeContext E kps.length quorum (combinePublicKeys E.P (kps.map (fun kp => kp.share.key)))
      (hashElems E [.list ((kps.flatMap (fun kp => kp.share.commitments)).map HArg.elem)]) (m.cryptoHash E))
    {avs : List (Guardian × ElectionKeyPair)} (hp : Present E loads rands kps avs)
    (hall : (avs.map Prod.snd).Perm kps) (hmany : quorum ≤ kps.length) {vs : List VotedBallot}
    (hn : (vs.map (fun v => v.plain.objectId)).Nodup)
    (hvs : ∀ v ∈ vs, v.Encrypted E json im ctx ∧ ∃ d, im.StyleHas v.plain.styleId d)
    (hsmall : (vs.filter (fun v => decide (v.state = .cast))).length < E.P.q)
    (hmax : (vs.filter (fun v => decide (v.state = .cast))).length ≤ maxE)
    {t : Tally} {res : DecryptResults}
    (hct : cliTally E im ctx (vs.map (fun v => submitBallot E v.enc v.state)) = .ok t)
    (hcd : cliDecrypt E sd maxE ctx t ((vs.filter (fun v => decide (v.state = .spoiled))).map (fun v => submitBallot E v.enc v.state))
      (avs.map Prod.fst) m = .ok res)
    {w : RecordView} (wm : w.manifest = m) (wc : w.context = ctx) (wk : w.constants.params = E.P)
    (wg : w.guardians.Perm ((avs.map Prod.fst).map Guardian.publish))
    (wb : w.ballots.Perm (vs.map (fun v => submitBallot E v.enc v.state)))
    (ws : w.spoiled.Perm (res.spoiled.map (fun e => e.2))) (we : w.encryptedTally = res.ciphertextTally.publish)
    (wt : w.tally = res.tally) (wl : w.coefficients = res.lagrange) :
    w.Audited E ∧ (∀ b ∈ w.ballots, b.toCBallot.Regular im) ∧ WFContests w.encryptedTally.contests := by
  have hkey : ctx.elgamalPublicKey = combinePublicKeys E.P (kps.map (fun kp => kp.share.key)) := by rw [hctx]; rfl
  have hctx' : ctx.quorum = (quorum : Int) ∧ ctx.numberOfGuardians = (kps.length : Int) := by rw [hctx]; exact ⟨rfl, rfl⟩
  have hh : ctx.cryptoExtendedBaseHash < E.P.q := by
    rw [hctx]
    exact hashElems_lt (by have := hv.one_lt_q; omega) _
  have hres : isValidResidue E.P ctx.elgamalPublicKey = true := by
    have := combined_residue hv (ht.sharedKeys hv horders)
    rw [List.map_map] at this
    rw [hkey]
    exact this
  -- the guardians
  have hpub : (avs.map Prod.fst).map Guardian.publish = (avs.map Prod.snd).map (fun kp => publishGuardianRecord kp.share) := by
    rw [List.map_map, List.map_map]
    refine List.map_congr_left (fun x hx => ?_)
    show publishGuardianRecord x.1.electionKeys.share = _
    rw [(hp.equipped x hx).2.own]
    rfl
  have hgperm : w.guardians.Perm (kps.map (fun kp => publishGuardianRecord kp.share)) := by
    rw [hpub] at wg
    exact wg.trans (hall.map _)
  have hglen : w.guardians.length = kps.length := by rw [hgperm.length_eq, List.length_map]
  have wg' : (w.guardians.map (fun r => (r.guardianId, r.publicKey))).Perm
      ((avs.map Prod.fst).map (fun g => (g.id, g.electionKeys.keyPair.pub))) := by
    have := wg.map (fun r => (r.guardianId, r.publicKey))
    rw [List.map_map] at this
    exact this
  have hgsid : ((avs.map Prod.fst).map Guardian.id).Nodup := by
    have : (avs.map Prod.fst).map Guardian.id = avs.map (fun x => x.2.ownerId) := by
      rw [List.map_map]
      refine List.map_congr_left (fun x hx => ?_)
      show x.1.electionKeys.ownerId = _
      rw [(hp.equipped x hx).2.own]
    rw [this]
    exact hp.once
  have hgkey : ∀ g ∈ avs.map Prod.fst, g.electionKeys.keyPair.pub = E.P.g ^ g.electionKeys.keyPair.secret % E.P.p := by
    intro g hg
    obtain ⟨x, hx, rfl⟩ := List.mem_map.1 hg
    rw [(hp.equipped x hx).2.own]
    exact (C47_key_pair (ht.generated _ (hp.equipped x hx).1)).2.2.2.2
  have hgslen : (avs.map Prod.fst).length = kps.length := by
    rw [List.length_map, ← List.length_map (f := Prod.snd), hall.length_eq]
  -- the ballots and the tally
  obtain ⟨hbid, t', htally, hdec, -, hba⟩ := ballots_audited hv hpq he hres hn hvs hsmall hmax
  have hba := hba w.ballots wb
  have hf := firsts_of_nodup vs hn
  have hstore : (stored E vs).all = vs.map (fun v => submitBallot E v.enc v.state) := by
    unfold stored Store.all
    rw [hf, List.map_map]
    rfl
  have hwb : ∀ b ∈ w.ballots, ∃ v ∈ vs, b = submitBallot E v.enc v.state := fun b hb => by
    obtain ⟨v, hv', h⟩ := List.mem_map.1 (wb.mem_iff.1 hb)
    exact ⟨v, hv', h.symm⟩
  have hwnd := hba.ids
  have hbnd : ((vs.map (fun v => submitBallot E v.enc v.state)).map (fun b => b.objectId)).Nodup := by
    rw [List.map_map]
    have : vs.map ((fun b : SBallot => b.objectId) ∘ fun v => submitBallot E v.enc v.state)
        = vs.map (fun v => v.plain.objectId) := List.map_congr_left hbid
    rw [this]
    exact hn
  have htt : t' = t := by
    unfold tallyBallots at htally
    unfold cliTally at hct
    rw [← hstore] at hct
    revert htally hct
    rcases (newTally E "election-results" im).batchAppend E im ctx true (stored E vs).all true with ⟨r, t''⟩
    cases r with
    | error e => intro _ h; cases h
    | ok b =>
      cases b with
      | false => intro _ h; cases h
      | true => intro h h'; cases h; cases h'; rfl
  subst htt
  -- the decryption
  set sp := (vs.filter (fun v => decide (v.state = .spoiled))).map (fun v => submitBallot E v.enc v.state) with hsp
  have hin : ∀ v ∈ vs.filter (fun v => decide (v.state = .spoiled)), v ∈ vs := fun v hv' => (List.mem_filter.1 hv').1
  have hspnd : (sp.map (fun b => b.objectId)).Nodup := by
    refine hbnd.sublist ?_
    rw [hsp]
    exact (List.filter_sublist.map _).map _
  have hball := fun v (hv' : v ∈ vs) => ballot_core hv hpq maxE hmaxE json m im he ctx hres v (hvs v hv').1
  have hspdec : ∀ b ∈ sp, Decryptable E.P maxE ctx.elgamalPublicKey m b.toCts := by
    intro b hb
    obtain ⟨v, hv', rfl⟩ := List.mem_map.1 hb
    exact (hball v (hin v hv')).1
  obtain ⟨res', hd1, hd2, hd3, -, -, hlag⟩ := cliDecrypt_spec hv loads quorum hq rands kps ht horders sd ctx hctx' hh maxE m t'
    sp hspnd (by rw [← hkey]; exact hdec) (by rw [← hkey]; exact hspdec) avs hp hall hmany
  rw [hcd] at hd1
  obtain rfl : res = res' := Except.ok.inj hd1
  rw [← hkey] at hd2 hd3
  obtain ⟨dm, hann, hpt, hpts, hrct⟩ : ∃ dm, cliAnnounce E sd ctx t' sp (avs.map Prod.fst) DM.init = .ok dm ∧
      dm.plaintextTally E maxE ctx t' m = .ok (some res.tally) ∧ dm.plaintextBallots E maxE ctx sp m = .ok (some res.spoiled) ∧
      res.ciphertextTally = t' := by
    unfold cliDecrypt at hcd
    simp only [bind, Except.bind, pure, Except.pure] at hcd
    cases h1 : cliAnnounce E sd ctx t' sp (avs.map Prod.fst) DM.init with
    | error e => rw [h1] at hcd; cases hcd
    | ok dm =>
    rw [h1] at hcd
    simp only at hcd
    cases h2 : lagrangeForGuardians E.P (dm.available.map (fun e => e.2)) with
    | error e => rw [h2] at hcd; cases hcd
    | ok l =>
    rw [h2] at hcd
    simp only at hcd
    cases h3 : dm.plaintextTally E maxE ctx t' m with
    | error e => rw [h3] at hcd; cases hcd
    | ok o =>
    rw [h3] at hcd
    cases o with
    | none => cases hcd
    | some pt =>
    simp only [getOptional] at hcd
    cases h4 : dm.plaintextBallots E maxE ctx sp m with
    | error e => rw [h4] at hcd; cases hcd
    | ok o =>
    rw [h4] at hcd
    cases o with
    | none => cases hcd
    | some pts =>
    cases hcd
    exact ⟨dm, rfl, h3, h4, rfl⟩
  have hown := cliAnnounce_own (avs.map Prod.fst) (fun g hg => hg) _ _ (DM.own_init ctx (avs.map Prod.fst) t' sp) hann
  have hready : ∀ shares, readyToDecrypt ctx shares = true → shares.length = (avs.map Prod.fst).length := by
    intro shares h
    unfold readyToDecrypt at h
    rw [hctx'.2] at h
    rw [hgslen]
    simpa using h
  have hshows : ∀ cs (pt : PlaintextTally), Decryptable E.P maxE ctx.elgamalPublicKey m cs → pt.Correct E.P ctx.elgamalPublicKey m cs →
      ∀ c ∈ cs, ∀ s ∈ c.selections, Describes m c.objectId s.objectId → ∃ n, pt.Reports c.objectId s.objectId n := by
    intro cs pt h1 h2 c hc s hs hd
    obtain ⟨n, hn1, -, hn2⟩ := h1.values c hc s hs hd
    exact ⟨n, (h2 _ _ _).2 ⟨c, hc, s, hs, rfl, rfl, hd, hn1, hn2⟩⟩
  rw [hrct] at we
  refine ⟨?_, hba.regular, by rw [we]; exact hba.tally.contests⟩
  refine ⟨wk, ?_, ?_, ?_, ?_, ?_, ?_, hwnd, ?_, ?_, ?_, ?_, ?_, ?_, ?_⟩
  · rw [wm]; exact (C41_iff_partial m).2 he.manifest.ok
  · rw [wm, wc, hglen]
    conv_lhs => rw [hctx]
    rw [hctx]
    rfl
  · refine ⟨_, hgperm, ?_⟩
    rw [wc, hctx, List.flatMap_map]
    rfl
  · rw [(hgperm.map _).nodup_iff, List.map_map]
    exact ht.ids
  · intro g hg
    obtain ⟨kp, hkp, rfl⟩ := List.mem_map.1 (hgperm.mem_iff.1 hg)
    obtain ⟨-, -, hc, hhead, -⟩ := C47_key_pair (ht.generated kp hkp)
    refine ⟨hhead, ?_, generated_proofs hv (ht.generated kp hkp)⟩
    rw [wc, hctx'.1]
    show ((kp.share.commitments.length : Nat) : Int) = _
    rw [hc, List.length_map, List.length_map, ht.coefficients kp hkp]
  · rw [wc, hkey, combinePublicKeys_prod hv.one_lt_p, (hgperm.map _).prod_eq, List.map_map]
    rfl
  · rw [wm, wc]
    exact hba.valid
  · rw [wm, wc]
    exact hba.aggregation w rfl we
  · rw [we, wt]
    show res.tally.InOrder E w t'.toCts
    unfold DM.plaintextTally at hpt
    split at hpt
    · cases hpt
    · rename_i hcond
      simp only [Bool.or_eq_true, Bool.not_eq_true', not_or, Bool.not_eq_false] at hcond
      unfold decryptTally at hpt
      simp only [bind, Except.bind, pure, Except.pure] at hpt
      cases hl : decryptContestsLoop E maxE dm.tallyShares ctx.cryptoExtendedBaseHash m true t'.toCts [] with
      | error e => rw [hl] at hpt; cases hpt
      | ok o =>
        rw [hl] at hpt
        cases o with
        | none => cases hpt
        | some r =>
          simp only [Option.map_some, Except.ok.injEq, Option.some.injEq] at hpt
          rw [← hpt] at hd2 ⊢
          exact inOrder_of_decrypt hv hh hgkey hgsid hdec.readable (own_of_names id hown.once hown.tally) (hready _ hcond.2) hl w wm wc wg'
            (hshows _ _ hdec hd2)
  · intro b hb hst
    obtain ⟨v, hv', rfl⟩ := hwb b hb
    have hbsp : submitBallot E v.enc v.state ∈ sp := List.mem_map.2 ⟨v, List.mem_filter.2 ⟨hv', decide_eq_true (show v.state = .spoiled from hst)⟩, rfl⟩
    obtain ⟨e, he', he1, he2, he3⟩ := forall₂_left hd3 hbsp
    refine ⟨e.2, ws.mem_iff.2 (List.mem_map_of_mem he'), he2, ?_⟩
    unfold DM.plaintextBallots at hpts
    split at hpts
    · cases hpts
    · cases hloop : plaintextBallotsLoop E maxE dm ctx m sp [] with
      | error e => rw [hloop] at hpts; cases hpts
      | ok r =>
        rw [hloop] at hpts
        have hr : r = res.spoiled := by simpa [Except.map] using hpts
        rw [← hr] at he'
        rcases plaintextBallotsLoop_mem maxE dm ctx m sp [] r hloop e he' with h | ⟨b', hb', hid', shares, hsh, hrd, hdcr⟩
        · cases h
        · have hbb : b' = submitBallot E v.enc v.state :=
            List.inj_on_of_nodup_map hspnd hb' hbsp (by rw [← hid', he1])
          subst hbb
          unfold decryptBallotWithShares at hdcr
          simp only [bind, Except.bind, pure, Except.pure] at hdcr
          cases hl : decryptContestsLoop E maxE shares ctx.cryptoExtendedBaseHash m true
              (submitBallot E v.enc v.state).toCts [] with
          | error e => rw [hl] at hdcr; cases hdcr
          | ok o =>
            rw [hl] at hdcr
            cases o with
            | none => cases hdcr
            | some r' =>
              simp only [Option.map_some, Except.ok.injEq, Option.some.injEq] at hdcr
              rw [← hdcr] at he3 ⊢
              obtain ⟨o1, o2⟩ := hown.ballots _ (mem_of_dget hsh)
              refine inOrder_of_decrypt hv hh hgkey hgsid (hspdec _ hbsp).readable (own_of_names id o1 (fun x hx => ?_)) (hready _ hrd) hl w wm wc wg'
                (hshows _ _ (hspdec _ hbsp) he3)
              obtain ⟨g, hg, hgid', b'', hb'', hb3, sds, hs⟩ := o2 x hx
              have : b'' = submitBallot E v.enc v.state := List.inj_on_of_nodup_map hspnd hb'' hbsp hb3
              subst this
              exact ⟨g, hg, hgid', _, _, hs⟩
  · intro pt hpt'
    obtain ⟨e, he', rfl⟩ := List.mem_map.1 (ws.mem_iff.1 hpt')
    obtain ⟨b, hb, -, h2, -⟩ := forall₂_left hd3.flip he'
    obtain ⟨v, hv', rfl⟩ := List.mem_map.1 hb
    exact ⟨_, wb.mem_iff.2 (List.mem_map.2 ⟨v, hin v hv', rfl⟩), of_decide_eq_true (List.mem_filter.1 hv').2, h2.symm⟩
  · rw [(ws.map _).nodup_iff, List.map_map]
    have key : ∀ (l : List SBallot) (r : List (String × PlaintextTally)), List.Forall₂ (fun (b : SBallot)
        (e : String × PlaintextTally) => e.1 = b.objectId ∧ e.2.objectId = b.objectId ∧
        e.2.Correct E.P ctx.elgamalPublicKey m b.toCts) l r →
        r.map (PlaintextTally.objectId ∘ fun e => e.2) = l.map (fun b => b.objectId) := by
      intro l r h
      induction h with
      | nil => rfl
      | cons h _ ih => rw [List.map_cons, List.map_cons, ih]; exact congrArg (· :: _) h.2.1
    rw [key _ _ hd3]
    exact hspnd
  · intro g hg
    have hkeys : (avs.map (fun x => x.2.share)).map publishGuardianRecord = (avs.map Prod.fst).map Guardian.publish := by
      rw [hpub, List.map_map, List.map_map]
      rfl
    rw [← hkeys] at wg
    obtain ⟨k, hk, rfl⟩ := List.mem_map.1 (wg.mem_iff.1 hg)
    obtain ⟨l, hl1, hl2, hl3⟩ := coefficient_of_lagrange hv (by rw [List.map_map]; exact hp.once) hlag k hk
    refine ⟨l, by rw [wl]; exact hl1, hl2, ?_⟩
    have hperm : ((w.guardians.filter (fun h => decide (h.guardianId ≠ (publishGuardianRecord k).guardianId))).map
        GuardianRecord.sequenceOrder).Perm
        (((avs.map (fun x => x.2.share)).filter (fun g => decide (g.ownerId ≠ k.ownerId))).map (fun k => k.sequenceOrder)) := by
      have := (wg.filter (fun h => decide (h.guardianId ≠ (publishGuardianRecord k).guardianId))).map
        GuardianRecord.sequenceOrder
      rw [List.filter_map, List.map_map] at this
      exact this
    rw [hperm.prod_eq, (hperm.map _).prod_eq]
    exact hl3

end EG
