import Verif.Lemmas.Election
import Verif.Props.DecryptionMediator
import Verif.Props.Manifest

/-!
# C60: a whole election
-/

namespace EG

variable {E : Env}

/-- What the election needs from its manifest: ready, with distinct ids of selections and placeholders across all contests,
and realistic numbers of seats. -/
structure ElectionReady (E : Env) (m : Manifest) (im : InternalManifest) : Prop where
  manifest : ManifestReady m
  internal : mkInternalManifest E m = .ok im
  distinct : im.DistinctSelections
  seats : ∀ d ∈ im.contests, d.numberElected < 1000000000 ∧ d.numberElected < E.P.q

theorem combined_residue {P : Params} (hv : P.Valid) {quorum : Int} {all : List ElectionPublicKey}
    {coef : String → List Nat} (h : SharedKeys P quorum all coef) :
    isValidResidue P (combinePublicKeys P (all.map (fun k => k.key))) = true := by
  rw [combinePublicKeys_prod hv.one_lt_p]
  have hp : 0 < P.p := by have := hv.one_lt_p; omega
  have key : ∃ e : Nat, (((all.map (fun k => k.key)).prod : Nat) : ZMod P.p) = (P.g : ZMod P.p) ^ e := by
    have hk := h.keys
    clear h
    induction all with
    | nil => exact ⟨0, by simp⟩
    | cons k all ih =>
      obtain ⟨e, he⟩ := ih (fun x hx => hk x (List.mem_cons_of_mem _ hx))
      refine ⟨polyAt (coef k.ownerId) 0 + e, ?_⟩
      rw [List.map_cons, List.prod_cons, Nat.cast_mul, he, hk k List.mem_cons_self, ZMod.natCast_mod, Nat.cast_pow,
        pow_add]
  obtain ⟨e, he⟩ := key
  exact residue_of_pow hv (Nat.mod_lt _ hp) (e := e) (by rw [ZMod.natCast_mod]; exact he)

theorem describes_iff {m : Manifest} {im : InternalManifest} (hn : (m.contests.map ContestDescription.objectId).Nodup)
    (hmap : im.contests.map (fun d => d.toContestDescription)
      = m.contests.map (fun c => { c with primaryPartyIds := none })) (d : ContestWithPlaceholders)
    (hd : d ∈ im.contests) (sid : String) :
    Describes m d.objectId sid ↔ sid ∈ d.ballotSelections.map SelectionDescription.objectId := by
  have h1 : d.toContestDescription ∈ im.contests.map (fun d => d.toContestDescription) := List.mem_map_of_mem hd
  rw [hmap] at h1
  obtain ⟨c, hc, hcd⟩ := List.mem_map.1 h1
  have hid : c.objectId = d.objectId := by
    have := congrArg ContestDescription.objectId hcd
    exact this
  have hsel : c.ballotSelections = d.ballotSelections := by
    have := congrArg ContestDescription.ballotSelections hcd
    exact this
  have hfind : m.contests.reverse.find? (fun c => c.objectId == d.objectId) = some c := by
    rw [← hid]
    refine find_of_nodup (f := ContestDescription.objectId) ?_ (List.mem_reverse.2 hc)
    rw [List.map_reverse]
    exact List.nodup_reverse.2 hn
  unfold Describes
  rw [hfind]
  simp only [Option.some.injEq, exists_eq_left', hsel]

/-- The encrypted tally of a box of encrypted ballots, and what a correct decryption of it reports. -/
theorem election_core (hv : E.P.Valid) (hpq : (E.P.q - 1) * (E.P.q - 1) < E.P.p) (maxE : Nat)
    (json : ContestData → Bytes) (m : Manifest) (im : InternalManifest) (he : ElectionReady E m im) (ctx : Context)
    (hres' : isValidResidue E.P ctx.elgamalPublicKey = true)
    (vs : List VotedBallot) (hvs : ∀ v ∈ vs, v.Encrypted E json im ctx ∧ ∃ d, im.StyleHas v.plain.styleId d)
    (hsmall : (counted vs).length < E.P.q) (hmax : (counted vs).length ≤ maxE) :
    runBox E im ctx [] (vs.map (fun v => ⟨v.enc, v.state⟩)) = stored E vs ∧
    ∃ t, tallyBallots E im ctx true (runBox E im ctx [] (vs.map (fun v => ⟨v.enc, v.state⟩))) = .ok (some t) ∧
      (∀ x, x ∈ t.castIds ↔ ∃ v ∈ counted vs, v.plain.objectId = x) ∧
      (∀ x, x ∈ t.spoiledIds ↔ ∃ v ∈ firsts vs, v.state = .spoiled ∧ v.plain.objectId = x) ∧
      Decryptable E.P maxE ctx.elgamalPublicKey m t.toCts ∧
      (∀ d ∈ im.contests, ∀ sd ∈ d.ballotSelections, electionResult im vs d sd.objectId ≤ (counted vs).length ∧
        ∃ c ∈ t.toCts, c.objectId = d.objectId ∧ ∃ s ∈ c.selections, s.objectId = sd.objectId ∧ Encrypts E.P ctx.elgamalPublicKey (electionResult im vs d sd.objectId) s.ciphertext) ∧
      ∀ pt : PlaintextTally, pt.Correct E.P ctx.elgamalPublicKey m t.toCts →
        ∀ cid sid n, pt.Reports cid sid n ↔ ∃ d ∈ im.contests, d.objectId = cid ∧
          sid ∈ d.ballotSelections.map SelectionDescription.objectId ∧ n = electionResult im vs d sid := by
  obtain ⟨im', him', hids, hsorted, -, -, hmap, hdv⟩ := C40_unique_ids_partial E m he.manifest
  rw [he.internal] at him'
  cases him'
  have hm : TallyManifest im := ⟨hids.1, fun d hd => (hdv d hd).2⟩
  have hspec : ∀ v ∈ vs, ∃ ds, BallotSpec E v.plain im ctx v.codeSeed v.nonce v.now ds v.enc := by
    intro v hv'
    refine encryptBallot_some hv hpq hres' (fun d hd => ?_) (hvs v hv').1
    obtain ⟨-, -, -, -, hd, -⟩ := hd
    exact he.seats d hd
  have hbox : runBox E im ctx [] (vs.map (fun v => ⟨v.enc, v.state⟩)) = stored E vs :=
    runBox_stored vs (fun v hv' => (hspec v hv').choose_spec.id)
      (fun v hv' => (hspec v hv').choose_spec.forElection hids hsorted (hvs v hv').2)
  obtain ⟨t, ht, hto, hcts, hcast, hspoiled⟩ := tally_stored hm hids vs (fun v hv' => (hspec v hv').choose_spec.id)
    (fun v hv' => (hspec v hv').choose_spec.regular hids) (fun v hv' => (hspec v hv').choose_spec.separate he.distinct)
    (fun v hv' => C34_validity_partial E v.enc v.state im ctx ((hspec v hv').choose_spec.nonempty (hvs v hv').2)
      ((hspec v hv').choose_spec.sorted hsorted)
      ((hspec v hv').choose_spec.forElection hids hsorted (hvs v hv').2))
  have hcounted : ∀ v ∈ counted vs, v ∈ vs := fun v hv' => firsts_subset vs v (List.mem_filter.1 hv').1
  -- what the totals encrypt
  have henc : ∀ d ∈ im.contests, ∀ sd ∈ d.ballotSelections,
      Encrypts E.P ctx.elgamalPublicKey (electionResult im vs d sd.objectId)
        ((ballotCts vs d.objectId sd.objectId).foldl (ctMul E.P) ⟨1, 1⟩) := by
    intro d hd sd hsd
    exact encrypts_product hv (counted vs) _ _ _ (fun v hv' =>
      ((hspec v (hcounted v hv')).choose_spec.contribution hids d hd sd hsd).2)
  have hle : ∀ d ∈ im.contests, ∀ sd ∈ d.ballotSelections, electionResult im vs d sd.objectId ≤ (counted vs).length := by
    intro d hd sd hsd
    unfold electionResult
    have h1 : ∀ v ∈ counted vs, v.plain.votesFor im d sd.objectId ≤ 1 := fun v hv' =>
      ((hspec v (hcounted v hv')).choose_spec.contribution hids d hd sd hsd).1
    generalize counted vs = l at h1
    clear hsmall hmax hcounted hcast
    induction l with
    | nil => simp
    | cons v l ih =>
      have := ih (fun x hx => h1 x (List.mem_cons_of_mem _ hx))
      have := h1 v List.mem_cons_self
      simp only [List.map_cons, List.sum_cons, List.length_cons]
      omega
  have hdec : Decryptable E.P maxE ctx.elgamalPublicKey m t.toCts := by
    rw [hcts]
    refine ⟨⟨?_, ?_⟩, ?_, ?_⟩
    · unfold electionCts
      rw [List.map_map]
      exact hids.1
    · unfold ctSelections electionCts
      rw [List.flatMap_map, List.map_flatMap]
      have hsub : ∀ l : List ContestWithPlaceholders,
          (l.flatMap (fun d => d.ballotSelections.map SelectionDescription.objectId)).Sublist
            (l.flatMap (fun d => (d.ballotSelections ++ d.placeholders).map SelectionDescription.objectId)) := by
        intro l
        induction l with
        | nil => simp
        | cons d l ih =>
          rw [List.flatMap_cons, List.flatMap_cons]
          refine List.Sublist.append ?_ ih
          rw [List.map_append]
          exact List.sublist_append_left _ _
      have hnd := List.Nodup.sublist (hsub im.contests) he.distinct
      have heq : im.contests.flatMap (fun d => d.ballotSelections.map SelectionDescription.objectId)
          = im.contests.flatMap (fun d => (d.ballotSelections.map (fun sd =>
            (⟨sd.objectId, (ballotCts vs d.objectId sd.objectId).foldl (ctMul E.P) ⟨1, 1⟩⟩ : CtSelection))).map
              (fun s => s.objectId)) :=
        List.flatMap_congr (fun d _ => by rw [List.map_map]; rfl)
      rw [heq] at hnd
      exact hnd
    · intro s hs
      unfold ctSelections electionCts at hs
      rw [List.mem_flatMap] at hs
      obtain ⟨c, hc, hs⟩ := hs
      obtain ⟨d, hd, rfl⟩ := List.mem_map.1 hc
      obtain ⟨sd, hsd, rfl⟩ := List.mem_map.1 hs
      obtain ⟨r, hr⟩ := henc d hd sd hsd
      exact hr.residue hv hres'
    · intro c hc s hs _
      obtain ⟨d, hd, rfl⟩ := List.mem_map.1 hc
      obtain ⟨sd, hsd, rfl⟩ := List.mem_map.1 hs
      have := hle d hd sd hsd
      exact ⟨electionResult im vs d sd.objectId, by omega, by omega, henc d hd sd hsd⟩
  refine ⟨hbox, t, by rw [hbox]; exact ht, hcast, hspoiled, hdec, fun d hd sd hsd => ?_, fun pt h3 cid sid n => ?_⟩
  · rw [hcts]
    exact ⟨hle d hd sd hsd, _, List.mem_map_of_mem hd, rfl, _, List.mem_map_of_mem hsd, rfl, henc d hd sd hsd⟩
  rw [h3, hcts]
  constructor
  · rintro ⟨c, hc, s, hs, rfl, rfl, -, hlt, hencn⟩
    obtain ⟨d, hd, rfl⟩ := List.mem_map.1 hc
    obtain ⟨sd, hsd, rfl⟩ := List.mem_map.1 hs
    refine ⟨d, hd, rfl, List.mem_map_of_mem hsd, ?_⟩
    have heq := C04_plaintext_unique E.P hv _ _ _ hres' _ hencn (henc d hd sd hsd)
    have := hle d hd sd hsd
    rwa [Nat.mod_eq_of_lt hlt, Nat.mod_eq_of_lt (by omega)] at heq
  · rintro ⟨d, hd, rfl, hsid, rfl⟩
    obtain ⟨sd, hsd, rfl⟩ := List.mem_map.1 hsid
    refine ⟨_, List.mem_map_of_mem hd, _, List.mem_map_of_mem hsd, rfl, rfl,
      (describes_iff he.manifest.ok.contestIds hmap d hd _).2 hsid, ?_, ?_⟩
    · have := hle d hd sd hsd
      omega
    · exact henc d hd sd hsd

/-- What a correct decryption of a single encrypted ballot reports: the voter's votes. -/
theorem ballot_core (hv : E.P.Valid) (hpq : (E.P.q - 1) * (E.P.q - 1) < E.P.p) (maxE : Nat) (hmax : 1 ≤ maxE)
    (json : ContestData → Bytes) (m : Manifest) (im : InternalManifest) (he : ElectionReady E m im) (ctx : Context)
    (hres' : isValidResidue E.P ctx.elgamalPublicKey = true) (v : VotedBallot) (hve : v.Encrypted E json im ctx) :
    Decryptable E.P maxE ctx.elgamalPublicKey m (submitBallot E v.enc v.state).toCts ∧
      v.enc.objectId = v.plain.objectId ∧
      ∀ pt : PlaintextTally, pt.Correct E.P ctx.elgamalPublicKey m (submitBallot E v.enc v.state).toCts →
        ∀ cid sid n, pt.Reports cid sid n ↔ ∃ d ∈ im.contests, d.objectId = cid ∧ im.onStyle v.plain.styleId d = true ∧
          sid ∈ d.ballotSelections.map SelectionDescription.objectId ∧ n = v.plain.votesFor im d sid := by
  obtain ⟨im', him', hids, hsorted, -, -, hmap, hdv⟩ := C40_unique_ids_partial E m he.manifest
  rw [he.internal] at him'
  cases him'
  obtain ⟨ds, hspec⟩ := encryptBallot_some hv hpq hres' (fun d hd => by
    obtain ⟨-, -, -, -, hd, -⟩ := hd
    exact he.seats d hd) hve
  obtain ⟨hmem, hsub⟩ := hspec.styleContests
  have hcts : (submitBallot E v.enc v.state).toCts = v.enc.contests.map CContest.toCt := by
    unfold SBallot.toCts
    rw [submit_contests, List.map_map]
    refine List.map_congr_left (fun c _ => ?_)
    show CContest.toCt (CContest.stripNonces c) = _
    unfold CContest.toCt CContest.stripNonces
    simp only [List.map_map]
    rfl
  have hq : 1 < E.P.q := hv.one_lt_q
  -- the ids of the selections of an encrypted contest, and what they encrypt
  have hsel : ∀ c ∈ v.enc.contests, ∃ d ∈ ds, c.objectId = d.objectId ∧ im.StyleHas v.plain.styleId d ∧
      (c.ballotSelections.map (fun s => s.objectId)
        = (d.ballotSelections ++ d.placeholders).map SelectionDescription.objectId) ∧
      (∀ s ∈ c.ballotSelections, ∃ n r, EncryptsWith E.P ctx.elgamalPublicKey r n s.ciphertext) ∧
      ∀ sd ∈ d.ballotSelections, ∃ s ∈ c.ballotSelections, s.objectId = sd.objectId ∧
        v.plain.votesFor im d sd.objectId ≤ 1 ∧
        Encrypts E.P ctx.elgamalPublicKey (v.plain.votesFor im d sd.objectId) s.ciphertext := by
    intro c hc
    obtain ⟨d, hd, n, real, phs, fill, hs⟩ := forall₂_left hspec.contests hc
    refine ⟨d, hd, hs.id, (hmem d).1 hd, hs.selIds, ?_, ?_⟩
    · intro s hs'
      rw [hs.sels, List.mem_append] at hs'
      rcases hs' with hs' | hs'
      · obtain ⟨sd, -, hh⟩ := forall₂_left hs.real hs'
        obtain ⟨r, -, hr⟩ := hh.holds.vote
        exact ⟨_, r, hr⟩
      · obtain ⟨x, -, hh⟩ := forall₂_left hs.phs hs'
        obtain ⟨r, -, hr⟩ := hh.holds.vote
        exact ⟨_, r, hr⟩
    · intro sd hsd
      obtain ⟨s, hss, hh⟩ := forall₂_mem_right hs.real hsd
      have hvotes : v.plain.votesFor im d sd.objectId = (v.plain.voted d.toContestDescription).effective d sd.objectId := by
        unfold PlaintextBallot.votesFor
        rw [if_pos ((onStyle_iff im v.plain.styleId d (hsub.subset hd)).2 ((hmem d).1 hd))]
      obtain ⟨r, -, hr⟩ := hh.holds.vote
      refine ⟨s, by rw [hs.sels]; simp [hss], hh.holds.id, ?_, r, ?_⟩
      · rw [hvotes]; exact hh.holds.binary
      · rw [hvotes]; exact hr
  have hfind : ∀ c ∈ v.enc.contests, ∀ d ∈ ds, c.objectId = d.objectId → ∀ s ∈ c.ballotSelections,
      s.objectId ∈ d.ballotSelections.map SelectionDescription.objectId →
      v.plain.votesFor im d s.objectId ≤ 1 ∧ Encrypts E.P ctx.elgamalPublicKey (v.plain.votesFor im d s.objectId) s.ciphertext := by
    intro c hc d hd hcd s hs hsd
    obtain ⟨d', hd', hcd', -, hsi, -, h6⟩ := hsel c hc
    have : d' = d := eq_of_id hids.1 (hsub.subset hd') (hsub.subset hd) (by rw [← hcd', hcd])
    subst this
    obtain ⟨sd, hsd, hsdi⟩ := List.mem_map.1 hsd
    obtain ⟨s', hs', hsi', h7, h8⟩ := h6 sd hsd
    have hn : (c.ballotSelections.map (fun s => s.objectId)).Nodup := by
      rw [hsi]; exact hids.2 d' (hsub.subset hd)
    have : s' = s := List.inj_on_of_nodup_map hn hs' hs (by rw [hsi', hsdi])
    subst this
    rw [← hsdi]
    exact ⟨h7, h8⟩
  refine ⟨?_, hspec.id, ?_⟩
  · rw [hcts]
    refine ⟨⟨?_, ?_⟩, ?_, ?_⟩
    · rw [List.map_map]
      have : v.enc.contests.map ((fun c => c.objectId) ∘ CContest.toCt) = v.enc.contests.map CContest.objectId := rfl
      rw [this, hspec.ids]
      exact hids.1.sublist (hsub.map _)
    · have := (hspec.separate he.distinct).ids
      unfold ctSelections
      rw [List.flatMap_map, List.map_flatMap]
      have heq : v.enc.contests.flatMap (fun c => c.ballotSelections.map (fun s => s.objectId))
          = v.enc.contests.flatMap (fun c => (CContest.toCt c).selections.map (fun s => s.objectId)) :=
        List.flatMap_congr (fun c _ => by unfold CContest.toCt; rw [List.map_map]; rfl)
      rw [heq] at this
      exact this
    · intro s hs
      unfold ctSelections at hs
      rw [List.flatMap_map, List.mem_flatMap] at hs
      obtain ⟨c, hc, hs⟩ := hs
      obtain ⟨s', hs', rfl⟩ := List.mem_map.1 hs
      obtain ⟨d, -, -, -, -, h5, -⟩ := hsel c hc
      obtain ⟨n, r, hr⟩ := h5 s' hs'
      exact hr.residue hv hres'
    · intro c' hc' s' hs' hdes
      obtain ⟨c, hc, rfl⟩ := List.mem_map.1 hc'
      obtain ⟨s, hs, rfl⟩ := List.mem_map.1 hs'
      obtain ⟨d, hd, hcd, -, -, -, -⟩ := hsel c hc
      have hdes' : Describes m d.objectId s.objectId := by rw [← hcd]; exact hdes
      have := (describes_iff he.manifest.ok.contestIds hmap d (hsub.subset hd) _).1 hdes'
      obtain ⟨h7, h8⟩ := hfind c hc d hd hcd s hs this
      exact ⟨_, by omega, by omega, h8⟩
  · intro pt hpt cid sid n
    rw [hpt, hcts]
    constructor
    · rintro ⟨c', hc', s', hs', rfl, rfl, hdes, hlt, hencn⟩
      obtain ⟨c, hc, rfl⟩ := List.mem_map.1 hc'
      obtain ⟨s, hs, rfl⟩ := List.mem_map.1 hs'
      obtain ⟨d, hd, hcd, hst, -, -, -⟩ := hsel c hc
      have hdes' : Describes m d.objectId s.objectId := by rw [← hcd]; exact hdes
      have hin := (describes_iff he.manifest.ok.contestIds hmap d (hsub.subset hd) _).1 hdes'
      obtain ⟨h7, h8⟩ := hfind c hc d hd hcd s hs hin
      refine ⟨d, hsub.subset hd, hcd.symm, (onStyle_iff im _ d (hsub.subset hd)).2 hst, hin, ?_⟩
      have heq := C04_plaintext_unique E.P hv _ _ _ hres' _ hencn h8
      rwa [Nat.mod_eq_of_lt hlt, Nat.mod_eq_of_lt (by omega)] at heq
    · rintro ⟨d, hd, rfl, hst, hsid, rfl⟩
      have hdd : d ∈ ds := (hmem d).2 ((onStyle_iff im _ d hd).1 hst)
      obtain ⟨c, hc, hx⟩ := forall₂_mem_right hspec.contests hdd
      obtain ⟨_, _, _, _, hs⟩ := hx
      obtain ⟨sd, hsd, rfl⟩ := List.mem_map.1 hsid
      obtain ⟨d', hd', hcd', -, -, -, h6⟩ := hsel c hc
      have : d' = d := eq_of_id hids.1 (hsub.subset hd') hd (by rw [← hcd', hs.id])
      subst this
      obtain ⟨s, hss, hsi, h7, h8⟩ := h6 sd hsd
      refine ⟨_, List.mem_map_of_mem hc, ⟨s.objectId, s.ciphertext⟩, ?_, hs.id, hsi,
        (describes_iff he.manifest.ok.contestIds hmap d' hd _).2 hsid, by omega, h8⟩
      exact List.mem_map.2 ⟨s, hss, rfl⟩

/-- C60 An election from plaintext ballots to the result.  The ballots `vs` are encrypted for the joint key and submitted to
a ballot box one after the other; the box is tallied; the guardians, in any honest history of calls in which the announcement is complete
and every available guardian compensated for every missing one, decrypt.  Then tallying succeeds, lists exactly the counted ballots as
cast, and the plaintext tally reports for every selection of the manifest, and for nothing else, the votes on the
ballots that count: those that were cast first under their id.
Partial: for manifests in sequence order with selection ids distinct across contests (see `C28_contest_order_fails`,
`C14_shared_selection_id_fails`), fewer ballots than the limit of the discrete logarithm, and `(q-1)² < p` as in C05. -/
theorem C60_election_partial (hv : E.P.Valid) (hpq : (E.P.q - 1) * (E.P.q - 1) < E.P.p) (maxE : Nat)
    (json : ContestData → Bytes) (m : Manifest) (im : InternalManifest) (he : ElectionReady E m im) (ctx : Context)
    (all : List ElectionPublicKey) (coef : String → List Nat) (hkeys : SharedKeys E.P ctx.quorum all coef)
    (hn : ctx.numberOfGuardians = all.length)
    (hK : ctx.elgamalPublicKey = combinePublicKeys E.P (all.map (fun k => k.key)))
    (vs : List VotedBallot) (hvs : ∀ v ∈ vs, v.Encrypted E json im ctx ∧ ∃ d, im.StyleHas v.plain.styleId d)
    (hsmall : (counted vs).length < E.P.q) (hmax : (counted vs).length ≤ maxE) :
    ∃ t, tallyBallots E im ctx true (runBox E im ctx [] (vs.map (fun v => ⟨v.enc, v.state⟩))) = .ok (some t) ∧
      (∀ x, x ∈ t.castIds ↔ ∃ v ∈ counted vs, v.plain.objectId = x) ∧
      ∀ ops : List DMOp, (∀ op ∈ ops, HonestOp E ctx.cryptoExtendedBaseHash t all coef op) →
        (DM.run E.P ops).announcementComplete ctx = true →
        (∀ j ∈ dkeys (DM.run E.P ops).missing, ∀ i,
          (i, j) ∈ receivedPairs ops ↔ i ∈ dkeys (DM.run E.P ops).available) →
        ((DM.run E.P ops).reconstructTally E.P t).1 = .ok () ∧
        ∃ pt, (DM.run E.P (ops ++ [.reconstructTally t])).plaintextTally E maxE ctx t m = .ok (some pt) ∧
          ∀ cid sid n, pt.Reports cid sid n ↔ ∃ d ∈ im.contests, d.objectId = cid ∧
            sid ∈ d.ballotSelections.map SelectionDescription.objectId ∧ n = electionResult im vs d sid := by
  have hres' : isValidResidue E.P ctx.elgamalPublicKey = true := by rw [hK]; exact combined_residue hv hkeys
  obtain ⟨-, t, ht, hcast, -, hdec, -, hrep⟩ := election_core hv hpq maxE json m im he ctx hres' vs hvs hsmall hmax
  rw [hK] at hdec hrep
  refine ⟨t, ht, hcast, fun ops hops hcomplete hcomps => ?_⟩
  obtain ⟨h1, pt, h2, -, h3⟩ := C15_quorum_decrypts_partial hv maxE ctx t m all coef hkeys hn hdec ops hops hcomplete
    hcomps
  exact ⟨h1, pt, h2, hrep pt h3⟩

/-! ### The toy election satisfies the hypotheses -/

/-- A plaintext ballot of the toy election. -/
def toyVote (id : String) (x y z : Int) : PlaintextBallot :=
  ⟨id, "t", [⟨"c", [⟨"sx", x, false, none⟩, ⟨"sy", y, false, none⟩]⟩, ⟨"d", [⟨"sz", z, false, none⟩]⟩]⟩

/-- A ballot of the toy election, encrypted for the joint key of the three guardians. -/
def toyVoted (id : String) (x y z : Int) (nonce : Nat) (st : BallotBoxState) : VotedBallot :=
  ⟨toyVote id x y z, 3, nonce, 17, true,
    match encryptBallot toyEnv toyJson (toyVote id x y z) toyIM toyDCtx 3 nonce 17 true with
    | .ok (some b) => b
    | _ => toyNoBallot, st⟩

/-- Two ballots that count, a spoiled one, and a second ballot under the id of the first. -/
def toyVoteds : List VotedBallot := [toyVoted "b" 1 0 1 3 .cast, toyVoted "v" 0 1 1 3 .cast,
  toyVoted "w" 0 1 1 3 .spoiled, toyVoted "b" 0 1 1 7 .cast]

theorem toyReady : ElectionReady toyEnv toyManifest toyIM where
  manifest := by
    refine ⟨(C41_iff_partial _).1 (by decide +kernel), by decide +kernel, by decide +kernel, by decide +kernel, ?_⟩
    intro c hc s hs i h
    have hl := congrArg String.length h
    rw [String.length_append] at hl
    have h1 : ∀ c ∈ toyManifest.contests, ∀ s ∈ c.ballotSelections, s.objectId.length < 12 := by decide +kernel
    have h2 : "-placeholder".length = 12 := by decide +kernel
    have := h1 c hc s hs
    omega
  internal := by
    have h : (mkInternalManifest toyEnv toyManifest).toBool = true := by decide +kernel
    unfold toyIM
    cases hm : mkInternalManifest toyEnv toyManifest with
    | ok im => rfl
    | error e => rw [hm] at h; cases h
  distinct := by unfold InternalManifest.DistinctSelections; decide +kernel
  seats := by decide +kernel

theorem toyVoteds_encrypted : ∀ v ∈ toyVoteds, v.Encrypted toyEnv toyJson toyIM toyDCtx := by
  have key : ∀ (id : String) (x y z : Int) (nonce : Nat) (st : BallotBoxState),
      ((encryptBallot toyEnv toyJson (toyVote id x y z) toyIM toyDCtx 3 nonce 17 true).toOption.join).isSome = true →
      (toyVoted id x y z nonce st).Encrypted toyEnv toyJson toyIM toyDCtx := by
    intro id x y z nonce st h
    unfold VotedBallot.Encrypted toyVoted
    dsimp only
    cases he : encryptBallot toyEnv toyJson (toyVote id x y z) toyIM toyDCtx 3 nonce 17 true with
    | error e => rw [he] at h; cases h
    | ok o => cases o with
      | none => rw [he] at h; cases h
      | some b => rfl
  have h1 : ((encryptBallot toyEnv toyJson (toyVote "b" 1 0 1) toyIM toyDCtx 3 3 17 true).toOption.join).isSome = true := by
    decide +kernel
  have h2 : ((encryptBallot toyEnv toyJson (toyVote "v" 0 1 1) toyIM toyDCtx 3 3 17 true).toOption.join).isSome = true := by
    decide +kernel
  have h3 : ((encryptBallot toyEnv toyJson (toyVote "w" 0 1 1) toyIM toyDCtx 3 3 17 true).toOption.join).isSome = true := by
    decide +kernel
  have h4 : ((encryptBallot toyEnv toyJson (toyVote "b" 0 1 1) toyIM toyDCtx 3 7 17 true).toOption.join).isSome = true := by
    decide +kernel
  intro v hv
  simp only [toyVoteds, List.mem_cons, List.not_mem_nil, or_false] at hv
  rcases hv with rfl | rfl | rfl | rfl
  · exact key _ _ _ _ _ _ h1
  · exact key _ _ _ _ _ _ h2
  · exact key _ _ _ _ _ _ h3
  · exact key _ _ _ _ _ _ h4

example : toyIM.contests.map (fun d => d.ballotSelections.map (fun s => electionResult toyIM toyVoteds d s.objectId))
    = [[1, 1], [2]] := by decide +kernel

end EG
