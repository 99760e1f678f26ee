import Verif.Model.ElectionBuilder
import Verif.Props.Election
import Verif.Props.TallyCeremony

/-!
# C68: an election from the guardians' random numbers to the results
-/

namespace EG

variable {E : Env}

theorem forall₂_imp_mem {α β : Type} {S T : α → β → Prop} {l : List α} {l' : List β} (h : List.Forall₂ S l l')
    (hi : ∀ a ∈ l, ∀ b, S a b → T a b) : List.Forall₂ T l l' := by
  induction h with
  | nil => exact .nil
  | cons hx _ ih =>
    exact .cons (hi _ List.mem_cons_self _ hx) (ih (fun a ha => hi a (List.mem_cons_of_mem _ ha)))

/-- The spoiled ballots that the box kept: spoiled, and the first with their id. -/
def spoiledVotes (vs : List VotedBallot) : List VotedBallot := (firsts vs).filter (fun v => decide (v.state = .spoiled))

/-- What the published tally must be: for every selection of the manifest, and for nothing else, the votes on the ballots that
count. -/
def PlaintextTally.IsResult (pt : PlaintextTally) (im : InternalManifest) (vs : List VotedBallot) : Prop :=
  ∀ cid sid n, pt.Reports cid sid n ↔ ∃ d ∈ im.contests, d.objectId = cid ∧
    sid ∈ d.ballotSelections.map SelectionDescription.objectId ∧ n = electionResult im vs d sid

/-- What the published decryption of a spoiled ballot must be: for every selection of the contests on the ballot, and for
nothing else, the voter's vote. -/
def PlaintextTally.IsVote (pt : PlaintextTally) (im : InternalManifest) (v : VotedBallot) : Prop :=
  pt.objectId = v.plain.objectId ∧
  ∀ cid sid n, pt.Reports cid sid n ↔ ∃ d ∈ im.contests, d.objectId = cid ∧ im.onStyle v.plain.styleId d = true ∧
    sid ∈ d.ballotSelections.map SelectionDescription.objectId ∧ n = v.plain.votesFor im d sid

/-- C68 A whole election.  `n` guardians are created and run the key ceremony; the builder makes the election from the manifest and
the joint key; voters' ballots are encrypted and cast or spoiled in a ballot box; the box is tallied; any of the guardians, at least the quorum, hold
the tally ceremony, without the others.  No step fails, the published tally has exactly the votes of the counted ballots, and every spoiled
ballot is published with exactly the voter's votes.  Fewer guardians than the quorum get nothing from the mediator.
Partial: manifests in sequence order with distinct selection ids, at most `maxE` counted ballots, `(q-1)² < p`, orders with
powers below `p` (as in C60 and C65). -/
theorem C68_whole_election_partial (hv : E.P.Valid) (hpq : (E.P.q - 1) * (E.P.q - 1) < E.P.p) (hlen : HmacLen E)
    (loads : Bytes → R (List Char)) (hl : ReadsCoordinate loads) (hq : E.P.q ≤ 256 ^ 246) (n quorum : Nat)
    (hquorum : 0 < quorum) (hn : n < E.P.q) (hpow : ∀ i < quorum, n ^ i < E.P.p)
    (rands : Nat → List (Nat × Nat)) (hr : ∀ i < n, (rands i).length = quorum) (nonces : String → Nat → Nat) (me : String)
    (maxE : Nat) (hmaxE : 1 ≤ maxE) (json : ContestData → Bytes) (m : Manifest) (im : InternalManifest)
    (he : ElectionReady E m im) :
    ∃ gs0 gs kcm jk b ctx, createGuardians E ⟨n, quorum⟩ rands = .ok gs0 ∧ gs0.length = n ∧
      performFullCeremony E loads nonces gs0 (KCM.init me ⟨n, quorum⟩) = .ok (gs, kcm) ∧
      gs.map Guardian.id = gs0.map Guardian.id ∧ kcm.publishJointKey E = some jk ∧
      ElectionBuilder.new E n quorum m = .ok b ∧
      ((b.setPublicKey jk.jointPublicKey).setCommitmentHash jk.commitmentHash).build E = .ok (some (im, ctx, none)) ∧
      ∀ vs : List VotedBallot, (∀ v ∈ vs, v.Encrypted E json im ctx ∧ ∃ d, im.StyleHas v.plain.styleId d) →
        (counted vs).length < E.P.q → (counted vs).length ≤ maxE →
        ∃ store t bs, store = runBox E im ctx [] (vs.map (fun v => ⟨v.enc, v.state⟩)) ∧
          tallyBallots E im ctx true store = .ok (some t) ∧
          (∀ x, x ∈ t.castIds ↔ ∃ v ∈ counted vs, v.plain.objectId = x) ∧
          (getBallots store (some .spoiled)).map (fun e => e.2) = bs ∧
          ∀ present : List Guardian, (∀ g ∈ present, g ∈ gs) → (present.map Guardian.id).Nodup → ∀ sd : TallySeeds,
            (quorum ≤ present.length → ∃ dm pt pts,
              performCompensatedSetup E loads sd ctx t bs present (gs.map Guardian.shareKey) DM.init = .ok dm ∧
              dm.plaintextTally E maxE ctx t m = .ok (some pt) ∧ pt.IsResult im vs ∧
              dm.plaintextBallots E maxE ctx bs m = .ok (some pts) ∧
              List.Forall₂ (fun v (e : String × PlaintextTally) => e.1 = v.plain.objectId ∧ e.2.IsVote im v)
                (spoiledVotes vs) pts) ∧
            (present.length < quorum → ∀ dm,
              performCompensatedSetup E loads sd ctx t bs present (gs.map Guardian.shareKey) DM.init = .ok dm →
              dm.plaintextTally E maxE ctx t m = .ok none ∧ dm.plaintextBallots E maxE ctx bs m = .ok none) := by
  obtain ⟨kps, rands', hcreate, hnum, hteam, horders, -⟩ := C65_created_guardians (E := E) n quorum hquorum hn hpow rands hr
  obtain ⟨gs, kcm, hceremony, hequip, hjoint⟩ := C65_full_ceremony_partial hv hlen loads hl hq me quorum rands' kps hteam
    nonces
  set h := hashElems E [.list ((kps.flatMap (fun kp => kp.share.commitments)).map HArg.elem)]
  have hordersN : (kps.map (fun kp => kp.sequenceOrder)).Nodup := by
    rw [horders]
    exact (List.nodup_range).map (fun a b hab => by simpa using hab)
  have hK : (kps.map (fun kp => E.P.g ^ polyAt ((rands' kp.ownerId).map Prod.fst) 0 % E.P.p)).prod % E.P.p
      = combinePublicKeys E.P (kps.map (fun kp => kp.share.key)) := by
    rw [combinePublicKeys_prod hv.one_lt_p]
    congr 2
    refine List.map_congr_left (fun kp hkp => ?_)
    rw [hteam.key_eq hkp]
    rfl
  have hshared := hteam.sharedKeys hv hordersN
  have hres : isValidResidue E.P (combinePublicKeys E.P (kps.map (fun kp => kp.share.key))) = true := by
    have := combined_residue hv hshared
    rwa [List.map_map] at this
  have hown : gs.map (fun g => g.electionKeys) = kps := by
    have key : ∀ (l : List ElectionKeyPair) (gs : List Guardian),
        List.Forall₂ (Guardian.Equipped E loads rands' kps) gs l → gs.map (fun g => g.electionKeys) = l := by
      intro l gs h1
      induction h1 with
      | nil => rfl
      | cons hx _ ih => rw [List.map_cons, ih, hx.own]
    exact key kps gs hequip
  have hids : gs.map Guardian.id = kps.map (fun kp => kp.ownerId) := by
    rw [← hown, List.map_map]
    rfl
  have hshare : gs.map Guardian.shareKey = kps.map (fun kp => kp.share) := by
    rw [← hown, List.map_map]
    rfl
  set ctx := makeContext E n quorum (combinePublicKeys E.P (kps.map (fun kp => kp.share.key))) h (m.cryptoHash E) with hctx
  have hlt : ctx.cryptoExtendedBaseHash < E.P.q := hashElems_lt (by have := hv.one_lt_q; omega) _
  rw [hnum] at hcreate hceremony
  refine ⟨_, gs, kcm, _, ⟨n, quorum, m, im, none, none, none⟩, ctx, hcreate, by simp [hnum], hceremony, ?_, hjoint, ?_, ?_, ?_⟩
  · rw [hids, List.map_map]; rfl
  · unfold ElectionBuilder.new
    rw [he.internal]
    rfl
  · unfold ElectionBuilder.build ElectionBuilder.setCommitmentHash ElectionBuilder.setPublicKey
    dsimp only
    rw [(C41_iff_partial m).2 he.manifest.ok, hK]
    rfl
  · intro vs hvs hsmall hmax
    obtain ⟨hbox, t, ht, hcast, -, hdec, -, hrep⟩ := election_core hv hpq maxE json m im he ctx hres vs hvs hsmall hmax
    have hin : ∀ v ∈ spoiledVotes vs, v ∈ vs := fun v hv' => firsts_subset vs v (List.mem_filter.1 hv').1
    have hball := fun v (hv' : v ∈ spoiledVotes vs) =>
      ballot_core hv hpq maxE hmaxE json m im he ctx hres v (hvs v (hin v hv')).1
    set bs := (spoiledVotes vs).map (fun v => submitBallot E v.enc v.state) with hbs
    have hget : (getBallots (stored E vs) (some .spoiled)).map (fun e => e.2) = bs := by
      unfold getBallots stored spoiledVotes at *
      rw [List.filter_map, List.map_map, hbs]
      rfl
    have hbsid : ∀ v ∈ spoiledVotes vs, (submitBallot E v.enc v.state).objectId = v.plain.objectId :=
      fun v hv' => (hball v hv').2.1
    refine ⟨_, t, bs, rfl, ht, hcast, by rw [hbox]; exact hget, fun present hpin hpn sd => ⟨fun hmany => ?_, fun hfew dm hdm => ?_⟩⟩
    · obtain ⟨avs, hav, hpres⟩ := C66_ceremony_present gs hequip present hpin hpn
      have hlav : quorum ≤ avs.length := by
        have := congrArg List.length hav
        rw [List.length_map] at this
        omega
      obtain ⟨dm, h1, ⟨pt, h2, h3, h4⟩, pts, h5, h6⟩ := C66_compensated_setup_partial hv loads quorum hquorum rands' kps hteam
        hordersN sd ctx ⟨rfl, by rw [hnum]; rfl⟩ hlt maxE m t bs
        (by
          rw [hbs, List.map_map]
          have : (spoiledVotes vs).map ((fun b : SBallot => b.objectId) ∘ fun v => submitBallot E v.enc v.state)
              = (spoiledVotes vs).map (fun v => v.plain.objectId) := List.map_congr_left hbsid
          rw [this]
          exact (firsts_nodup vs).sublist (List.filter_sublist.map _))
        hdec
        (by
          intro b hb
          obtain ⟨v, hv', rfl⟩ := List.mem_map.1 hb
          exact (hball v hv').1)
        avs hpres hlav (gs.map Guardian.shareKey) (by rw [hshare])
      rw [hav] at h1
      refine ⟨dm, pt, pts, h1, h2, fun cid sid k => hrep pt h4 cid sid k, h5, ?_⟩
      rw [hbs, List.forall₂_map_left_iff] at h6
      refine forall₂_imp_mem h6 (fun v hv' e hve => ?_)
      obtain ⟨e1, e2, e3⟩ := hve
      rw [hbsid v hv'] at e1 e2
      exact ⟨e1, e2, fun cid sid k => (hball v hv').2.2 e.2 e3 cid sid k⟩
    · exact C66_below_quorum loads sd ctx t bs present _ (by show ((present.length : Nat) : Int) < ((quorum : Nat) : Int); exact_mod_cast hfew) dm hdm maxE m

/-! ### The toy election: three guardians, two of whom are needed -/

/-- A quorum of two of three guardians, polynomials of two random coefficients each, the toy manifest. -/
example : ∃ gs0 gs kcm jk b ctx, createGuardians toyEnv ⟨3, 2⟩ (fun i => [(i + 4, 3), (2, i + 5)]) = .ok gs0 ∧
    performFullCeremony toyEnv strictLoads (fun _ i => i + 1) gs0 (KCM.init "m" ⟨3, 2⟩) = .ok (gs, kcm) ∧
    kcm.publishJointKey toyEnv = some jk ∧ ElectionBuilder.new toyEnv 3 2 toyManifest = .ok b ∧
    ((b.setPublicKey jk.jointPublicKey).setCommitmentHash jk.commitmentHash).build toyEnv = .ok (some (toyIM, ctx, none)) := by
  obtain ⟨gs0, gs, kcm, jk, b, ctx, h1, -, h2, -, h3, h4, h5, -⟩ := C68_whole_election_partial (E := toyEnv)
    extraSmall_valid (by decide) (fun _ _ => by simp [toyEnv]) strictLoads strictLoads_reads (by decide +kernel) 3 2 (by decide)
    (by decide) (by decide) (fun i => [(i + 4, 3), (2, i + 5)]) (fun _ _ => rfl) (fun _ i => i + 1) "m" 12 (by decide) toyJson
    toyManifest toyIM toyReady
  exact ⟨gs0, gs, kcm, jk, b, ctx, h1, h2, h3, h4, h5⟩

example : (spoiledVotes toyVoteds).map (fun v => v.plain.objectId) = ["w"] ∧
    (counted toyVoteds).map (fun v => v.plain.objectId) = ["b", "v"] := by decide +kernel

end EG
