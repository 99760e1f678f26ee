import Verif.Lemmas.QuorumRecord
import Verif.Props.WholeElection

/-!
# From the creation of the guardians to the election context
-/

namespace EG

variable {E : Env}

/-- The key ceremony of new guardians, and the builder. -/
theorem election_setup (hv : E.P.Valid) (hlen : HmacLen E)
    (loads : Bytes → R (List Char)) (hl : ReadsCoordinate loads) (hq : E.P.q ≤ 256 ^ 246) (n quorum : Nat)
    (hquorum : 0 < quorum) (hn : n < E.P.q) (hpow : ∀ i < quorum, n ^ i < E.P.p)
    (rands : Nat → List (Nat × Nat)) (hr : ∀ i < n, (rands i).length = quorum) (nonces : String → Nat → Nat) (me : String)
    (m : Manifest) (im : InternalManifest) (hm : m.isValid = true) (him : mkInternalManifest E m = .ok im) :
    ∃ gs0 gs kcm jk b ctx kps rands', createGuardians E ⟨n, quorum⟩ rands = .ok gs0 ∧
      performFullCeremony E loads nonces gs0 (KCM.init me ⟨n, quorum⟩) = .ok (gs, kcm) ∧ kcm.publishJointKey E = some jk ∧
      ElectionBuilder.new E n quorum m = .ok b ∧
      ((b.setPublicKey jk.jointPublicKey).setCommitmentHash jk.commitmentHash).build E = .ok (some (im, ctx, none)) ∧
      kps.length = n ∧ Team E quorum rands' kps ∧ (kps.map (fun kp => kp.sequenceOrder)).Nodup ∧
      List.Forall₂ (Guardian.Equipped E loads rands' kps) gs kps ∧
      ctx = makeContext E kps.length quorum (combinePublicKeys E.P (kps.map (fun kp => kp.share.key)))
        (hashElems E [.list ((kps.flatMap (fun kp => kp.share.commitments)).map HArg.elem)]) (m.cryptoHash E) := by
  obtain ⟨kps, rands', hcreate, hnum, hteam, horders, -⟩ := C65_created_guardians (E := E) n quorum hquorum hn hpow rands hr
  obtain ⟨gs, kcm, hceremony, hequip, hjoint⟩ := C65_full_ceremony_partial hv hlen loads hl hq me quorum rands' kps hteam
    nonces
  have hordersN : (kps.map (fun kp => kp.sequenceOrder)).Nodup := by
    rw [horders]
    exact (List.nodup_range).map (fun a b hab => by simpa using hab)
  have hK : (kps.map (fun kp => E.P.g ^ polyAt ((rands' kp.ownerId).map Prod.fst) 0 % E.P.p)).prod % E.P.p
      = combinePublicKeys E.P (kps.map (fun kp => kp.share.key)) := by
    rw [combinePublicKeys_prod hv.one_lt_p]
    congr 2
    refine List.map_congr_left (fun kp hkp => ?_)
    rw [hteam.key_eq hkp]
    rfl
  rw [hK] at hjoint
  rw [hnum] at hcreate hceremony
  refine ⟨_, gs, kcm, _, ⟨n, quorum, m, im, none, none, none⟩, _, kps, rands', hcreate, hceremony, hjoint, ?_, ?_, hnum, hteam, hordersN,
    hequip, rfl⟩
  · unfold ElectionBuilder.new
    rw [him]
    rfl
  · unfold ElectionBuilder.build ElectionBuilder.setCommitmentHash ElectionBuilder.setPublicKey
    dsimp only
    rw [hm, hnum]
    rfl

/-- The guardians of a ceremony have the key pairs. -/
theorem equipped_own {loads : Bytes → R (List Char)} {rands : String → List (Nat × Nat)} {kps l : List ElectionKeyPair}
    {gs : List Guardian} (h : List.Forall₂ (Guardian.Equipped E loads rands kps) gs l) : gs.map (fun g => g.electionKeys) = l := by
  induction h with
  | nil => rfl
  | cons hx _ ih => rw [List.map_cons, ih, hx.own]

end EG
