import Verif.Lemmas.Reconstruct
import Verif.Spec.ToyElection

/-!
# C14: all guardians together decrypt correctly
-/

namespace EG

variable {E : Env}

theorem jointKey_eq {α : Type} (hv : E.P.Valid) (l : List α) (pub sec : α → Nat)
    (h : ∀ x ∈ l, pub x = E.P.g ^ sec x % E.P.p) :
    combinePublicKeys E.P (l.map pub) = (l.map (fun x => E.P.g ^ sec x)).prod % E.P.p := by
  rw [combinePublicKeys_prod hv.one_lt_p, List.map_congr_left h]
  clear h
  induction l with
  | nil => rfl
  | cons a l ih =>
    rw [List.map_cons, List.map_cons, List.prod_cons, List.prod_cons, Nat.mul_mod, ih, ← Nat.mul_mod,
      Nat.mod_mul_mod]

theorem jointKey_residue {α : Type} (hv : E.P.Valid) (l : List α) (pub sec : α → Nat)
    (h : ∀ x ∈ l, pub x = E.P.g ^ sec x % E.P.p) :
    isValidResidue E.P (combinePublicKeys E.P (l.map pub)) = true := by
  rw [jointKey_eq hv l pub sec h]
  have : (l.map (fun x => E.P.g ^ sec x)).prod % E.P.p = gPowP E.P (l.map sec).sum := by
    have : Fact E.P.p.Prime := ⟨hv.p_prime⟩
    rw [← castP_inj (Nat.mod_lt _ hv.p_pos) (gPowP_lt hv.p_pos _), ZMod.natCast_mod, gPowP_cast, ← powProd,
      Nat.cast_list_prod, List.map_map, List.map_map]
    congr 1
    refine List.map_congr_left (fun e _ => ?_)
    simp [Function.comp]
  rw [this]
  exact gPowP_residue hv _

/-- The secret of a guardian by id. -/
def secretOf (kps : List ElectionKeyPair) (i : String) : Nat :=
  ((kps.find? (fun kp => kp.ownerId == i)).map (fun kp => kp.keyPair.secret)).getD 0

theorem secretOf_mem {kps : List ElectionKeyPair} (hid : (kps.map (fun kp => kp.ownerId)).Nodup) {kp : ElectionKeyPair}
    (h : kp ∈ kps) : secretOf kps kp.ownerId = kp.keyPair.secret := by
  unfold secretOf
  rw [find?_of_nodup (fun kp : ElectionKeyPair => kp.ownerId) hid h]
  rfl

/-! ### C14 -/

/-- C14 All guardians whose keys make up the joint key compute a share of a selection, none is refused, and combining
the shares gives the encrypted value. -/
theorem C14_selection (hv : E.P.Valid) (maxE v : Nat) (kps : List ElectionKeyPair)
    (hk : ∀ kp ∈ kps, kp.keyPair.pub = E.P.g ^ kp.keyPair.secret % E.P.p)
    (hid : (kps.map (fun kp => kp.ownerId)).Nodup) (s : CtSelection) (ctx : Context)
    (hh : ctx.cryptoExtendedBaseHash < E.P.q) (seeds : ElectionKeyPair → Nat)
    (henc : Encrypts E.P (combinePublicKeys E.P (kps.map (fun kp => kp.keyPair.pub))) v s.ciphertext)
    (hv1 : v < E.P.q) (hv2 : v ≤ maxE) :
    ∃ f : ElectionKeyPair → DecSelection,
      (∀ kp ∈ kps, shareForSelection E kp s ctx (seeds kp) = some (f kp)) ∧
      ∃ pt, decryptSelectionWithShares E maxE s (kps.map (fun kp => (kp.ownerId, (kp.keyPair.pub, f kp))))
        ctx.cryptoExtendedBaseHash = .ok (some pt) ∧
      pt.objectId = s.objectId ∧ pt.tally = v ∧ pt.value = E.P.g ^ v % E.P.p ∧ pt.message = s.ciphertext ∧
      pt.shares = kps.map f := by
  obtain ⟨r, hr⟩ := henc
  have hres := EncryptsWith.residue hv (jointKey_residue hv kps _ _ hk) hr
  refine ⟨fun kp => honestSelection E kp ctx.cryptoExtendedBaseHash s (seeds kp), fun kp hkp =>
    (shareForSelection_ok hv kp (hk kp hkp) s ctx (seeds kp) hh hres.1 hres.2).1, ?_⟩
  refine ⟨_, decryptSelection_right hv (m := v) s _ (secretOf kps) ?_ ?_ ⟨r, hr⟩ hv1 hv2, rfl, rfl, rfl, rfl, ?_⟩
  · intro e he
    obtain ⟨kp, hkp, rfl⟩ := List.mem_map.1 he
    refine ⟨?_, (shareForSelection_ok hv kp (hk kp hkp) s ctx (seeds kp) hh hres.1 hres.2).2⟩
    simp only [secretOf_mem hid hkp]
    rfl
  · rw [jointKey_eq hv kps _ _ hk, List.map_map]
    congr 2
    refine List.map_congr_left (fun kp hkp => ?_)
    simp only [Function.comp, secretOf_mem hid hkp]
  · rw [List.map_map]; rfl

/-- C14 A share of a selection without a valid proof or valid recovered parts is refused: nothing is decrypted. -/
theorem C14_invalid_share_refused (maxE : Nat) (s : CtSelection) (shares : List (String × (Nat × DecSelection)))
    (baseHash : Nat) (h : ∃ e ∈ shares, e.2.2.isValid E s.ciphertext e.2.1 baseHash = false) :
    decryptSelectionWithShares E maxE s shares baseHash = .ok none := by
  unfold decryptSelectionWithShares
  rw [if_pos]
  refine ⟨rfl, ?_⟩
  obtain ⟨e, he, h⟩ := h
  rw [List.all_eq_false]
  exact ⟨e, he, by rw [h]; simp⟩

theorem decrypt_all (hv : E.P.Valid) (maxE : Nat) (kps : List ElectionKeyPair)
    (hk : ∀ kp ∈ kps, kp.keyPair.pub = E.P.g ^ kp.keyPair.secret % E.P.p)
    (hid : (kps.map (fun kp => kp.ownerId)).Nodup) (cs : List CtContest) (objectId : String) (m : Manifest)
    (ctx : Context) (hh : ctx.cryptoExtendedBaseHash < E.P.q) (seeds : ElectionKeyPair → Nat → Nat → Nat)
    (hdec : Decryptable E.P maxE (combinePublicKeys E.P (kps.map (fun kp => kp.keyPair.pub))) m cs) :
    ∃ f : ElectionKeyPair → DecShare,
      (∀ kp ∈ kps, shareForContests E true kp objectId cs ctx (seeds kp) = some (f kp)) ∧
      ∃ d, decryptContestsLoop E maxE (kps.map (fun kp => (kp.ownerId, f kp))) ctx.cryptoExtendedBaseHash m true cs []
        = .ok (some d) ∧
      PlaintextTally.Correct ⟨objectId, d⟩ E.P (combinePublicKeys E.P (kps.map (fun kp => kp.keyPair.pub))) m cs := by
  classical
  have hex : ∀ kp : ElectionKeyPair, ∃ sh, kp ∈ kps →
      shareForContests E true kp objectId cs ctx (seeds kp) = some sh ∧ sh.objectId = objectId ∧
      sh.guardianId = kp.ownerId ∧
      ShareFor E ctx.cryptoExtendedBaseHash kp.keyPair.secret kp.keyPair.pub cs sh := by
    intro kp
    by_cases hkp : kp ∈ kps
    · obtain ⟨sh, h⟩ := shareForContests_ok hv kp (hk kp hkp) objectId cs ctx (seeds kp) hh hdec.ids hdec.elements
      exact ⟨sh, fun _ => h⟩
    · exact ⟨⟨"", "", 0, []⟩, fun h => absurd h hkp⟩
  choose f hf using hex
  refine ⟨f, fun kp hkp => (hf kp hkp).1, ?_⟩
  refine decryptContests_right hv cs _ (secretOf kps) (fun i => E.P.g ^ secretOf kps i % E.P.p) m ?_ ?_ ?_ hdec objectId
  · rw [List.map_map]
    have : kps.map ((fun e : String × DecShare => e.2.guardianId) ∘ fun kp => (kp.ownerId, f kp))
        = kps.map (fun kp => kp.ownerId) := List.map_congr_left (fun kp hkp => (hf kp hkp).2.2.1)
    rw [this]
    exact hid
  · intro e he
    obtain ⟨kp, hkp, rfl⟩ := List.mem_map.1 he
    have h := hf kp hkp
    simp only [h.2.2.1, secretOf_mem hid hkp]
    rw [← hk kp hkp]
    exact h.2.2.2
  · rw [jointKey_eq hv kps _ _ hk, List.map_map]
    congr 2
    refine List.map_congr_left (fun kp hkp => ?_)
    simp only [Function.comp, (hf kp hkp).2.2.1, secretOf_mem hid hkp]

/-- C14 All guardians compute their share of a tally, and `decrypt_tally` gives a plaintext tally that reports exactly the
encrypted values of the described selections. -/
theorem C14_tally (hv : E.P.Valid) (maxE : Nat) (kps : List ElectionKeyPair)
    (hk : ∀ kp ∈ kps, kp.keyPair.pub = E.P.g ^ kp.keyPair.secret % E.P.p)
    (hid : (kps.map (fun kp => kp.ownerId)).Nodup) (t : Tally) (m : Manifest) (ctx : Context)
    (hh : ctx.cryptoExtendedBaseHash < E.P.q) (seeds : ElectionKeyPair → Nat → Nat → Nat)
    (hdec : Decryptable E.P maxE (combinePublicKeys E.P (kps.map (fun kp => kp.keyPair.pub))) m t.toCts) :
    ∃ f : ElectionKeyPair → DecShare,
      (∀ kp ∈ kps, computeTallyShare E true kp t ctx (seeds kp) = some (f kp)) ∧
      ∃ pt, decryptTally E maxE t (kps.map (fun kp => (kp.ownerId, f kp))) ctx.cryptoExtendedBaseHash m
        = .ok (some pt) ∧
      pt.objectId = t.objectId ∧
      pt.Correct E.P (combinePublicKeys E.P (kps.map (fun kp => kp.keyPair.pub))) m t.toCts := by
  obtain ⟨f, h1, d, h2, h3⟩ := decrypt_all hv maxE kps hk hid t.toCts t.objectId m ctx hh seeds hdec
  refine ⟨f, h1, ⟨t.objectId, d⟩, ?_, rfl, h3⟩
  simp only [decryptTally, h2, bind, Except.bind, pure, Except.pure, Option.map_some]

/-- C14 The same for a single ballot. -/
theorem C14_ballot (hv : E.P.Valid) (maxE : Nat) (kps : List ElectionKeyPair)
    (hk : ∀ kp ∈ kps, kp.keyPair.pub = E.P.g ^ kp.keyPair.secret % E.P.p)
    (hid : (kps.map (fun kp => kp.ownerId)).Nodup) (b : SBallot) (m : Manifest) (ctx : Context)
    (hh : ctx.cryptoExtendedBaseHash < E.P.q) (seeds : ElectionKeyPair → Nat → Nat → Nat)
    (hdec : Decryptable E.P maxE (combinePublicKeys E.P (kps.map (fun kp => kp.keyPair.pub))) m b.toCts) :
    ∃ f : ElectionKeyPair → DecShare,
      (∀ kp ∈ kps, computeBallotShare E true kp b ctx (seeds kp) = some (f kp)) ∧
      ∃ pt, decryptBallotWithShares E maxE b (kps.map (fun kp => (kp.ownerId, f kp))) ctx.cryptoExtendedBaseHash m
        = .ok (some pt) ∧
      pt.objectId = b.objectId ∧
      pt.Correct E.P (combinePublicKeys E.P (kps.map (fun kp => kp.keyPair.pub))) m b.toCts := by
  obtain ⟨f, h1, d, h2, h3⟩ := decrypt_all hv maxE kps hk hid b.toCts b.objectId m ctx hh seeds hdec
  refine ⟨f, h1, ⟨b.objectId, d⟩, ?_, rfl, h3⟩
  simp only [decryptBallotWithShares, h2, bind, Except.bind, pure, Except.pure, Option.map_some]

end EG
