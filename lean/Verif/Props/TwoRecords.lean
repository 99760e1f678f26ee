import Verif.Spec.TwoRecords
import Verif.Props.RecordForgery

/-!
# Two audited records of the same ballots show the same result (C114)
-/

namespace EG

open Finset

variable {E : Env} {P : Params}

theorem PlaintextTally.Shows.unique {pt : PlaintextTally} {cid sid : String} {ps ps' : PTSelection}
    (h : pt.Shows cid sid ps) (h' : pt.Shows cid sid ps') : ps = ps' := by
  obtain ⟨c, h1, h2⟩ := h
  obtain ⟨c', h1', h2'⟩ := h'
  obtain rfl : c = c' := Option.some.inj (h1.symm.trans h1')
  exact Option.some.inj (h2.symm.trans h2')

/-- Two records that show votes of the same ballots, under the same key, show the same. -/
theorem showsVotes_agree (hv : E.P.Valid) {v v' : RecordView} (hm : v.manifest = v'.manifest) (hb : v.ballots.Perm v'.ballots)
    (hkey : v.context.elgamalPublicKey = v'.context.elgamalPublicKey) (hK : isValidResidue E.P v.context.elgamalPublicKey = true)
    (hs : (v.spoiled.map PlaintextTally.objectId).Nodup) (hs' : (v'.spoiled.map PlaintextTally.objectId).Nodup)
    {im : InternalManifest} {plain plain' : Ciphertext → Nat} (h1 : v.ShowsVotes E im plain) (h2 : v'.ShowsVotes E im plain') :
    ¬ v.Disagree v' E.P.q im := by
  have hq := hv.one_lt_q
  have eq : ∀ b ∈ v.ballots, ∀ c ∈ b.contests, ∀ s ∈ c.ballotSelections, plain s.ciphertext = plain' s.ciphertext := by
    intro b hb' c hc s hsel
    obtain ⟨a1, a2⟩ := h1.votes b hb' c hc s hsel
    obtain ⟨b1, b2⟩ := h2.votes b (hb.subset hb') c hc s hsel
    rw [← hkey] at b2
    have := C04_plaintext_unique E.P hv _ _ _ hK _ a2 b2
    rwa [Nat.mod_eq_of_lt (by omega), Nat.mod_eq_of_lt (by omega)] at this
  rintro (⟨d, hd, sd, hsd, ps, ps', hp, hp', hne⟩ | ⟨b, hb', hst, c, hc, s, hsel, hdesc, pt, hpt, pt', hpt', hid, hid', ps, ps', hp, hp', hne⟩)
  · obtain ⟨x, hx, hxt⟩ := h1.tally d hd sd hsd
    obtain ⟨y, hy, hyt⟩ := h2.tally d hd sd hsd
    obtain rfl := hp.unique hx
    obtain rfl := hp'.unique hy
    apply hne
    refine hxt.trans (Nat.ModEq.trans ?_ hyt.symm)
    have e1 : (v.ballots.filter (fun b => decide (b.state = .cast))).map (fun b => b.toCBallot.votesFor plain d.objectId sd.objectId) =
        (v.ballots.filter (fun b => decide (b.state = .cast))).map (fun b => b.toCBallot.votesFor plain' d.objectId sd.objectId) := by
      refine List.map_congr_left (fun b hb' => ?_)
      have hb' := (List.mem_filter.1 hb').1
      unfold CBallot.votesFor
      congr 1
      refine List.map_congr_left (fun ct hct => ?_)
      obtain ⟨c, hc, -, s, hsel, -, rfl⟩ := contribution_mem hct
      exact eq b hb' c hc s hsel
    rw [e1, ((hb.filter _).map _).sum_eq]
  · obtain ⟨x, hx, hxid, hxs⟩ := h1.spoiled b hb' hst
    obtain ⟨y, hy, hyid, hys⟩ := h2.spoiled b (hb.subset hb') hst
    obtain rfl : x = pt := List.inj_on_of_nodup_map hs hx hpt (hxid.trans hid.symm)
    obtain rfl : y = pt' := List.inj_on_of_nodup_map hs' hy hpt' (hyid.trans hid'.symm)
    obtain ⟨ps1, g1, g2⟩ := hxs c hc s hsel hdesc
    obtain ⟨ps2, e1, e2⟩ := hys c hc s hsel (hm ▸ hdesc)
    obtain rfl := hp.unique g1
    obtain rfl := hp'.unique e1
    apply hne
    rw [eq b hb' c hc s hsel] at g2
    exact g2.trans e2.symm

theorem same_joint {v v' : RecordView} (h : v.guardians.Perm v'.guardians) (p : Nat) :
    (v.guardians.map GuardianRecord.publicKey).prod % p = (v'.guardians.map GuardianRecord.publicKey).prod % p := by
  rw [(h.map GuardianRecord.publicKey).prod_eq]

/-- C114: two records of the same ballots that both pass the audit, decrypted by whichever quorums of guardians, do not contradict each
other, unless one of them has a proof that is lucky. -/
theorem C114_same_result_partial (hv : E.P.Valid) (hpq : (E.P.q - 1) * (E.P.q - 1) < E.P.p) (v v' : RecordView)
    (h : v.QuorumAudited E) (h' : v'.QuorumAudited E) (hc : Contradict E v v') :
    (v.Lucky E ∨ v.LuckyPart E) ∨ (v'.Lucky E ∨ v'.LuckyPart E) := by
  obtain ⟨hs, im, he, hreg, hwf, hwf', hd⟩ := hc
  by_contra hl
  simp only [not_or] at hl
  obtain ⟨⟨l1, l2⟩, l3, l4⟩ := hl
  obtain ⟨plain, h1⟩ := C88_shows_votes_partial hv hpq v h im he hreg hwf l1 l2
  obtain ⟨plain', h2⟩ := C88_shows_votes_partial hv hpq v' h' im (hs.manifest ▸ he)
    (fun b hb => hreg b (hs.ballots.symm.subset hb)) hwf' l3 l4
  refine showsVotes_agree hv hs.manifest hs.ballots ?_ (quorum_joint hv h) h.spoiledIds h'.spoiledIds h1 h2 hd
  rw [h.jointKey, h'.jointKey, same_joint hs.guardians]

/-- C114: the same for the part of the audit that the result rests on, where all guardians took part. -/
theorem C114_result_partial (hv : E.P.Valid) (hpq : (E.P.q - 1) * (E.P.q - 1) < E.P.p) (v v' : RecordView)
    (h : v.ResultAudited E) (h' : v'.ResultAudited E) (hc : Contradict E v v') : v.Lucky E ∨ v'.Lucky E := by
  obtain ⟨hs, im, he, hreg, hwf, hwf', hd⟩ := hc
  by_contra hl
  simp only [not_or] at hl
  obtain ⟨plain, h1⟩ := C77_shows_votes_partial hv hpq v h im he hreg hwf hl.1
  obtain ⟨plain', h2⟩ := C77_shows_votes_partial hv hpq v' h' im (hs.manifest ▸ he)
    (fun b hb => hreg b (hs.ballots.symm.subset hb)) hwf' hl.2
  refine showsVotes_agree hv hs.manifest hs.ballots ?_ (audited_joint hv h) h.spoiledIds h'.spoiledIds h1 h2 hd
  rw [h.jointKey, h'.jointKey, same_joint hs.guardians]

/-- Shows something of what another program shows. -/
def Asking.map {α β : Type} (f : α → β) : Asking α → Asking β
  | .shows a => .shows (f a)
  | .asks t next => .asks t (fun v => (next v).map f)

theorem Asking.run_map {α β : Type} (f : α → β) (s : Text → Nat) (A : Asking α) : (A.map f).run s = f (A.run s) := by
  induction A with
  | shows a => rfl
  | asks t next ih => exact ih (s t)

theorem Asking.map_atMost {α β : Type} (f : α → β) {A : Asking α} {n : Nat} (h : A.AtMost n) : (A.map f).AtMost n := by
  induction A generalizing n with
  | shows a => cases n <;> trivial
  | asks t next ih =>
    cases n with
    | zero => exact h.elim
    | succ n => exact fun v => ih v (h v)

theorem Asking.map_canShow {α β : Type} (f : α → β) {A : Asking α} {b : β} (h : (A.map f).CanShow b) : ∃ a, A.CanShow a ∧ b = f a := by
  induction A with
  | shows a => exact ⟨a, rfl, h⟩
  | asks t next ih =>
    obtain ⟨v, hv⟩ := h
    obtain ⟨a, h1, h2⟩ := ih v hv
    exact ⟨a, ⟨v, h1⟩, h2⟩

/-- If one of two things happens whenever a third does, the third is not more frequent than both together. -/
theorem card_either {α : Type} (S : Finset α) (p q r : α → Prop) [DecidablePred p] [DecidablePred q] [DecidablePred r]
    (h : ∀ s ∈ S, p s → q s ∨ r s) {M B : Nat} (hq : M * (S.filter q).card ≤ B) (hr : M * (S.filter r).card ≤ B) :
    M * (S.filter p).card ≤ 2 * B := by
  classical
  have h1 : S.filter p ⊆ S.filter q ∪ S.filter r := by
    intro s hs
    obtain ⟨h1, h2⟩ := Finset.mem_filter.1 hs
    rcases h s h1 h2 with h3 | h3
    · exact Finset.mem_union_left _ (Finset.mem_filter.2 ⟨h1, h3⟩)
    · exact Finset.mem_union_right _ (Finset.mem_filter.2 ⟨h1, h3⟩)
  calc M * (S.filter p).card ≤ M * ((S.filter q).card + (S.filter r).card) :=
        Nat.mul_le_mul_left M ((Finset.card_le_card h1).trans (Finset.card_union_le _ _))
    _ ≤ 2 * B := by rw [Nat.mul_add]; omega

open Classical in
/-- C114: somebody who asks for at most `n` hashes and then shows two records of the same ballots, with at most `N` proofs each, that both pass
the audit and show different results, succeeds for few hash functions only. -/
theorem C114_forger_partial (hv : P.Valid) (hpq : (P.q - 1) * (P.q - 1) < P.p) (hmac : Bytes → Bytes → Bytes) (M : Nat)
    (gs : List GuardianRecord) (limits : Finset Nat) (A : Asking (RecordView × RecordView)) (n N : Nat) (hn : A.AtMost n)
    (hN : ∀ x, A.CanShow x → x.1.proofTexts.length ≤ N ∧ x.2.proofTexts.length ≤ N) (f : Text → Nat) (T : Finset Text)
    (hT : auditTexts P ⊆ T) :
    M * ((oracles f T M).filter fun s => (A.run s).1.QuorumAudited ⟨P, s, hmac⟩ ∧ (A.run s).2.QuorumAudited ⟨P, s, hmac⟩ ∧
        (A.run s).1.guardians.Perm gs ∧ (A.run s).1.LimitsIn limits ∧ Contradict ⟨P, s, hmac⟩ (A.run s).1 (A.run s).2).card
      ≤ 2 * ((n + N) * ((limits.card + (gs.length + gs.length * gs.length) + 1) * (M / P.q + 1)) * (oracles f T M).card) := by
  have b1 := C111_quorum_partial hv hpq hmac M gs limits (A.map Prod.fst) n N (Asking.map_atMost _ hn)
    (fun v h => by obtain ⟨x, h1, rfl⟩ := Asking.map_canShow _ h; exact (hN x h1).1) f T hT
  have b2 := C111_quorum_partial hv hpq hmac M gs limits (A.map Prod.snd) n N (Asking.map_atMost _ hn)
    (fun v h => by obtain ⟨x, h1, rfl⟩ := Asking.map_canShow _ h; exact (hN x h1).2) f T hT
  simp only [Asking.run_map] at b1 b2
  refine card_either _ _ _ _ (fun s _ hs => ?_) b1 b2
  obtain ⟨h, h', hperm, hlim, hsame, im, he, hreg, hwf, hwf', hd⟩ := hs
  have hperm' : (A.run s).2.guardians.Perm gs := hsame.guardians.symm.trans hperm
  have hlim' : (A.run s).2.LimitsIn limits := fun b hb => hlim b (hsame.ballots.symm.subset hb)
  by_cases m1 : ∃ plain, (A.run s).1.ShowsVotes ⟨P, s, hmac⟩ im plain
  · by_cases m2 : ∃ plain, (A.run s).2.ShowsVotes ⟨P, s, hmac⟩ im plain
    · obtain ⟨plain, h1⟩ := m1
      obtain ⟨plain', h2⟩ := m2
      refine absurd hd (showsVotes_agree (E := ⟨P, s, hmac⟩) hv hsame.manifest hsame.ballots ?_ (quorum_joint (E := ⟨P, s, hmac⟩) hv h)
        h.spoiledIds h'.spoiledIds h1 h2)
      rw [h.jointKey, h'.jointKey, same_joint hsame.guardians]
    · exact .inr ⟨h', hperm', hlim', im, hsame.manifest ▸ he,
        fun b hb => hreg b (hsame.ballots.symm.subset hb), hwf', m2⟩
  · exact .inl ⟨h, hperm, hlim, im, he, hreg, hwf, m1⟩

open Classical in
/-- C114 at the standard constants and hashes of 256 bits: at most `(n + N) (l + k + k² + 1)` in 2^254 hash functions. -/
theorem C114_standard (hp : standardConstants.p.Prime) (hmac : Bytes → Bytes → Bytes) (gs : List GuardianRecord)
    (limits : Finset Nat) (A : Asking (RecordView × RecordView)) (n N : Nat) (hn : A.AtMost n)
    (hN : ∀ x, A.CanShow x → x.1.proofTexts.length ≤ N ∧ x.2.proofTexts.length ≤ N) (f : Text → Nat) (T : Finset Text)
    (hT : auditTexts standardConstants.params ⊆ T) :
    2 ^ 254 * ((oracles f T (2 ^ 256)).filter fun s => (A.run s).1.QuorumAudited ⟨standardConstants.params, s, hmac⟩ ∧
        (A.run s).2.QuorumAudited ⟨standardConstants.params, s, hmac⟩ ∧ (A.run s).1.guardians.Perm gs ∧ (A.run s).1.LimitsIn limits ∧
        Contradict ⟨standardConstants.params, s, hmac⟩ (A.run s).1 (A.run s).2).card
      ≤ (n + N) * (limits.card + (gs.length + gs.length * gs.length) + 1) * (oracles f T (2 ^ 256)).card := by
  have h := C114_forger_partial (C61_standard_valid hp) C92_standard_sizes.1 hmac (2 ^ 256) gs limits A n N hn hN f T hT
  rw [standard_hashes] at h
  generalize hc : ((oracles f T (2 ^ 256)).filter fun s => (A.run s).1.QuorumAudited ⟨standardConstants.params, s, hmac⟩ ∧
        (A.run s).2.QuorumAudited ⟨standardConstants.params, s, hmac⟩ ∧ (A.run s).1.guardians.Perm gs ∧ (A.run s).1.LimitsIn limits ∧
        Contradict ⟨standardConstants.params, s, hmac⟩ (A.run s).1 (A.run s).2).card = X at h ⊢
  generalize (oracles f T (2 ^ 256)).card = O at h ⊢
  have e : (2 : Nat) ^ 256 = 4 * 2 ^ 254 := by norm_num
  rw [e] at h
  generalize limits.card + (gs.length + gs.length * gs.length) + 1 = l at h ⊢
  have h1 : 4 * (2 ^ 254 * X) ≤ 4 * ((n + N) * l * O) := by
    calc 4 * (2 ^ 254 * X) = 4 * 2 ^ 254 * X := by ring
      _ ≤ _ := h
      _ = _ := by ring
  exact Nat.le_of_mul_le_mul_left h1 (by decide)

/-! ### Two records that contradict each other

The record of the forger of C111, who was lucky, and the honest record of the same election without ballots. -/

def plainSelection (sid : String) : PTSelection :=
  ⟨sid, 0, 1, ⟨1, 1⟩, [⟨sid, "g", 1, some ⟨1, 1, 9, 1⟩, none⟩]⟩

def plainTally : PlaintextTally :=
  ⟨"t", [("c", ⟨"c", [("sx", plainSelection "sx"), ("sy", plainSelection "sy")]⟩), ("d", ⟨"d", [("sz", plainSelection "sz")]⟩)]⟩

def plainRecord : RecordView := { forgedRecord with tally := plainTally }

theorem plain_shows {cid sid : String} {ps : PTSelection} (h : plainTally.Shows cid sid ps) :
    (cid, sid, ps) ∈ [("c", "sx", plainSelection "sx"), ("c", "sy", plainSelection "sy"), ("d", "sz", plainSelection "sz")] := by
  obtain ⟨pc, h1, h2⟩ := h
  have h1 := mem_of_dget h1
  have h2 := mem_of_dget h2
  simp only [plainTally, List.mem_cons, Prod.mk.injEq, List.not_mem_nil, or_false] at h1
  rcases h1 with ⟨rfl, rfl⟩ | ⟨rfl, rfl⟩ <;>
    simp only [List.mem_cons, Prod.mk.injEq, List.not_mem_nil, or_false] at h2
  · rcases h2 with ⟨rfl, rfl⟩ | ⟨rfl, rfl⟩ <;> simp
  · obtain ⟨rfl, rfl⟩ := h2; simp

theorem plain_audited : plainRecord.ResultAudited nineEnv where
  constants := rfl
  manifest := by decide +kernel
  context := rfl
  guardianIds := by decide
  keys := by decide +kernel
  jointKey := by decide +kernel
  ballotIds := by decide
  ballots := fun b hb => by cases hb
  aggregation := by decide +kernel
  tally := {
    proofs := by decide +kernel
    shown := by
      intro c hc s hs _
      have h : ∀ c ∈ plainRecord.encryptedTally.contests.map (fun e => e.2.toCt), ∀ s ∈ c.selections,
        s.ciphertext = ⟨1, 1⟩ ∧ ((dget plainTally.contests c.objectId).bind fun pc => dget pc.selections s.objectId)
          = some (plainSelection s.objectId) := by decide +kernel
      obtain ⟨h1, h2⟩ := h c hc s hs
      cases hd : dget plainTally.contests c.objectId with
      | none => rw [hd] at h2; cases h2
      | some pc =>
        rw [hd] at h2
        refine ⟨_, ⟨pc, hd, h2⟩, ?_⟩
        rw [h1]
        exact ⟨rfl, List.Perm.refl _, rfl, by simp [plainSelection, nineEnv, extraSmall]⟩
    only := by
      intro cid sid ps h
      have h1 : ∀ e ∈ [("c", "sx", plainSelection "sx"), ("c", "sy", plainSelection "sy"), ("d", "sz", plainSelection "sz")],
        ∃ c ∈ plainRecord.encryptedTally.contests.map (fun e => e.2.toCt), ∃ s ∈ c.selections, c.objectId = e.1 ∧ s.objectId = e.2.1 := by
        decide +kernel
      obtain ⟨c, hc, s, hs, h2, h3⟩ := h1 _ (plain_shows h)
      refine ⟨c, hc, s, hs, h2, h3, ?_⟩
      have := plain_shows h
      simp only [List.mem_cons, Prod.mk.injEq, List.not_mem_nil, or_false] at this
      rcases this with ⟨rfl, rfl, -⟩ | ⟨rfl, rfl, -⟩ | ⟨rfl, rfl, -⟩ <;> exact ⟨_, rfl, by decide⟩ }
  spoiled := fun b hb => by cases hb
  spoiledOnly := fun b hb => by cases hb
  spoiledIds := by decide

theorem forged_contradicts : Contradict nineEnv plainRecord forgedRecord := by
  have hd : ∃ d ∈ nineIM.contests, ∃ sd ∈ d.ballotSelections, d.objectId = "c" ∧ sd.objectId = "sx" := by decide +kernel
  obtain ⟨d, hd, sd, hsd, h1, h2⟩ := hd
  refine ⟨⟨rfl, List.Perm.refl _, List.Perm.refl _⟩, nineIM, nineReady, fun b hb => (by cases hb), ⟨by decide +kernel, by decide +kernel⟩,
    ⟨by decide +kernel, by decide +kernel⟩, .inl ⟨d, hd, sd, hsd, plainSelection "sx", luckySelection "sx", ?_, ?_, ?_⟩⟩
  · rw [h1, h2]; exact ⟨_, rfl, rfl⟩
  · rw [h1, h2]; exact ⟨_, rfl, rfl⟩
  · simp [plainSelection, luckySelection, Nat.ModEq, nineEnv, extraSmall]

/-- Both pass the audit, so one of them is lucky, and it is the second. -/
example : forgedRecord.Lucky nineEnv := by
  rcases C114_result_partial (E := nineEnv) extraSmall_valid (by decide) plainRecord forgedRecord plain_audited forged_audited
    forged_contradicts with h | h
  · exfalso
    rcases h with ⟨b, hb, _⟩ | ⟨pt, rfl | hpt, cid, sid, ps, hs, x, hx, g, hg, -, hl⟩
    · cases hb
    · obtain rfl := List.mem_singleton.1 hg
      have hs := plain_shows hs
      simp only [List.mem_cons, Prod.mk.injEq, List.not_mem_nil, or_false] at hs
      have key : ∀ sid, ∀ x ∈ (plainSelection sid).shares,
          ¬ x.Lucky nineEnv (plainSelection sid).message forgedGuardian.publicKey plainRecord.context.cryptoExtendedBaseHash := by
        intro sid x hx
        obtain rfl := List.mem_singleton.1 hx
        exact C76_right_share_not_lucky (E := nineEnv) extraSmall_valid _ _ 3 _ ⟨1, 1, 9, 1⟩ (by simp [plainSelection, nineEnv, extraSmall])
          rfl (show CPProof.isValid nineEnv ⟨1, 1, 9, 1⟩ ⟨1, 1⟩ (nineEnv.P.g ^ 3 % nineEnv.P.p) 1
            plainRecord.context.cryptoExtendedBaseHash = true by decide +kernel)
      rcases hs with ⟨-, -, rfl⟩ | ⟨-, -, rfl⟩ | ⟨-, -, rfl⟩ <;> exact key _ x hx hl
    · cases hpt
  · exact h

/-- `C114_forger_partial` for somebody who shows the two without asking for a hash. -/
example (f : Text → Nat) :=
  C114_forger_partial (P := extraSmall) extraSmall_valid (by decide) toyEnv.hmac 1000 [forgedGuardian] ∅
    (.shows (plainRecord, forgedRecord)) 0 3 trivial (by rintro x rfl; decide +kernel) f (auditTexts extraSmall) (Finset.Subset.refl _)

end EG
