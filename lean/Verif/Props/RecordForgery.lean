import Verif.Spec.RecordForgery
import Verif.Props.AuditQuorum
import Verif.Props.Extraction

/-!
# C111: a wrong election record that passes the audit, for a random hash function
-/

namespace EG

open Finset

variable {P : Params}

/-! ### Lucky proofs -/

/-- The proof of a vote with this text is accepted, and there is no valid proof with another challenge. -/
def LuckyVote (P : Params) (hmac : Bytes → Bytes → Bytes) (K : Nat) (s : Text → Nat) (t : Text) : Prop :=
  ∃ (base : Nat) (c : Ciphertext) (pf : DisjProof), disjText base c pf = t ∧ pf.isValid ⟨P, s, hmac⟩ c K base = true ∧
    ∀ (E' : Env) (base' : Nat) (pf' : DisjProof), E'.P = P → (pf'.a0, pf'.b0, pf'.a1, pf'.b1) = (pf.a0, pf.b0, pf.a1, pf.b1) →
      pf'.isValid E' c K base' = true →
      hashElems E' (disjHashArgs base' c pf.a0 pf.b0 pf.a1 pf.b1) = hashElems ⟨P, s, hmac⟩ (disjHashArgs base c pf.a0 pf.b0 pf.a1 pf.b1)

/-- The same for the proof of a sum of `L` votes. -/
def LuckyLimit (P : Params) (hmac : Bytes → Bytes → Bytes) (K L : Nat) (s : Text → Nat) (t : Text) : Prop :=
  ∃ (base : Nat) (c : Ciphertext) (pf : ConstProof), limitText base c pf = t ∧ pf.constant = L ∧
    pf.isValid ⟨P, s, hmac⟩ c K base = true ∧
    ∀ (E' : Env) (base' : Nat) (pf' : ConstProof), E'.P = P → pf'.a = pf.a → pf'.b = pf.b → pf'.constant = pf.constant →
      pf'.isValid E' c K base' = true →
      hashElems E' (constHashArgs base' c pf.a pf.b) = hashElems ⟨P, s, hmac⟩ (constHashArgs base c pf.a pf.b)

/-- The same for the proof of a share for the key `k`. -/
def LuckyShare (P : Params) (hmac : Bytes → Bytes → Bytes) (k : Nat) (s : Text → Nat) (t : Text) : Prop :=
  ∃ (base : Nat) (c : Ciphertext) (share : Nat) (pf : CPProof), shareText base c share pf = t ∧
    pf.isValid ⟨P, s, hmac⟩ c k share base = true ∧
    ∀ (E' : Env) (base' : Nat) (pf' : CPProof), E'.P = P → pf'.a = pf.a → pf'.b = pf.b → pf'.isValid E' c k share base' = true →
      hashElems E' (cpHashArgs base' c pf.a pf.b share) = hashElems ⟨P, s, hmac⟩ (cpHashArgs base c pf.a pf.b share)

theorem luckyVote_unique (hmac : Bytes → Bytes → Bytes) (K : Nat) (s s' : Text → Nat) (t : Text) (h : LuckyVote P hmac K s t)
    (h' : LuckyVote P hmac K s' t) : s t % P.q = s' t % P.q := by
  obtain ⟨base, c, pf, rfl, _, hl⟩ := h
  obtain ⟨base', c', pf', he, hval', _⟩ := h'
  have ht := elemText_inj he
  simp only [List.cons.injEq, and_true] at ht
  obtain ⟨e0, e1, e2, e3, e4, e5, e6⟩ := ht
  have hcc : c' = c := by cases c; cases c'; simp_all
  subst hcc
  subst e0
  have := hl ⟨P, s', hmac⟩ base' pf' rfl (by rw [e3, e4, e5, e6]) hval'
  rw [hashElems_disj, hashElems_disj] at this
  exact this.symm

theorem luckyLimit_unique (hmac : Bytes → Bytes → Bytes) (K L : Nat) (s s' : Text → Nat) (t : Text) (h : LuckyLimit P hmac K L s t)
    (h' : LuckyLimit P hmac K L s' t) : s t % P.q = s' t % P.q := by
  obtain ⟨base, c, pf, rfl, hL, _, hl⟩ := h
  obtain ⟨base', c', pf', he, hL', hval', _⟩ := h'
  have ht := elemText_inj he
  simp only [List.cons.injEq, and_true] at ht
  obtain ⟨e0, e1, e2, e3, e4⟩ := ht
  have hcc : c' = c := by cases c; cases c'; simp_all
  subst hcc
  subst e0
  have := hl ⟨P, s', hmac⟩ base' pf' rfl e3 e4 (hL'.trans hL.symm) hval'
  rw [hashElems_limit, hashElems_limit] at this
  exact this.symm

theorem luckyShare_unique (hmac : Bytes → Bytes → Bytes) (k : Nat) (s s' : Text → Nat) (t : Text) (h : LuckyShare P hmac k s t)
    (h' : LuckyShare P hmac k s' t) : s t % P.q = s' t % P.q := by
  obtain ⟨base, c, share, pf, rfl, _, hl⟩ := h
  obtain ⟨base', c', share', pf', he, hval', _⟩ := h'
  have ht := elemText_inj he
  simp only [List.cons.injEq, and_true] at ht
  obtain ⟨e0, e1, e2, e3, e4, e5⟩ := ht
  have hcc : c' = c := by cases c; cases c'; simp_all
  subst hcc
  subst e0
  subst e5
  have := hl ⟨P, s', hmac⟩ base' pf' rfl e3 e4 hval'
  rw [hashElems_share, hashElems_share] at this
  exact this.symm

/-! ### The texts of accepted proofs -/

theorem disjText_mem (hv : P.Valid) {hmac : Bytes → Bytes → Bytes} {s : Text → Nat} {K base : Nat} (hb : base < P.q) {c : Ciphertext}
    {pf : DisjProof} (h : pf.isValid ⟨P, s, hmac⟩ c K base = true) : disjText base c pf ∈ auditTexts P := by
  have hc := (DisjProof.isValid_iff (E := ⟨P, s, hmac⟩) hv pf c K base).1 h
  have lt : ∀ {y}, isValidResidue P y = true → y < P.p := fun h => ((isValidResidue_iff hv _).1 h).1
  refine mem_biUnion.2 ⟨base, mem_range.2 hb, mem_union_left _ (mem_union_left _ (mem_image.2
    ⟨(c.pad, c.data, pf.a0, pf.b0, pf.a1, pf.b1), ?_, rfl⟩))⟩
  simp only [mem_product, mem_range]
  exact ⟨lt hc.1, lt hc.2.1, lt hc.2.2.1, lt hc.2.2.2.1, lt hc.2.2.2.2.1, lt hc.2.2.2.2.2.1⟩

theorem limitText_mem (hv : P.Valid) {hmac : Bytes → Bytes → Bytes} {s : Text → Nat} {K base : Nat} (hb : base < P.q) {c : Ciphertext}
    {pf : ConstProof} (h : pf.isValid ⟨P, s, hmac⟩ c K base = true) : limitText base c pf ∈ auditTexts P := by
  have hc := (ConstProof.isValid_iff (E := ⟨P, s, hmac⟩) hv pf c K base).1 h
  have lt : ∀ {y}, isValidResidue P y = true → y < P.p := fun h => ((isValidResidue_iff hv _).1 h).1
  refine mem_biUnion.2 ⟨base, mem_range.2 hb, mem_union_left _ (mem_union_right _ (mem_image.2
    ⟨(c.pad, c.data, pf.a, pf.b), ?_, rfl⟩))⟩
  simp only [mem_product, mem_range]
  exact ⟨lt hc.1, lt hc.2.1, lt hc.2.2.1, lt hc.2.2.2.1⟩

theorem shareText_mem (hv : P.Valid) {hmac : Bytes → Bytes → Bytes} {s : Text → Nat} {k share base : Nat} {c : Ciphertext}
    {pf : CPProof} (h : pf.isValid ⟨P, s, hmac⟩ c k share base = true) : shareText base c share pf ∈ auditTexts P := by
  have hc := (CPProof.isValid_iff (E := ⟨P, s, hmac⟩) hv pf c k share base).1 h
  have lt : ∀ {y}, isValidResidue P y = true → y < P.p := fun h => ((isValidResidue_iff hv _).1 h).1
  have hb : base < P.q := hc.2.2.2.2.2.2.2.2.1
  refine mem_biUnion.2 ⟨base, mem_range.2 hb, mem_union_right _ (mem_image.2
    ⟨(c.pad, c.data, pf.a, pf.b, share), ?_, rfl⟩)⟩
  simp only [mem_product, mem_range]
  exact ⟨lt hc.1, lt hc.2.1, lt hc.2.2.2.2.1, lt hc.2.2.2.2.2.1, lt hc.2.2.2.1⟩

/-- One of the proofs in the record is lucky. -/
def Lucky (P : Params) (hmac : Bytes → Bytes → Bytes) (K : Nat) (i : Option (Nat ⊕ Nat)) (s : Text → Nat) (t : Text) : Prop :=
  match i with
  | none => LuckyVote P hmac K s t
  | some (.inl L) => LuckyLimit P hmac K L s t
  | some (.inr k) => LuckyShare P hmac k s t

/-- A lucky proof of a record in which every share is in order is among those that are counted. -/
theorem lucky_text (hv : P.Valid) {hmac : Bytes → Bytes → Bytes} {s : Text → Nat} {v : RecordView} {K : Nat}
    (hbase : v.context.cryptoExtendedBaseHash < P.q)
    (hK : v.context.elgamalPublicKey = K) (hids : (v.guardians.map GuardianRecord.guardianId).Nodup)
    (hballots : ∀ b ∈ v.ballots, verifyBallot ⟨P, s, hmac⟩ b.toCBallot v.manifest v.context = .ok true)
    (hshares : ∀ pt, (pt = v.tally ∨ pt ∈ v.spoiled) → ∀ cid sid ps, pt.Shows cid sid ps → ∀ x ∈ ps.shares,
      ∃ g ∈ v.guardians, g.guardianId = x.guardianId ∧ x.ShareInOrder ⟨P, s, hmac⟩ v g ps.message)
    (limits keys : Finset Nat) (hlim : v.LimitsIn limits) (hkeys : ∀ g ∈ v.guardians, g.publicKey ∈ keys)
    (hl : v.Lucky ⟨P, s, hmac⟩ ∨ v.LuckyPart ⟨P, s, hmac⟩)
    (hparts : v.LuckyPart ⟨P, s, hmac⟩ → ∀ a ∈ v.guardians, ∀ m ∈ v.guardians, a.partKey m P ∈ keys) :
    ∃ t ∈ v.proofTexts, t ∈ auditTexts P ∧ ∃ i ∈ insertNone (limits.disjSum keys), Lucky P hmac K i s t := by
  have hmemT : ∀ pt, (pt = v.tally ∨ pt ∈ v.spoiled) → ∀ cid sid ps, pt.Shows cid sid ps → ∀ x ∈ ps.shares, ∀ t ∈
      x.proofTexts v.context.cryptoExtendedBaseHash ps.message, t ∈ v.proofTexts := by
    rintro pt hpt cid sid ps ⟨pc, h1, h2⟩ x hx t ht
    refine List.mem_append_right _ (List.mem_flatMap.2 ⟨pt, ?_, List.mem_flatMap.2 ⟨(cid, pc), mem_of_dget h1,
      List.mem_flatMap.2 ⟨(sid, ps), mem_of_dget h2, List.mem_flatMap.2 ⟨x, hx, ht⟩⟩⟩⟩)
    rcases hpt with rfl | hpt
    · exact List.mem_cons_self
    · exact List.mem_cons_of_mem _ hpt
  rcases hl with (⟨b, hb, c, hc, hl⟩ | ⟨pt, hpt, cid, sid, ps, hshow, x, hx, g, hg, hid, pf, hpf, hl⟩) |
    ⟨pt, hpt, cid, sid, ps, hshow, x, hx, hnone, parts, hrec, e, he, hl⟩
  · obtain ⟨-, -, hcs⟩ := (C64_success_iff b.toCBallot v.manifest v.context).1 (hballots b hb)
    obtain ⟨hsel, -, -, lpf, hlpf, hlval⟩ := hcs c hc
    have hmem : ∀ t ∈ c.proofTexts v.context.cryptoExtendedBaseHash, t ∈ v.proofTexts := fun t ht =>
      List.mem_append_left _ (List.mem_flatMap.2 ⟨b, hb, List.mem_flatMap.2 ⟨c, hc, ht⟩⟩)
    rw [hK] at hl hlval
    rcases hl with ⟨x, hx, pf, hpf, hl⟩ | ⟨pf, hpf, hl⟩
    · obtain ⟨-, pf', hpf', hval⟩ := hsel x hx
      rw [hpf] at hpf'
      obtain rfl : pf = pf' := Option.some.inj hpf'
      rw [hK] at hval
      refine ⟨disjText v.context.cryptoExtendedBaseHash x.ciphertext pf, hmem _ (List.mem_append_left _ (List.mem_flatMap.2
        ⟨x, hx, by rw [hpf]; exact List.mem_singleton.2 rfl⟩)), disjText_mem hv hbase hval, none, none_mem_insertNone, ?_⟩
      exact (⟨_, _, pf, rfl, hval, hl⟩ : LuckyVote P hmac K s _)
    · rw [hpf] at hlpf
      obtain rfl : pf = lpf := Option.some.inj hlpf
      obtain ⟨L, hL, hcon⟩ := hlim b hb c hc pf hpf
      refine ⟨limitText v.context.cryptoExtendedBaseHash c.ciphertextAccumulation pf, hmem _ (List.mem_append_right _ (by
        rw [hpf]; exact List.mem_singleton.2 rfl)), limitText_mem hv hbase hlval, some (.inl L),
        some_mem_insertNone.2 (inl_mem_disjSum.2 hL), ?_⟩
      exact (⟨_, _, pf, rfl, hcon, hlval, hl⟩ : LuckyLimit P hmac K L s _)
  · obtain ⟨g', hg', hid', hord⟩ := hshares pt hpt cid sid ps hshow x hx
    have hgg : g' = g := List.inj_on_of_nodup_map hids hg' hg (hid'.trans hid.symm)
    subst hgg
    rcases hord with ⟨pf', hpf', hval⟩ | ⟨hn, -⟩
    · rw [hpf] at hpf'
      obtain rfl : pf = pf' := Option.some.inj hpf'
      refine ⟨shareText v.context.cryptoExtendedBaseHash ps.message x.share pf, hmemT pt hpt cid sid ps hshow x hx _ (by
        unfold DecSelection.proofTexts; rw [hpf]; exact List.mem_singleton.2 rfl), shareText_mem hv hval, some (.inr g'.publicKey),
        some_mem_insertNone.2 (inr_mem_disjSum.2 (hkeys g' hg)), ?_⟩
      exact (⟨_, _, _, pf, rfl, hval, hl⟩ : LuckyShare P hmac g'.publicKey s _)
    · rw [hpf] at hn; cases hn
  · obtain ⟨m, hm, -, hord⟩ := hshares pt hpt cid sid ps hshow x hx
    rcases hord with ⟨pf', hpf', -⟩ | ⟨-, parts', hrec', hr⟩
    · rw [hnone] at hpf'; cases hpf'
    · rw [hrec] at hrec'
      obtain rfl : parts = parts' := Option.some.inj hrec'
      obtain ⟨a, ha, hid⟩ := List.mem_map.1 (hr.guardians.subset (List.mem_map_of_mem he))
      have hval := hr.proofs e he
      have hkey := hr.keys e he a ha hid
      have hin := hparts ⟨pt, hpt, cid, sid, ps, hshow, x, hx, hnone, parts, hrec, e, he, hl⟩ a (List.mem_filter.1 ha).1 m hm
      refine ⟨shareText v.context.cryptoExtendedBaseHash ps.message e.2.share e.2.proof, hmemT pt hpt cid sid ps hshow x hx _ (by
        unfold DecSelection.proofTexts; rw [hnone, hrec]; exact List.mem_map.2 ⟨e, he, rfl⟩), shareText_mem hv hval,
        some (.inr e.2.recoveryKey), some_mem_insertNone.2 (inr_mem_disjSum.2 (by rw [hkey]; exact hin)), ?_⟩
      exact (⟨_, _, _, _, rfl, hval, hl⟩ : LuckyShare P hmac e.2.recoveryKey s _)

theorem contextBase_lt (hv : P.Valid) {hmac : Bytes → Bytes → Bytes} {s : Text → Nat} {v : RecordView}
    (h : v.context = makeContext ⟨P, s, hmac⟩ v.guardians.length v.context.quorum v.context.elgamalPublicKey v.context.commitmentHash
      (v.manifest.cryptoHash ⟨P, s, hmac⟩)) : v.context.cryptoExtendedBaseHash < P.q := by
  rw [h]
  exact Nat.mod_lt _ hv.q_pos

open Classical in
theorem card_lucky_records (hmac : Bytes → Bytes → Bytes) (K M : Nat) (limits keys : Finset Nat) (A : Asking RecordView) (n N : Nat)
    (hn : A.AtMost n) (hN : ∀ v, A.CanShow v → v.proofTexts.length ≤ N) (f : Text → Nat) (T : Finset Text) (hT : auditTexts P ⊆ T)
    (bad : (Text → Nat) → Prop) [DecidablePred bad] (hbad : ∀ s, bad s → ∃ t ∈ (A.run s).proofTexts, t ∈ auditTexts P ∧
      ∃ i ∈ insertNone (limits.disjSum keys), Lucky P hmac K i s t) :
    M * ((oracles f T M).filter bad).card ≤ (n + N) * ((limits.card + keys.card + 1) * (M / P.q + 1)) * (oracles f T M).card := by
  have h := card_forged (α := RecordView) P.q M (insertNone (limits.disjSum keys)) (Lucky P hmac K)
    (fun i _ s s' t h h' => by
      rcases i with _ | L | k
      · exact luckyVote_unique hmac K s s' t h h'
      · exact luckyLimit_unique hmac K L s s' t h h'
      · exact luckyShare_unique hmac k s s' t h h')
    RecordView.proofTexts A n N hn hN f T
  rw [card_insertNone, card_disjSum] at h
  refine le_trans (Nat.mul_le_mul_left _ (card_le_card fun s hs => ?_)) h
  rw [mem_filter] at hs ⊢
  obtain ⟨t, h1, h2, h3⟩ := hbad s hs.2
  exact ⟨hs.1, t, h1, hT h2, h3⟩

/-! ### C111 -/

open Classical in
/-- C111: somebody who, when the guardians `gs` have published their keys, asks for at most `n` hashes and then shows a whole election record
with at most `N` proofs.  For at most `(n + N) · (l + k + 1) · (M/q + 1)` of `M` hash functions the record passes the audit although there are
no votes on its ballots of which it shows the result; `l` is the number of different limits, `k` that of the guardians.  Missing from the
full claim: as C77. -/
theorem C111_result_partial (hv : P.Valid) (hpq : (P.q - 1) * (P.q - 1) < P.p) (hmac : Bytes → Bytes → Bytes) (M : Nat)
    (gs : List GuardianRecord) (limits : Finset Nat) (A : Asking RecordView) (n N : Nat) (hn : A.AtMost n)
    (hN : ∀ v, A.CanShow v → v.proofTexts.length ≤ N) (f : Text → Nat) (T : Finset Text) (hT : auditTexts P ⊆ T) :
    M * ((oracles f T M).filter fun s => (A.run s).ResultAudited ⟨P, s, hmac⟩ ∧ (A.run s).guardians.Perm gs ∧
        (A.run s).LimitsIn limits ∧ (A.run s).Misleads ⟨P, s, hmac⟩).card
      ≤ (n + N) * ((limits.card + gs.length + 1) * (M / P.q + 1)) * (oracles f T M).card := by
  let keys : Finset Nat := (gs.map GuardianRecord.publicKey).toFinset
  have hcard : keys.card ≤ gs.length := (List.toFinset_card_le _).trans (by rw [List.length_map])
  refine le_trans (card_lucky_records hmac ((gs.map GuardianRecord.publicKey).prod % P.p) M limits keys A n N hn hN f T hT _ ?_)
    (by gcongr)
  rintro s ⟨ha, hperm, hlim, im, he, hreg, hwf, hno⟩
  have hl : (A.run s).Lucky ⟨P, s, hmac⟩ := by
    by_contra hl
    exact hno (C77_shows_votes_partial (E := ⟨P, s, hmac⟩) hv hpq _ ha im he hreg hwf hl)
  have hK : (A.run s).context.elgamalPublicKey = (gs.map GuardianRecord.publicKey).prod % P.p := by
    rw [ha.jointKey, (hperm.map GuardianRecord.publicKey).prod_eq]
  have hin : ∀ (pt : PlaintextTally) cs, pt.InOrder ⟨P, s, hmac⟩ (A.run s) cs → ∀ cid sid ps, pt.Shows cid sid ps → ∀ x ∈ ps.shares,
      ∃ g ∈ (A.run s).guardians, g.guardianId = x.guardianId ∧ x.proof ≠ none ∧ x.ShareInOrder ⟨P, s, hmac⟩ (A.run s) g ps.message := by
    rintro pt cs hp cid sid ps ⟨pc, h1, h2⟩ x hx
    obtain ⟨k, pf, hk, h3, h4⟩ := (C57_success_iff pt (A.run s).keys (A.run s).context).1 hp.proofs ps.message x
      ⟨(cid, pc), mem_of_dget h1, (sid, ps), mem_of_dget h2, rfl, hx⟩
    obtain ⟨g, hg, hge⟩ := List.mem_map.1 (mem_of_dget hk)
    simp only [Prod.mk.injEq] at hge
    refine ⟨g, hg, hge.1, by rw [h3]; simp, .inl ⟨pf, h3, ?_⟩⟩
    rw [← hge.2] at h4
    exact h4
  have hall : ∀ pt, (pt = (A.run s).tally ∨ pt ∈ (A.run s).spoiled) → ∀ cid sid ps, pt.Shows cid sid ps → ∀ x ∈ ps.shares,
      ∃ g ∈ (A.run s).guardians, g.guardianId = x.guardianId ∧ x.proof ≠ none ∧ x.ShareInOrder ⟨P, s, hmac⟩ (A.run s) g ps.message := by
    rintro pt (rfl | hpt)
    · exact hin _ _ ha.tally
    · obtain ⟨b, hb, hst, hbid⟩ := ha.spoiledOnly pt hpt
      obtain ⟨pt', hpt', hid', ho⟩ := ha.spoiled b hb hst
      have : pt' = pt := List.inj_on_of_nodup_map ha.spoiledIds hpt' hpt (hid'.trans hbid)
      subst this
      exact hin _ _ ho
  refine lucky_text hv (contextBase_lt hv ha.context) hK ha.guardianIds ha.ballots (fun pt hpt cid sid ps hs x hx => ?_) limits keys hlim
    (fun g hg => List.mem_toFinset.2 (List.mem_map_of_mem (hperm.subset hg))) (.inl hl) ?_
  · obtain ⟨g, h1, h2, -, h3⟩ := hall pt hpt cid sid ps hs x hx
    exact ⟨g, h1, h2, h3⟩
  · rintro ⟨pt, hpt, cid, sid, ps, hshow, x, hx, hnone, -⟩
    obtain ⟨g, -, -, h3, -⟩ := hall pt hpt cid sid ps hshow x hx
    exact absurd hnone h3

open Classical in
/-- C111: the same for records of decryptions at which guardians may have been missing.  For each two guardians there is one more key, that of
the parts which one makes of the other's shares.  Missing from the full claim: as C88. -/
theorem C111_quorum_partial (hv : P.Valid) (hpq : (P.q - 1) * (P.q - 1) < P.p) (hmac : Bytes → Bytes → Bytes) (M : Nat)
    (gs : List GuardianRecord) (limits : Finset Nat) (A : Asking RecordView) (n N : Nat) (hn : A.AtMost n)
    (hN : ∀ v, A.CanShow v → v.proofTexts.length ≤ N) (f : Text → Nat) (T : Finset Text) (hT : auditTexts P ⊆ T) :
    M * ((oracles f T M).filter fun s => (A.run s).QuorumAudited ⟨P, s, hmac⟩ ∧ (A.run s).guardians.Perm gs ∧
        (A.run s).LimitsIn limits ∧ (A.run s).Misleads ⟨P, s, hmac⟩).card
      ≤ (n + N) * ((limits.card + (gs.length + gs.length * gs.length) + 1) * (M / P.q + 1)) * (oracles f T M).card := by
  let keys : Finset Nat := (gs.map GuardianRecord.publicKey ++ (gs ×ˢ gs).map fun x => x.1.partKey x.2 P).toFinset
  have hcard : keys.card ≤ gs.length + gs.length * gs.length :=
    (List.toFinset_card_le _).trans (by rw [List.length_append, List.length_map, List.length_map, List.length_product])
  refine le_trans (card_lucky_records hmac ((gs.map GuardianRecord.publicKey).prod % P.p) M limits keys A n N hn hN f T hT _ ?_)
    (by gcongr)
  rintro s ⟨ha, hperm, hlim, im, he, hreg, hwf, hno⟩
  have hl : (A.run s).Lucky ⟨P, s, hmac⟩ ∨ (A.run s).LuckyPart ⟨P, s, hmac⟩ := by
    by_contra hl
    rw [not_or] at hl
    exact hno (C88_shows_votes_partial (E := ⟨P, s, hmac⟩) hv hpq _ ha im he hreg hwf hl.1 hl.2)
  have hK : (A.run s).context.elgamalPublicKey = (gs.map GuardianRecord.publicKey).prod % P.p := by
    rw [ha.jointKey, (hperm.map GuardianRecord.publicKey).prod_eq]
  refine lucky_text hv (contextBase_lt hv ha.context) hK ha.guardianIds ha.ballots (fun pt hpt => ?_) limits keys hlim
    (fun g hg => List.mem_toFinset.2 (List.mem_append_left _ (List.mem_map_of_mem (hperm.subset hg)))) hl
    (fun _ a h1 m h2 => List.mem_toFinset.2 (List.mem_append_right _ (List.mem_map.2
      ⟨(a, m), List.mem_product.2 ⟨hperm.subset h1, hperm.subset h2⟩, rfl⟩)))
  rcases hpt with rfl | hpt
  · exact ha.tally.shares
  · obtain ⟨b, hb, hst, hbid⟩ := ha.spoiledOnly pt hpt
    obtain ⟨pt', hpt', hid', ho⟩ := ha.spoiled b hb hst
    have : pt' = pt := List.inj_on_of_nodup_map ha.spoiledIds hpt' hpt (hid'.trans hbid)
    subst this
    exact ho.shares

open Classical in
/-- C111 at the standard constants and hashes of 256 bits: at most `(n + N) (l + k + k² + 1)` in 2^255 hash functions. -/
theorem C111_standard (hp : standardConstants.p.Prime) (hmac : Bytes → Bytes → Bytes)
    (gs : List GuardianRecord) (limits : Finset Nat) (A : Asking RecordView) (n N : Nat) (hn : A.AtMost n)
    (hN : ∀ v, A.CanShow v → v.proofTexts.length ≤ N) (f : Text → Nat) (T : Finset Text)
    (hT : auditTexts standardConstants.params ⊆ T) :
    2 ^ 255 * ((oracles f T (2 ^ 256)).filter fun s => (A.run s).QuorumAudited ⟨standardConstants.params, s, hmac⟩ ∧
        (A.run s).guardians.Perm gs ∧ (A.run s).LimitsIn limits ∧ (A.run s).Misleads ⟨standardConstants.params, s, hmac⟩).card
      ≤ (n + N) * (limits.card + (gs.length + gs.length * gs.length) + 1) * (oracles f T (2 ^ 256)).card := by
  have h := C111_quorum_partial (C61_standard_valid hp) C92_standard_sizes.1 hmac (2 ^ 256) gs limits A n N hn hN f T hT
  rw [standard_hashes] at h
  have e : (2 : Nat) ^ 256 = 2 * 2 ^ 255 := by norm_num
  generalize hc : ((oracles f T (2 ^ 256)).filter fun s => (A.run s).QuorumAudited ⟨standardConstants.params, s, hmac⟩ ∧
        (A.run s).guardians.Perm gs ∧ (A.run s).LimitsIn limits ∧ (A.run s).Misleads ⟨standardConstants.params, s, hmac⟩).card = X at h ⊢
  generalize (oracles f T (2 ^ 256)).card = O at h ⊢
  rw [e] at h
  generalize limits.card + (gs.length + gs.length * gs.length) + 1 = l at h ⊢
  have h1 : 2 * (2 ^ 255 * X) ≤ 2 * ((n + N) * l * O) := by
    calc 2 * (2 ^ 255 * X) = 2 * 2 ^ 255 * X := by ring
      _ ≤ _ := h
      _ = _ := by ring
  exact Nat.le_of_mul_le_mul_left h1 (by decide)

/-! ### A forger of a record

One guardian, no ballots, and yet a vote for everybody: the shares of the guardian are wrong, and the forger hopes for the hash 9. -/

/-- The group of order 13, with a hash function whose values are all 9. -/
def nineEnv : Env := ⟨extraSmall, fun _ => 9, toyEnv.hmac⟩

def nineIM : InternalManifest :=
  match mkInternalManifest nineEnv toyManifest with
  | .ok m => m
  | .error _ => ⟨[], [], [], 0⟩

theorem nineReady : ElectionReady nineEnv toyManifest nineIM where
  manifest := toyReady.manifest
  internal := by
    have h : (mkInternalManifest nineEnv toyManifest).toBool = true := by decide +kernel
    unfold nineIM
    cases hm : mkInternalManifest nineEnv toyManifest with
    | ok im => rfl
    | error e => rw [hm] at h; cases h
  distinct := by unfold InternalManifest.DistinctSelections; decide +kernel
  seats := by decide +kernel

def forgedGuardian : GuardianRecord := ⟨"g", 1, 16 ^ 3 % 157, [16 ^ 3 % 157], [⟨16 ^ 3 % 157, 16, 9, 2⟩]⟩

def luckySelection (sid : String) : PTSelection :=
  ⟨sid, 1, 16, ⟨1, 1⟩, [⟨sid, "g", 16 ^ 12 % 157, some ⟨1, 16 ^ 9 % 157, 9, 1⟩, none⟩]⟩

def forgedTally : PlaintextTally :=
  ⟨"t", [("c", ⟨"c", [("sx", luckySelection "sx"), ("sy", luckySelection "sy")]⟩), ("d", ⟨"d", [("sz", luckySelection "sz")]⟩)]⟩

/-- The record of the forger. -/
def forgedRecord : RecordView where
  manifest := toyManifest
  context := makeContext nineEnv 1 1 (16 ^ 3 % 157) 9 (toyManifest.cryptoHash nineEnv)
  constants := ⟨157, 13, 12, 16⟩
  guardians := [forgedGuardian]
  ballots := []
  spoiled := []
  encryptedTally := ⟨"t", (newTally nineEnv "verify" nineIM).contests⟩
  tally := forgedTally
  coefficients := [("g", 1)]
  devices := []

theorem forged_shows {cid sid : String} {ps : PTSelection} (h : forgedTally.Shows cid sid ps) :
    (cid, sid, ps) ∈ [("c", "sx", luckySelection "sx"), ("c", "sy", luckySelection "sy"), ("d", "sz", luckySelection "sz")] := by
  obtain ⟨pc, h1, h2⟩ := h
  have h1 := mem_of_dget h1
  have h2 := mem_of_dget h2
  simp only [forgedTally, List.mem_cons, Prod.mk.injEq, List.not_mem_nil, or_false] at h1
  rcases h1 with ⟨rfl, rfl⟩ | ⟨rfl, rfl⟩ <;>
    simp only [List.mem_cons, Prod.mk.injEq, List.not_mem_nil, or_false] at h2
  · rcases h2 with ⟨rfl, rfl⟩ | ⟨rfl, rfl⟩ <;> simp
  · obtain ⟨rfl, rfl⟩ := h2; simp

theorem forged_audited : forgedRecord.ResultAudited nineEnv where
  constants := rfl
  manifest := by decide +kernel
  context := rfl
  guardianIds := by decide
  keys := by decide +kernel
  jointKey := by decide +kernel
  ballotIds := by decide
  ballots := fun b hb => by cases hb
  aggregation := by decide +kernel
  tally := {
    proofs := by decide +kernel
    shown := by
      intro c hc s hs _
      have h : ∀ c ∈ forgedRecord.encryptedTally.contests.map (fun e => e.2.toCt), ∀ s ∈ c.selections,
        s.ciphertext = ⟨1, 1⟩ ∧ ((dget forgedTally.contests c.objectId).bind fun pc => dget pc.selections s.objectId)
          = some (luckySelection s.objectId) := by decide +kernel
      obtain ⟨h1, h2⟩ := h c hc s hs
      cases hd : dget forgedTally.contests c.objectId with
      | none => rw [hd] at h2; cases h2
      | some pc =>
        rw [hd] at h2
        refine ⟨_, ⟨pc, hd, h2⟩, ?_⟩
        rw [h1]
        exact ⟨rfl, List.Perm.refl _, rfl, by simp [luckySelection, nineEnv, extraSmall]⟩
    only := by
      intro cid sid ps h
      have h1 : ∀ e ∈ [("c", "sx", luckySelection "sx"), ("c", "sy", luckySelection "sy"), ("d", "sz", luckySelection "sz")],
        ∃ c ∈ forgedRecord.encryptedTally.contests.map (fun e => e.2.toCt), ∃ s ∈ c.selections, c.objectId = e.1 ∧ s.objectId = e.2.1 := by
        decide +kernel
      obtain ⟨c, hc, s, hs, h2, h3⟩ := h1 _ (forged_shows h)
      refine ⟨c, hc, s, hs, h2, h3, ?_⟩
      have := forged_shows h
      simp only [List.mem_cons, Prod.mk.injEq, List.not_mem_nil, or_false] at this
      rcases this with ⟨rfl, rfl, -⟩ | ⟨rfl, rfl, -⟩ | ⟨rfl, rfl, -⟩ <;> exact ⟨_, rfl, by decide⟩ }
  spoiled := fun b hb => by cases hb
  spoiledOnly := fun b hb => by cases hb
  spoiledIds := by decide

theorem forged_misleads : forgedRecord.Misleads nineEnv := by
  refine ⟨nineIM, nineReady, fun b hb => (by cases hb), ⟨by decide +kernel, by decide +kernel⟩, ?_⟩
  rintro ⟨plain, h⟩
  have hd : ∃ d ∈ nineIM.contests, ∃ sd ∈ d.ballotSelections, d.objectId = "c" ∧ sd.objectId = "sx" := by decide +kernel
  obtain ⟨d, hd, sd, hsd, h1, h2⟩ := hd
  obtain ⟨ps, hs, ht⟩ := h.tally d hd sd hsd
  have hs := forged_shows hs
  have : ps.tally = 1 := by
    simp only [List.mem_cons, Prod.mk.injEq, List.not_mem_nil, or_false] at hs
    rcases hs with ⟨-, -, rfl⟩ | ⟨-, -, rfl⟩ | ⟨-, -, rfl⟩ <;> rfl
  rw [this] at ht
  exact absurd ht (by simp [forgedRecord, Nat.ModEq, nineEnv, extraSmall])

/-- The forger who shows it without asking for a hash. -/
def recordForger : Asking RecordView := .shows forgedRecord

/-- `C111_result_partial` for this forger, who shows three proofs: out of 13 hash functions it succeeds for twelve at most ... -/
example (f : Text → Nat) :=
  C111_result_partial (P := extraSmall) extraSmall_valid (by decide) toyEnv.hmac 13 [forgedGuardian] ∅ recordForger 0 3 trivial
    (by rintro v rfl; decide +kernel) f (auditTexts extraSmall) (Finset.Subset.refl _)

/-- ... and it does succeed for some. -/
example (T : Finset Text) : ∃ s ∈ oracles (fun _ => 9) T 13, (recordForger.run s).ResultAudited ⟨extraSmall, s, toyEnv.hmac⟩ ∧
    (recordForger.run s).guardians.Perm [forgedGuardian] ∧ (recordForger.run s).LimitsIn ∅ ∧
    (recordForger.run s).Misleads ⟨extraSmall, s, toyEnv.hmac⟩ :=
  ⟨fun _ => 9, self_mem_oracles fun _ => by norm_num, forged_audited, List.Perm.refl _, fun b hb => (by cases hb), forged_misleads⟩

end EG
