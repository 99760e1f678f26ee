import Verif.Spec.AuditQuorum
import Verif.Lemmas.ExportAudit

/-!
# What follows from the audit of a record of a decryption by a quorum
-/

namespace EG

variable {E : Env}

/-- Commitments with valid proofs are powers of the generator. -/
theorem commitments_log (hv : E.P.Valid) {cs : List Nat} {pfs : List SchnorrProof}
    (h : List.Forall₂ (fun k (pf : SchnorrProof) => pf.k = k ∧ pf.isValid E = true) cs pfs) :
    ∃ as : List Nat, cs = as.map (fun a => E.P.g ^ a % E.P.p) := by
  induction h with
  | nil => exact ⟨[], rfl⟩
  | @cons k pf cs pfs h _ ih =>
    obtain ⟨as, rfl⟩ := ih
    have hres := C09_key_in_subgroup E _ h.2
    rw [h.1] at hres
    obtain ⟨e, he⟩ := residue_log hv hres
    refine ⟨e :: as, ?_⟩
    rw [List.map_cons]
    congr 1
    rw [← castP_inj ((isValidResidue_iff hv _).1 hres).1 (Nat.mod_lt _ hv.p_pos), he]
    simp

/-- The key of a part is the value of the polynomial, in the exponent. -/
theorem partKey_right (hv : E.P.Valid) {a m : GuardianRecord} {as : List Nat}
    (hc : m.commitments = as.map (fun a => E.P.g ^ a % E.P.p)) :
    a.partKey m E.P = E.P.g ^ polyAt as a.sequenceOrder.toNat % E.P.p := by
  unfold GuardianRecord.partKey
  rw [hc]
  generalize a.sequenceOrder.toNat = x
  rw [← castP_inj (Nat.mod_lt _ hv.p_pos) (Nat.mod_lt _ hv.p_pos), ZMod.natCast_mod, ZMod.natCast_mod]
  have key : ∀ (as : List Nat) (n : Nat), (((((as.map (fun a => E.P.g ^ a % E.P.p)).zipIdx n).map (fun e => e.1 ^ (x ^ e.2))).prod :
      Nat) : ZMod E.P.p) = (E.P.g : ZMod E.P.p) ^ (x ^ n * polyAt as x) := by
    intro as
    induction as with
    | nil => intro n; simp [polyAt]
    | cons b as ih =>
      intro n
      rw [List.map_cons, List.zipIdx_cons, List.map_cons, List.prod_cons, Nat.cast_mul, ih (n + 1)]
      simp only [polyAt, Nat.cast_pow, ZMod.natCast_mod]
      rw [← pow_mul, ← pow_add]
      congr 1
      ring
  have := key as 0
  rw [this]
  simp

/-- The available guardians are guardians. -/
theorem available_mem {v : RecordView} {g : GuardianRecord} (h : g ∈ v.available) : g ∈ v.guardians := (List.mem_filter.1 h).1

theorem available_nodup {v : RecordView} (h : (v.guardians.map GuardianRecord.guardianId).Nodup) :
    (v.available.map GuardianRecord.guardianId).Nodup :=
  h.sublist (List.filter_sublist.map _)

/-- A recovered share is right, or some part is lucky. -/
theorem recovered_right (hv : E.P.Valid) {v : RecordView} (h : v.QuorumAudited E) {m : GuardianRecord} {as : List Nat}
    (hc : m.commitments = as.map (fun a => E.P.g ^ a % E.P.p)) (hlen : as.length ≤ v.available.length) {c : Ciphertext}
    (hpad : isValidResidue E.P c.pad = true) {x : DecSelection} {parts : List (String × CompSelection)}
    (hr : x.Recovered E v m c parts) :
    x.share = c.pad ^ polyAt as 0 % E.P.p ∨ ∃ e ∈ parts, e.2.Lucky E c v.context.cryptoExtendedBaseHash := by
  have hp : Fact E.P.p.Prime := ⟨hv.p_prime⟩
  have hq : Fact E.P.q.Prime := ⟨hv.q_prime⟩
  have hex : ∀ e ∈ parts, ∃ a ∈ v.available, a.guardianId = e.1 := by
    intro e he
    obtain ⟨a, ha, h1⟩ := List.mem_map.1 (hr.guardians.subset (List.mem_map_of_mem he))
    exact ⟨a, ha, h1⟩
  have hkey : ∀ e ∈ parts, ∀ a ∈ v.available, a.guardianId = e.1 →
      e.2.recoveryKey = E.P.g ^ (polyAt as a.sequenceOrder.toNat % E.P.q) % E.P.p := by
    intro e he a ha hid
    rw [hr.keys e he a ha hid, partKey_right hv hc, ← castP_inj (Nat.mod_lt _ hv.p_pos) (Nat.mod_lt _ hv.p_pos), ZMod.natCast_mod,
      ZMod.natCast_mod, Nat.cast_pow, Nat.cast_pow]
    exact (pow_congr_mod (g_cast_pow hv) (by simp)).symm
  by_cases hall : ∀ e ∈ parts, ∀ a ∈ v.available, a.guardianId = e.1 →
      e.2.share = c.pad ^ (polyAt as a.sequenceOrder.toNat % E.P.q) % E.P.p
  · left
    let keys := v.available.map GuardianRecord.toKey
    have hids : (keys.map (fun k => k.ownerId)).Nodup := by
      simp only [keys, List.map_map]
      exact available_nodup h.guardianIds
    have hpos : ∀ k ∈ keys, 0 ≤ k.sequenceOrder := by
      intro k hk
      obtain ⟨a, ha, rfl⟩ := List.mem_map.1 hk
      exact (h.range a ha).1
    have hinj : ∀ a ∈ v.available, ∀ b ∈ v.available, ((a.sequenceOrder : Int) : ZMod E.P.q) = ((b.sequenceOrder : Int) : ZMod E.P.q) →
        a = b := by
      intro a ha b hb hab
      have h1 := (ZMod.intCast_eq_intCast_iff _ _ _).1 hab
      obtain ⟨a1, a2⟩ := h.range a ha
      obtain ⟨b1, b2⟩ := h.range b hb
      unfold Int.ModEq at h1
      rw [Int.emod_eq_of_lt a1 a2, Int.emod_eq_of_lt b1 b2] at h1
      exact List.inj_on_of_nodup_map h.orders ha hb h1
    have hord : (keys.map (fun k => (k.sequenceOrder : ZMod E.P.q))).Nodup := by
      simp only [keys, List.map_map]
      exact List.Nodup.map_on hinj (List.Nodup.of_map _ h.orders)
    obtain ⟨L, hL, hsum⟩ := lagrange_right (E := E) hv as keys hids hpos hord (by simpa [keys] using hlen)
    -- the coefficients of the record are those
    have hcoef : ∀ a ∈ v.available, dget v.coefficients a.guardianId = some (L a.toKey) := by
      intro a ha
      obtain ⟨w, hw1, hw2, hw3⟩ := h.coefficients a ha
      obtain ⟨l, hl1, hl2, hl3⟩ := coefficient_of_lagrange hv hids hL a.toKey (List.mem_map_of_mem ha)
      have hdl : dget (keys.map (fun k => (k.ownerId, L k))) a.toKey.ownerId = some (L a.toKey) := by
        refine dget_of_mem ?_ (List.mem_map.2 ⟨a.toKey, List.mem_map_of_mem ha, rfl⟩)
        simpa [dkeys, List.map_map, Function.comp_def] using hids
      rw [hdl] at hl1
      cases hl1
      have hoth : (keys.filter (fun g => decide (g.ownerId ≠ a.toKey.ownerId))).map (fun g => g.sequenceOrder)
          = (v.available.filter (fun h => decide (h.guardianId ≠ a.guardianId))).map GuardianRecord.sequenceOrder := by
        simp only [keys, List.filter_map, List.map_map]
        rfl
      rw [hoth] at hl3
      rw [hw1]
      congr 1
      set others := (v.available.filter (fun h => decide (h.guardianId ≠ a.guardianId))).map GuardianRecord.sequenceOrder with hothers
      have hD : (((others.map (fun j => j - a.sequenceOrder)).prod : Int) : ZMod E.P.q) ≠ 0 := by
        rw [Int.cast_list_prod]
        refine List.prod_ne_zero (fun h0 => ?_)
        obtain ⟨d, hd, hd0⟩ := List.mem_map.1 h0
        obtain ⟨j, hj, rfl⟩ := List.mem_map.1 hd
        obtain ⟨b, hb, rfl⟩ := List.mem_map.1 hj
        obtain ⟨hb1, hb2⟩ := List.mem_filter.1 hb
        rw [Int.cast_sub, sub_eq_zero] at hd0
        have := hinj b hb1 a ha hd0
        rw [this] at hb2
        simp at hb2
      have e1 := (ZMod.intCast_eq_intCast_iff _ _ _).2 hw3
      have e2 := (ZMod.intCast_eq_intCast_iff _ _ _).2 hl3
      rw [← e2, Int.cast_mul, Int.cast_mul] at e1
      have e3 := mul_right_cancel₀ hD e1
      rw [Int.cast_natCast, Int.cast_natCast] at e3
      exact (castP_inj hw2 hl2).1 e3
    obtain ⟨pows, hpows, hprod⟩ := combine_right (E := E) hv as keys L hsum hids c.pad hpad parts (by
      simp only [keys, List.map_map]
      exact hr.guardians) (by
      intro e he k hk hid
      obtain ⟨a, ha, rfl⟩ := List.mem_map.1 hk
      exact hall e he a ha hid)
    have hpows' : sharePowers E.P (keys.map (fun k => (k.ownerId, L k))) parts
        = .ok (parts.map (fun e => powP E.P e.2.share ((dget v.coefficients e.1).getD 0))) := by
      refine mapM_ok _ _ parts (fun e he => ?_)
      obtain ⟨a, ha, hid⟩ := hex e he
      have hdl : dget (keys.map (fun k => (k.ownerId, L k))) e.1 = some (L a.toKey) := by
        refine dget_of_mem ?_ (List.mem_map.2 ⟨a.toKey, List.mem_map_of_mem ha, Prod.ext hid rfl⟩)
        simpa [dkeys, List.map_map, Function.comp_def] using hids
      rw [dgetR_some hdl, ← hid, hcoef a ha]
      rfl
    rw [hpows] at hpows'
    cases hpows'
    rw [← hprod, hr.product, ← castP_inj (Nat.mod_lt _ hv.p_pos) (multPs_lt hv.one_lt_p _), multPs_cast, ZMod.natCast_mod,
      Nat.cast_list_prod, List.map_map, List.map_map]
    congr 1
    refine List.map_congr_left (fun e _ => ?_)
    simp only [Function.comp, powP_cast, Nat.cast_pow]
  · right
    push Not at hall
    obtain ⟨e, he, a, ha, hid, hwrong⟩ := hall
    refine ⟨e, he, fun E' base pf' hE' hpa hpb hval => ?_⟩
    obtain ⟨star, hstar⟩ := C08_single_challenge E.P hv _ e.2.share c hwrong e.2.proof.a e.2.proof.b
    have h3 := hr.proofs e he
    rw [hkey e he a ha hid] at hval h3
    rw [hstar E' base pf' hE' hpa hpb hval, hstar E _ e.2.proof rfl rfl rfl h3]

/-- The polynomials behind the published commitments. -/
theorem quorum_polynomials (hv : E.P.Valid) {v : RecordView} (h : v.QuorumAudited E) :
    ∃ coef : String → List Nat, ∀ g ∈ v.guardians, g.commitments = (coef g.guardianId).map (fun a => E.P.g ^ a % E.P.p) := by
  have key : ∀ id : String, ∃ as : List Nat, ∀ g ∈ v.guardians, g.guardianId = id →
      g.commitments = as.map (fun a => E.P.g ^ a % E.P.p) := by
    intro id
    by_cases hex : ∃ g ∈ v.guardians, g.guardianId = id
    · obtain ⟨g, hg, rfl⟩ := hex
      obtain ⟨as, has⟩ := commitments_log hv (h.guardians g hg).2.2
      refine ⟨as, fun g' hg' hid => ?_⟩
      rw [List.inj_on_of_nodup_map h.guardianIds hg' hg hid]
      exact has
    · exact ⟨[], fun g hg hid => absurd ⟨g, hg, hid⟩ hex⟩
  choose coef hcoef using key
  exact ⟨coef, fun g hg => hcoef _ g hg rfl⟩

/-- The keys belong to the polynomials. -/
theorem quorum_secrets {v : RecordView} (h : v.QuorumAudited E) {coef : String → List Nat}
    (hc : ∀ g ∈ v.guardians, g.commitments = (coef g.guardianId).map (fun a => E.P.g ^ a % E.P.p)) :
    ∀ g ∈ v.guardians, g.publicKey = E.P.g ^ polyAt (coef g.guardianId) 0 % E.P.p := by
  intro g hg
  have h1 := (h.guardians g hg).1
  rw [hc g hg] at h1
  cases hco : coef g.guardianId with
  | nil => rw [hco] at h1; cases h1
  | cons a as =>
    rw [hco] at h1
    simp only [List.map_cons, List.head?_cons, Option.some.injEq] at h1
    rw [← h1]
    simp [polyAt]

/-- A selection that is shown in order has the encrypted number, or a lucky share or part. -/
theorem quorum_number (hv : E.P.Valid) {v : RecordView} (h : v.QuorumAudited E) {pt : PlaintextTally} {cs : List CtContest}
    (ho : pt.InQuorumOrder E v cs) {cid sid : String} {ps : PTSelection} (hshow : pt.Shows cid sid ps) {c : Ciphertext}
    (hf : ps.Follows E.P (v.guardians.map GuardianRecord.guardianId) c) {n : Nat}
    (hn : Encrypts E.P v.context.elgamalPublicKey n c) : ps.tally ≡ n [MOD E.P.q] ∨ ps.Lucky E v ∨ ps.LuckyPart E v := by
  obtain ⟨coef, hcoef⟩ := quorum_polynomials hv h
  have hk := quorum_secrets h hcoef
  have hpad : isValidResidue E.P c.pad = true := by
    obtain ⟨r, hpad, -⟩ := hn
    rw [hpad]
    refine (isValidResidue_iff hv _).2 ⟨Nat.mod_lt _ hv.p_pos, ?_⟩
    rw [ZMod.natCast_mod, Nat.cast_pow, ← pow_mul, mul_comm, pow_mul, g_cast_pow hv, one_pow]
  by_cases hs : ∀ x ∈ ps.shares, x.share = c.pad ^ polyAt (coef x.guardianId) 0 % E.P.p
  · exact .inl (follows_encrypted hv (secret := fun i => polyAt (coef i) 0) hk h.jointKey hf hs hn)
  · right
    push Not at hs
    obtain ⟨x, hx, hwrong⟩ := hs
    obtain ⟨g, hg, hgid, hsh⟩ := ho.shares cid sid ps hshow x hx
    rw [← hgid] at hwrong
    rcases hsh with ⟨pf, h2, h3⟩ | ⟨h1, parts, h2, h3⟩
    · refine .inl ⟨x, hx, g, hg, hgid, pf, h2, fun E' base pf' hE' ha hb hval => ?_⟩
      rw [hf.message] at h3 hval ⊢
      obtain ⟨star, hstar⟩ := C08_single_challenge E.P hv _ x.share c hwrong pf.a pf.b
      rw [hk g hg] at hval h3
      rw [hstar E' base pf' hE' ha hb hval, hstar E _ pf rfl rfl rfl h3]
    · right
      rw [hf.message] at h3
      rcases recovered_right hv h (hcoef g hg) (by
        have h1 := (h.guardians g hg).2.1
        rw [hcoef g hg, List.length_map] at h1
        have h2 := h.quorum
        omega) hpad h3 with h4 | ⟨e, he, hl⟩
      · exact absurd h4 hwrong
      · refine ⟨x, hx, h1, parts, h2, e, he, ?_⟩
        rw [hf.message]
        exact hl

theorem quorum_joint (hv : E.P.Valid) {v : RecordView} (h : v.QuorumAudited E) :
    isValidResidue E.P v.context.elgamalPublicKey = true := by
  obtain ⟨coef, hcoef⟩ := quorum_polynomials hv h
  have hk := quorum_secrets h hcoef
  rw [h.jointKey]
  refine (isValidResidue_iff hv _).2 ⟨Nat.mod_lt _ hv.p_pos, ?_⟩
  rw [ZMod.natCast_mod, Nat.cast_list_prod, List.map_map]
  generalize v.guardians = l at hk
  induction l with
  | nil => simp
  | cons a l ih =>
    rw [List.map_cons, List.prod_cons, mul_pow, ih (fun g hg => hk g (List.mem_cons_of_mem _ hg)), mul_one, Function.comp_apply,
      hk a List.mem_cons_self, ZMod.natCast_mod, Nat.cast_pow, ← pow_mul, mul_comm, pow_mul, g_cast_pow hv, one_pow]

theorem inQuorumOrder_opened (hv : E.P.Valid) {v : RecordView} (h : v.QuorumAudited E) {pt : PlaintextTally} {cs : List CtContest}
    (ho : pt.InQuorumOrder E v cs) : pt.Opened E v (fun ps => ps.Lucky E v ∨ ps.LuckyPart E v) cs where
  shown := by
    intro c hc s hs hd
    obtain ⟨ps, hshow, hf⟩ := ho.shown c hc s hs hd
    exact ⟨ps, hshow, fun n hn => quorum_number hv h ho hshow hf hn⟩
  only := by
    intro cid sid ps hshow
    obtain ⟨-, -, -, -, -, -, hd⟩ := ho.only cid sid ps hshow
    exact hd

theorem RecordView.QuorumAudited.core (hv : E.P.Valid) {v : RecordView} (h : v.QuorumAudited E) :
    v.Core E (fun ps => ps.Lucky E v ∨ ps.LuckyPart E v) where
  manifest := h.manifest
  joint := quorum_joint hv h
  ballotIds := h.ballotIds
  ballots := h.ballots
  aggregation := h.aggregation
  tally := inQuorumOrder_opened hv h h.tally
  spoiled := fun b hb hst => by
    obtain ⟨pt, h1, h2, h3⟩ := h.spoiled b hb hst
    exact ⟨pt, h1, h2, inQuorumOrder_opened hv h h3⟩

end EG
