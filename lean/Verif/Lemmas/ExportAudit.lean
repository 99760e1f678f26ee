import Verif.Lemmas.CliCommands
import Verif.Props.VerifyDecryption
import Verif.Spec.Audit

/-!
# What follows from the audit of a record
-/

namespace EG

variable {E : Env}

/-- The entries of a verified tally have the ids that they are stored under. -/
theorem verified_entry {bs : List SBallot} {t : Tally} {m : Manifest} {im : InternalManifest} {ctx : Context}
    (him : mkInternalManifest E m = .ok im) (hm : TallyManifest im) (ht : t.WF) (hb : ∀ b ∈ bs, b.toCBallot.Regular im)
    (h : verifyAggregation E true bs t m ctx = .ok true) {cid sid : String} {c : Ciphertext} (hc : t.total cid sid = some c) :
    ∃ y ∈ t.contests.map (fun e => e.2.toCt), y.objectId = cid ∧ ∃ s ∈ y.selections, s.objectId = sid ∧ s.ciphertext = c := by
  obtain ⟨-, hsame⟩ := (C56_success_iff true bs t m im ctx him ht).1 h
  obtain ⟨i1, -⟩ := run_spec E im hm ctx true bs (newTally E "verify" im) (newTally_wf E im) (newTally_shape E im) hb
  obtain ⟨y, hy, s, hs, rfl⟩ : ∃ y, dget t.contests cid = some y ∧ ∃ s, dget y.selections sid = some s ∧ s.ciphertext = c := by
    unfold Tally.total at hc
    cases hy : dget t.contests cid with
    | none => rw [hy] at hc; cases hc
    | some y =>
      rw [hy, Option.bind_some] at hc
      cases hs : dget y.selections sid with
      | none => rw [hs] at hc; cases hc
      | some s =>
        rw [hs, Option.map_some] at hc
        exact ⟨y, rfl, s, hs, Option.some.inj hc⟩
  rcases hsame.contests cid with ⟨-, h2⟩ | ⟨x, y', hx, hy', hxy⟩
  · rw [hy] at h2; cases h2
  rw [hy] at hy'
  cases hy'
  rw [i1, dget_bump] at hx
  cases hn : dget (newTally E "verify" im).contests cid with
  | none => rw [hn] at hx; cases hx
  | some tc =>
  rw [hn, Option.map_some] at hx
  cases hx
  rcases dget_foldl_dset _ _ _ _ _ _ hn with h' | ⟨d, -, hd1, hd2⟩
  · simp [dget_nil] at h'
  have hyid : y.objectId = cid := by rw [← hxy.id, ← hd1, ← hd2]
  have hsid : s.objectId = sid := by
    have hsel := hxy.selections sid
    rw [hs] at hsel
    simp only at hsel
    rw [dget_map_snd tc.selections (fun s => { s.2 with ciphertext := _ }) sid] at hsel
    cases hx : dget tc.selections sid with
    | none => rw [hx] at hsel; cases hsel
    | some u =>
      rw [hx, Option.map_some] at hsel
      rw [← Option.some.inj hsel]
      rw [← hd2] at hx
      rcases dget_foldl_dset (fun s : SelectionDescription => s.objectId) _ _ _ _ _ hx with h' | ⟨a, -, h1, h2⟩
      · simp [dget_nil] at h'
      · rw [← h1, ← h2]
  exact ⟨y.toCt, List.mem_map.2 ⟨(cid, y), mem_of_dget hy, rfl⟩, hyid, ⟨s.objectId, s.ciphertext⟩,
    List.mem_map.2 ⟨(sid, s), mem_of_dget hs, rfl⟩, hsid, rfl⟩

/-- What right shares decrypt a ciphertext to is what it encrypts. -/
theorem follows_encrypted (hv : E.P.Valid) {gs : List GuardianRecord} {secret : String → Nat}
    (hk : ∀ g ∈ gs, g.publicKey = E.P.g ^ secret g.guardianId % E.P.p) {K : Nat}
    (hK : K = (gs.map GuardianRecord.publicKey).prod % E.P.p) {ps : PTSelection} {c : Ciphertext}
    (hf : ps.Follows E.P (gs.map GuardianRecord.guardianId) c)
    (hs : ∀ x ∈ ps.shares, x.share = c.pad ^ secret x.guardianId % E.P.p) {n : Nat} (hn : Encrypts E.P K n c) :
    ps.tally ≡ n [MOD E.P.q] := by
  obtain ⟨r, hpad, hdata⟩ := hn
  have : Fact E.P.p.Prime := ⟨hv.p_prime⟩
  have hg0 : (E.P.g : ZMod E.P.p) ≠ 0 := by
    intro h0
    have := g_cast_pow hv
    rw [h0, zero_pow hv.q_pos.ne'] at this
    exact zero_ne_one this
  have hpad' : (c.pad : ZMod E.P.p) = (E.P.g : ZMod E.P.p) ^ r := by rw [hpad]; simp
  have hK' : (K : ZMod E.P.p) = (E.P.g : ZMod E.P.p) ^ (gs.map (fun g => secret g.guardianId)).sum := by
    rw [hK, ZMod.natCast_mod, Nat.cast_list_prod, List.map_map]
    clear hK hf
    induction gs with
    | nil => simp
    | cons a l ih =>
      rw [List.map_cons, List.prod_cons, ih (fun g hg => hk g (List.mem_cons_of_mem _ hg)), List.map_cons, List.sum_cons, pow_add]
      show (a.publicKey : ZMod E.P.p) * _ = _
      rw [hk a List.mem_cons_self]
      simp
  have hshares : (((ps.shares.map (fun x => x.share)).prod : Nat) : ZMod E.P.p)
      = ((E.P.g : ZMod E.P.p) ^ r) ^ (gs.map (fun g => secret g.guardianId)).sum := by
    have hsum : (ps.shares.map (fun x => secret x.guardianId)).sum = (gs.map (fun g => secret g.guardianId)).sum := by
      have := (hf.guardians.map secret).sum_eq
      rw [List.map_map, List.map_map] at this
      exact this
    rw [← hsum]
    clear hsum hf
    generalize ps.shares = l at hs
    induction l with
    | nil => simp
    | cons a l ih =>
      rw [List.map_cons, List.prod_cons, Nat.cast_mul, ih (fun x hx => hs x (List.mem_cons_of_mem _ hx)), List.map_cons, List.sum_cons,
        pow_add, hs a List.mem_cons_self]
      simp [hpad']
  have h := congrArg (fun x : Nat => (x : ZMod E.P.p)) (hf.product.trans hdata)
  simp only [ZMod.natCast_mod, Nat.cast_mul, Nat.cast_pow] at h
  rw [hf.value, hshares, hK', ← pow_mul, ← pow_mul, mul_comm r] at h
  simp only [ZMod.natCast_mod, Nat.cast_pow] at h
  have := mul_right_cancel₀ (pow_ne_zero _ hg0) h
  exact (ZMod.natCast_eq_natCast_iff _ _ _).1 ((g_pow_inj hv).1 this)

/-- The result is part of the audit. -/
theorem RecordView.Audited.result {v : RecordView} (h : v.Audited E) : v.ResultAudited E where
  constants := h.constants
  manifest := h.manifest
  context := h.context
  guardianIds := h.guardianIds
  keys := by
    intro g hg
    obtain ⟨h1, -, h2⟩ := h.guardians g hg
    revert h1 h2
    generalize g.commitments = cs
    generalize g.proofs = pfs
    intro h1 h2
    cases h2 with
    | nil => cases h1
    | cons h2 _ =>
      simp only [List.head?_cons, Option.some.injEq] at h1
      have := C09_key_in_subgroup E _ h2.2
      rw [h2.1, h1] at this
      exact this
  jointKey := h.jointKey
  ballotIds := h.ballotIds
  ballots := h.ballots
  aggregation := h.aggregation
  tally := h.tally
  spoiled := h.spoiled
  spoiledOnly := h.spoiledOnly
  spoiledIds := h.spoiledIds

/-- The secrets behind the published keys. -/
theorem audited_secrets (hv : E.P.Valid) {v : RecordView} (h : v.ResultAudited E) :
    ∃ secret : String → Nat, ∀ g ∈ v.guardians, g.publicKey = E.P.g ^ secret g.guardianId % E.P.p := by
  have key : ∀ id : String, ∃ s : Nat, ∀ g ∈ v.guardians, g.guardianId = id → g.publicKey = E.P.g ^ s % E.P.p := by
    intro id
    by_cases hex : ∃ g ∈ v.guardians, g.guardianId = id
    · obtain ⟨g, hg, rfl⟩ := hex
      have hres := h.keys g hg
      obtain ⟨e, he⟩ := residue_log hv hres
      refine ⟨e, fun g' hg' hid => ?_⟩
      rw [List.inj_on_of_nodup_map h.guardianIds hg' hg hid]
      have hlt := ((isValidResidue_iff hv _).1 hres).1
      rw [← castP_inj hlt (Nat.mod_lt _ hv.p_pos), he]
      simp
    · exact ⟨0, fun g hg hid => absurd ⟨g, hg, hid⟩ hex⟩
  choose secret hsecret using key
  exact ⟨secret, fun g hg => hsecret _ g hg rfl⟩

/-- The joint key is in the group. -/
theorem audited_joint (hv : E.P.Valid) {v : RecordView} (h : v.ResultAudited E) :
    isValidResidue E.P v.context.elgamalPublicKey = true := by
  rw [h.jointKey]
  refine (isValidResidue_iff hv _).2 ⟨Nat.mod_lt _ hv.p_pos, ?_⟩
  rw [ZMod.natCast_mod, Nat.cast_list_prod, List.map_map]
  have hk := h.keys
  generalize v.guardians = l at hk
  induction l with
  | nil => simp
  | cons a l ih =>
    rw [List.map_cons, List.prod_cons, mul_pow, ih (fun g hg => hk g (List.mem_cons_of_mem _ hg)), mul_one]
    exact ((isValidResidue_iff hv _).1 (hk a List.mem_cons_self)).2

/-- A selection that is shown in order has the encrypted number, or a lucky share. -/
theorem inOrder_number (hv : E.P.Valid) {v : RecordView} (h : v.ResultAudited E) {pt : PlaintextTally} {cs : List CtContest}
    (ho : pt.InOrder E v cs) {cid sid : String} {ps : PTSelection} (hshow : pt.Shows cid sid ps) {c : Ciphertext}
    (hf : ps.Follows E.P (v.guardians.map GuardianRecord.guardianId) c) {n : Nat}
    (hn : Encrypts E.P v.context.elgamalPublicKey n c) : ps.tally ≡ n [MOD E.P.q] ∨ ps.Lucky E v := by
  obtain ⟨secret, hk⟩ := audited_secrets hv h
  by_cases hs : ∀ x ∈ ps.shares, x.share = c.pad ^ secret x.guardianId % E.P.p
  · exact .inl (follows_encrypted hv hk h.jointKey hf hs hn)
  · right
    push Not at hs
    obtain ⟨x, hx, hwrong⟩ := hs
    obtain ⟨pc, hpc, hsel⟩ := hshow
    obtain ⟨k, pf, h1, h2, h3⟩ := (C57_success_iff pt v.keys v.context).1 ho.proofs ps.message x
      ⟨_, mem_of_dget hpc, _, mem_of_dget hsel, rfl, hx⟩
    obtain ⟨g, hg, hgk⟩ := List.mem_map.1 (mem_of_dget h1)
    simp only [Prod.mk.injEq] at hgk
    refine ⟨x, hx, g, hg, hgk.1, pf, h2, fun E' base pf' hE' ha hb hval => ?_⟩
    rw [← hgk.2] at h3
    have hkey : g.publicKey = E.P.g ^ secret x.guardianId % E.P.p := by rw [← hgk.1]; exact hk g hg
    rw [hf.message] at h3 hval ⊢
    obtain ⟨star, hstar⟩ := C08_single_challenge E.P hv (secret x.guardianId) x.share c hwrong pf.a pf.b
    rw [hkey] at hval
    have h3' : pf.isValid E c (E.P.g ^ secret x.guardianId % E.P.p) x.share v.context.cryptoExtendedBaseHash = true := by
      rw [← hkey]; exact h3
    rw [hstar E' base pf' hE' ha hb hval, hstar E _ pf rfl rfl rfl h3']

/-! ### What the result rests on -/

/-- The decryption of some contests shows every described selection, with the number that it encrypts or with `luck`, and nothing
else. -/
structure PlaintextTally.Opened (pt : PlaintextTally) (E : Env) (v : RecordView) (luck : PTSelection → Prop) (cs : List CtContest) :
    Prop where
  shown : ∀ c ∈ cs, ∀ s ∈ c.selections, Describes v.manifest c.objectId s.objectId →
    ∃ ps, pt.Shows c.objectId s.objectId ps ∧
      ∀ n, Encrypts E.P v.context.elgamalPublicKey n s.ciphertext → ps.tally ≡ n [MOD E.P.q] ∨ luck ps
  only : ∀ cid sid ps, pt.Shows cid sid ps → Describes v.manifest cid sid

/-- The checks that the result rests on, whatever makes the decryptions right. -/
structure RecordView.Core (v : RecordView) (E : Env) (luck : PTSelection → Prop) : Prop where
  manifest : v.manifest.isValid = true
  joint : isValidResidue E.P v.context.elgamalPublicKey = true
  ballotIds : (v.ballots.map (fun b => b.objectId)).Nodup
  ballots : ∀ b ∈ v.ballots, verifyBallot E b.toCBallot v.manifest v.context = .ok true
  aggregation : verifyAggregation E true v.ballots v.tallyToCheck v.manifest v.context = .ok true
  tally : v.tally.Opened E v luck (v.encryptedTally.contests.map (fun e => e.2.toCt))
  spoiled : ∀ b ∈ v.ballots, b.state = .spoiled → ∃ pt ∈ v.spoiled, pt.objectId = b.objectId ∧ pt.Opened E v luck b.toCts

theorem inOrder_opened (hv : E.P.Valid) {v : RecordView} (h : v.ResultAudited E) {pt : PlaintextTally} {cs : List CtContest}
    (ho : pt.InOrder E v cs) : pt.Opened E v (fun ps => ps.Lucky E v) cs where
  shown := by
    intro c hc s hs hd
    obtain ⟨ps, hshow, hf⟩ := ho.shown c hc s hs hd
    exact ⟨ps, hshow, fun n hn => inOrder_number hv h ho hshow hf hn⟩
  only := by
    intro cid sid ps hshow
    obtain ⟨-, -, -, -, -, -, hd⟩ := ho.only cid sid ps hshow
    exact hd

theorem RecordView.ResultAudited.core (hv : E.P.Valid) {v : RecordView} (h : v.ResultAudited E) :
    v.Core E (fun ps => ps.Lucky E v) where
  manifest := h.manifest
  joint := audited_joint hv h
  ballotIds := h.ballotIds
  ballots := h.ballots
  aggregation := h.aggregation
  tally := inOrder_opened hv h h.tally
  spoiled := fun b hb hst => by
    obtain ⟨pt, h1, h2, h3⟩ := h.spoiled b hb hst
    exact ⟨pt, h1, h2, inOrder_opened hv h h3⟩

end EG
