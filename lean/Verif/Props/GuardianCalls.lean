import Verif.Props.Guardian
import Verif.Props.PolynomialExact

/-!
# C107: backups, challenges and their verification, as calls of a guardian
-/

namespace EG

variable {E : Env}

/-- C107: the key pair of a guardian has the first coefficient as its secret and the power of `g` as its public key, and commits to every
coefficient; without coefficients the call raises. -/
theorem C107_key_pair (id : String) (order : Int) (rands : List (Nat × Nat)) :
    (rands = [] → generateElectionKeyPair E id order rands = .error .index) ∧
    ∀ a r rest, rands = (a, r) :: rest → ∃ kp, generateElectionKeyPair E id order rands = .ok kp ∧
      kp.ownerId = id ∧ kp.sequenceOrder = order ∧ kp.keyPair.secret = a ∧ kp.keyPair.pub = E.P.g ^ a % E.P.p ∧
      kp.polynomial.map (·.value) = rands.map Prod.fst ∧
      getCommitments kp.polynomial = rands.map (fun x => E.P.g ^ x.1 % E.P.p) := by
  refine ⟨by rintro rfl; rfl, ?_⟩
  rintro a r rest rfl
  refine ⟨_, rfl, rfl, rfl, rfl, rfl, ?_, ?_⟩
  · simp [generatePolynomial, mkCoefficient, Function.comp_def]
  · simp [getCommitments, generatePolynomial, mkCoefficient, Function.comp_def, gPowP, powP]

/-- C107: with a nonce the coefficients are the nonce and the numbers after it, modulo `q`: whoever knows the secret key knows all of
them. -/
theorem C107_key_pair_nonce (hv : E.P.Valid) (id : String) (order : Int) (nonce : Nat) (rands : List Nat) :
    generateElectionKeyPairNonce E id order nonce rands
      = generateElectionKeyPair E id order (rands.zipIdx.map (fun ri => ((nonce + ri.2) % E.P.q, ri.1))) := by
  unfold generateElectionKeyPairNonce generateElectionKeyPair
  rw [C10_nonce_polynomial E hv]

/-! ### Backups -/

theorem backupLoop_get (nonces : Nat → Nat) (ks : List ElectionPublicKey) (g g' : Guardian) (i : Nat)
    (hn : (ks.map (·.ownerId)).Nodup) (h : g.backupLoop E nonces ks i = (.ok true, g')) (id : String) :
    (∀ k ∈ ks, k.ownerId = id → ∃ b j, j < ks.length ∧ g'.shareBackup id = some b ∧
      generateBackup E g.id g.electionKeys.polynomial k (nonces (i + j)) = .ok b) ∧
    ((∀ k ∈ ks, k.ownerId ≠ id) → g'.shareBackup id = g.shareBackup id) := by
  induction ks generalizing g i with
  | nil =>
    rw [Guardian.backupLoop] at h
    cases h
    exact ⟨fun k hk => absurd hk (by simp), fun _ => rfl⟩
  | cons k ks ih =>
    rw [Guardian.backupLoop] at h
    cases hb : generateBackup E g.id g.electionKeys.polynomial k (nonces i) with
    | error e => rw [hb] at h; cases h
    | ok b =>
      rw [hb] at h
      rw [List.map_cons, List.nodup_cons] at hn
      obtain ⟨i1, i2⟩ := ih { g with backupsToShare := dset g.backupsToShare k.ownerId b } (i + 1) hn.2 h
      constructor
      · intro k' hk' he
        rcases List.mem_cons.1 hk' with rfl | hk'
        · refine ⟨b, 0, by simp, ?_, hb⟩
          rw [i2 fun x hx hxe => hn.1 (List.mem_map.2 ⟨x, hx, hxe.trans he.symm⟩)]
          show dget (dset g.backupsToShare k'.ownerId b) id = some b
          rw [dget_dset, if_pos he]
        · obtain ⟨b', j, hj, h1, h2⟩ := i1 k' hk' he
          refine ⟨b', j + 1, by simpa using hj, h1, ?_⟩
          have e : i + (j + 1) = i + 1 + j := by omega
          rw [e]
          exact h2
      · intro hne
        rw [i2 fun x hx => hne x (List.mem_cons_of_mem _ hx)]
        show dget (dset g.backupsToShare k.ownerId b) id = dget g.backupsToShare id
        rw [dget_dset, if_neg (hne k List.mem_cons_self)]

/-- C107: after `generate_election_partial_key_backups` a guardian shares, for every guardian whose key it has saved last, a backup made
from that key by its own polynomial, marked with its own id and with the id and the order of the receiver, and for others what it shared
before. -/
theorem C107_backups (kp : ElectionKeyPair) (d : CeremonyDetails) (ops : List GuardianOp) (nonces : Nat → Nat) (g' : Guardian)
    (h : ((Guardian.init kp d).run E ops).generateBackups E nonces = (.ok true, g')) (id : String) :
    (∀ k, dget ((Guardian.init kp d).run E ops).guardianKeys id = some k →
      ∃ b j, g'.shareBackup id = some b ∧ generateBackup E kp.ownerId kp.polynomial k (nonces j) = .ok b ∧
        j < ((Guardian.init kp d).run E ops).guardianKeys.length ∧
        b.ownerId = kp.ownerId ∧ b.designatedId = id ∧ b.designatedOrder = k.sequenceOrder) ∧
    (dget ((Guardian.init kp d).run E ops).guardianKeys id = none →
      g'.shareBackup id = ((Guardian.init kp d).run E ops).shareBackup id) := by
  have hr := guardian_records (E := E) kp d ops
  generalize (Guardian.init kp d).run E ops = g at h hr
  have hkeys : (g.guardianKeys.map (·.2)).map (·.ownerId) = dkeys g.guardianKeys := by
    rw [List.map_map]
    unfold dkeys
    exact List.map_congr_left fun e he => ((hr.keys e he).1).symm
  obtain ⟨h1, h2⟩ := backupLoop_get nonces _ g g' 0 (by rw [hkeys]; exact hr.keysNodup) h id
  constructor
  · intro k hk
    have hm := mem_of_dget hk
    have hid : k.ownerId = id := ((hr.keys _ hm).1).symm
    obtain ⟨b, j, hj, hb, hgen⟩ := h1 k (List.mem_map.2 ⟨_, hm, rfl⟩) hid
    rw [List.length_map] at hj
    rw [zero_add] at hgen
    have hgen' : generateBackup E kp.ownerId kp.polynomial k (nonces j) = .ok b := by
      rw [← hr.electionKeys]; exact hgen
    refine ⟨b, j, hb, hgen', hj, ?_⟩
    simp only [generateBackup, bind, Except.bind, pure, Except.pure] at hgen'
    split at hgen'
    · cases hgen'
    split at hgen'
    · cases hgen'
    split at hgen'
    · cases hgen'
    cases hgen'
    exact ⟨rfl, hid, rfl⟩
  · intro hk
    refine h2 fun k hk' hid => ?_
    obtain ⟨e, he, rfl⟩ := List.mem_map.1 hk'
    have := (hr.keys e he).1
    rw [dget_eq_none_iff] at hk
    exact hk (List.mem_map.2 ⟨e, he, this.trans hid⟩)

/-- C107: all the backups of others have arrived, for the guardian, exactly when the backups it saved come from as many different owners as
there are other guardians; it looks neither at who they are nor at whom the backups are for. -/
theorem C107_backups_received (kp : ElectionKeyPair) (d : CeremonyDetails) (ops : List GuardianOp) :
    let g := (Guardian.init kp d).run E ops
    let owners := ops.filterMap (fun o => match o with | .saveBackup b => some b.ownerId | _ => none)
    g.allBackupsReceived = true ↔ (owners.dedup.length : Int) = g.details.numberOfGuardians - 1 := by
  intro g owners
  have key : (dkeys g.guardianBackups).Nodup ∧ ∀ x, x ∈ dkeys g.guardianBackups ↔ x ∈ owners := by
    show (dkeys ((Guardian.init kp d).run E ops).guardianBackups).Nodup ∧ ∀ x,
      x ∈ dkeys ((Guardian.init kp d).run E ops).guardianBackups ↔
        x ∈ ops.filterMap (fun o => match o with | .saveBackup b => some b.ownerId | _ => none)
    clear g owners
    induction ops using List.reverseRecOn with
    | nil => exact ⟨List.nodup_nil, fun x => Iff.rfl⟩
    | append_singleton ops op ih =>
      rw [guardian_run_concat]
      generalize (Guardian.init kp d).run E ops = g at ih ⊢
      have same : g.guardianBackups = (g.step E op).guardianBackups → (match op with | .saveBackup b => some b.ownerId | _ => none) = none →
          (dkeys (g.step E op).guardianBackups).Nodup ∧ ∀ x, x ∈ dkeys (g.step E op).guardianBackups ↔
            x ∈ (ops ++ [op]).filterMap (fun o => match o with | .saveBackup b => some b.ownerId | _ => none) := by
        intro h1 h2
        rw [← h1, List.filterMap_append]
        simp only [List.filterMap_cons, h2, List.filterMap_nil, List.append_nil]
        exact ih
      cases op with
      | saveKey k => exact same rfl rfl
      | generateBackups nonces => exact same (backupLoop_fields g nonces _ 0).2.2.2.1.symm rfl
      | saveVerification v => exact same rfl rfl
      | setDetails n quorum => exact same rfl rfl
      | saveBackup b =>
        refine ⟨dset_nodup ih.1 _ _, fun x => ?_⟩
        show x ∈ dkeys (dset g.guardianBackups b.ownerId b) ↔ _
        rw [dkeys_dset, List.filterMap_append]
        simp only [List.filterMap_cons, List.filterMap_nil, List.mem_append, List.mem_singleton, ← ih.2 x]
        split
        · rename_i hm
          constructor
          · exact Or.inl
          · rintro (h | rfl)
            · exact h
            · exact hm
        · simp
  have hlen : g.guardianBackups.length = owners.dedup.length := by
    have hp : (dkeys g.guardianBackups).Perm owners.dedup :=
      (List.perm_ext_iff_of_nodup key.1 owners.nodup_dedup).2 fun x => by rw [key.2, List.mem_dedup]
    rw [← hp.length_eq, dkeys, List.length_map]
  unfold Guardian.allBackupsReceived
  rw [beq_iff_eq, hlen]

/-! ### Challenges -/

/-- C107: asked to answer a challenge, a guardian reveals the point that belongs in the backup, with the commitments and proofs of its
polynomial; for a guardian without a backup there is no answer. -/
theorem C107_challenge (hv : E.P.Valid) (g : Guardian) (rands : List (Nat × Nat))
    (hg : g.electionKeys.polynomial = generatePolynomial E rands) (id : String) :
    (g.shareBackup id = none → g.publishChallenge E.P id = .ok none) ∧
    (∀ b (x : Nat), g.shareBackup id = some b → b.designatedOrder = x → x < E.P.q →
      g.publishChallenge E.P id = .ok (some ⟨b.ownerId, b.designatedId, x, polyAt (rands.map Prod.fst) x % E.P.q,
        rands.map (fun r => E.P.g ^ r.1 % E.P.p), rands.map (fun r => makeSchnorr E ⟨r.1, E.P.g ^ r.1 % E.P.p⟩ r.2)⟩)) ∧
    ∀ b, g.shareBackup id = some b → (b.designatedOrder < 0 ∨ (E.P.q : Int) ≤ b.designatedOrder) →
      g.publishChallenge E.P id = .error .overflow := by
  unfold Guardian.shareBackup Guardian.publishChallenge
  refine ⟨fun h => by rw [h], fun b x h hx hq => ?_, fun b h hx => ?_⟩
  · rw [h]
    have hc := C10_coordinate_value E hv rands x hq
    simp only [generateChallenge, hg, hx, hc, bind, Except.bind, pure, Except.pure, Except.map]
    congr 3
    · simp [getCommitments, generatePolynomial, mkCoefficient, Function.comp_def, gPowP, powP]
    · simp [getProofs, generatePolynomial, mkCoefficient, Function.comp_def, gPowP, powP]
  · rw [h]
    simp only [generateChallenge, (C10_out_of_range_raises E g.electionKeys.polynomial b.designatedOrder 0 [] hx).1, bind, Except.bind,
      Except.map]

/-- C107: what a guardian says about a challenge: it names itself as the verifier, and it says yes exactly when the revealed number is,
modulo `q`, the value at the order of the challenge of the polynomial whose commitments the challenge has (with powers reduced modulo `p`).
An order out of range raises. -/
theorem C107_verdict (hv : E.P.Valid) (g : Guardian) (c : BackupChallenge) (as : List Nat)
    (hc : c.commitments = as.map (fun a => E.P.g ^ a % E.P.p)) :
    (∀ x : Nat, c.designatedOrder = x → x < E.P.q → ∃ ok, g.verifyChallenge E.P c = .ok ⟨c.ownerId, c.designatedId, g.id, ok⟩ ∧
      (ok = true ↔ c.value % E.P.q = sumFrom (fun i => x ^ i % E.P.p) as 0 % E.P.q)) ∧
    ((c.designatedOrder < 0 ∨ (E.P.q : Int) ≤ c.designatedOrder) → g.verifyChallenge E.P c = .error .overflow) := by
  constructor
  · intro x hx hq
    have h := C11_accepted_iff hv as x c.value hq
    unfold Guardian.verifyChallenge EG.verifyChallenge
    rw [hx, hc]
    cases hver : verifyCoordinate E.P c.value (x : Int) (as.map (fun a => E.P.g ^ a % E.P.p)) with
    | error e =>
      simp only [verifyCoordinate, mkQ_nat hq, bind, Except.bind, pure, Except.pure] at hver
      cases hver
    | ok v =>
      refine ⟨v, rfl, ?_⟩
      rw [← h, hver]
      simp
  · intro hx
    unfold Guardian.verifyChallenge EG.verifyChallenge
    rw [(C10_out_of_range_raises E [] c.designatedOrder c.value c.commitments hx).2]
    rfl

/-- C107: every guardian says yes to the answer of an honest guardian.  Missing from the full claim: powers of the order of `p` or more
(`C10_large_power_fails`). -/
theorem C107_honest_partial (hv : E.P.Valid) (g verifier : Guardian) (rands : List (Nat × Nat))
    (hg : g.electionKeys.polynomial = generatePolynomial E rands) (id : String) (b : Backup) (x : Nat)
    (hb : g.shareBackup id = some b) (hx : b.designatedOrder = x) (hq : x < E.P.q) (hpow : ∀ i < rands.length, x ^ i < E.P.p) :
    ∃ c, g.publishChallenge E.P id = .ok (some c) ∧
      verifier.verifyChallenge E.P c = .ok ⟨b.ownerId, b.designatedId, verifier.id, true⟩ := by
  refine ⟨_, (C107_challenge hv g rands hg id).2.1 b x hb hx hq, ?_⟩
  have hc := C10_coordinate_value E hv rands x hq
  have hver := C10_honest_share_accepted_partial E hv rands x _ hpow hc
  rw [commitments_generate, List.map_map] at hver
  unfold Guardian.verifyChallenge EG.verifyChallenge
  simp only [bind, Except.bind, pure, Except.pure]
  have e : (rands.map fun r => E.P.g ^ r.1 % E.P.p) = rands.map ((fun a => E.P.g ^ a % E.P.p) ∘ Prod.fst) := rfl
  rw [e, hver]

/-! ### Cases -/

/-- A guardian with the polynomial `3 + 5x`, which has saved the key of `b`. -/
def toyCaller : Guardian :=
  match Guardian.fromRandom toyEnv "a" 1 2 2 [(3, 1), (5, 2)] with
  | .ok g => g.saveKey wKeyB
  | .error _ => Guardian.fromPublicKey 0 0 wKeyB

/-- It makes a backup for `b`, who has the order 2, answers the challenge with `3 + 5 · 2 = 13 = 0` modulo 13, and the answer is accepted;
another number is not. -/
example :
    let g := (toyCaller.generateBackups toyEnv (fun i => i + 4)).2
    (g.shareBackup "b").map (fun b => (b.ownerId, b.designatedId, b.designatedOrder)) = some ("a", "b", wKeyB.sequenceOrder) ∧
    g.shareBackup "c" = none ∧
    (match g.publishChallenge extraSmall "b" with
      | .ok (some c) => (c.value, g.verifyChallenge extraSmall c, g.verifyChallenge extraSmall { c with value := c.value + 1 })
      | _ => (1, .error .value, .error .value)) = (0, .ok ⟨"a", "b", "a", true⟩, .ok ⟨"a", "b", "a", false⟩) := by
  decide +kernel

example : (Guardian.init wPair ⟨3, 2⟩).allBackupsReceived = false ∧
    (((Guardian.init wPair ⟨2, 2⟩).saveBackup ⟨"b", "a", 1, ⟨0, [], []⟩⟩).allBackupsReceived) = true := by
  decide +kernel

end EG
