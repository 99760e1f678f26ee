import Verif.Model.Guardian
import Verif.Props.KeyCeremonyMediator

/-!
# Guardian state (C59)
-/

namespace EG

variable {E : Env}

/-! ### Export and import -/

theorem dset_self {κ α : Type} [DecidableEq κ] {d : List (κ × α)} {k : κ} {v : α} (hd : (dkeys d).Nodup)
    (h : dget d k = some v) : dset d k v = d := by
  have hm := mem_of_dget h
  have hany : d.any (fun e => e.1 == k) = true := List.any_eq_true.2 ⟨_, hm, by simp⟩
  unfold dset
  rw [if_pos hany]
  conv_rhs => rw [← List.map_id d]
  refine List.map_congr_left (fun e he => ?_)
  by_cases hk : e.1 = k
  · have h1 := dget_of_mem hd (k := e.1) (v := e.2) he
    rw [hk, h] at h1
    cases h1
    simp [← hk]
  · simp [hk]

theorem backupLoop_fields (g : Guardian) (nonces : Nat → Nat) (ks : List ElectionPublicKey) (i : Nat) :
    (g.backupLoop E nonces ks i).2.electionKeys = g.electionKeys ∧
    (g.backupLoop E nonces ks i).2.details = g.details ∧
    (g.backupLoop E nonces ks i).2.guardianKeys = g.guardianKeys ∧
    (g.backupLoop E nonces ks i).2.guardianBackups = g.guardianBackups ∧
    (g.backupLoop E nonces ks i).2.guardianVerifications = g.guardianVerifications := by
  induction ks generalizing g i with
  | nil => simp [Guardian.backupLoop]
  | cons k ks ih =>
    unfold Guardian.backupLoop
    cases generateBackup E g.id g.electionKeys.polynomial k (nonces i) with
    | error => simp
    | ok b => exact ih { g with backupsToShare := dset g.backupsToShare k.ownerId b } (i + 1)

/-- The state of a guardian over its history: the keys it received, by owner, and the verifications, by designated
guardian, are the last saved ones. -/
structure Guardian.Records (kp : ElectionKeyPair) (ops : List GuardianOp) (g : Guardian) : Prop where
  electionKeys : g.electionKeys = kp
  keysNodup : (dkeys g.guardianKeys).Nodup
  keys : ∀ e ∈ g.guardianKeys, e.1 = e.2.ownerId ∧ (e.2 = kp.share ∨ GuardianOp.saveKey e.2 ∈ ops)
  verificationsNodup : (dkeys g.guardianVerifications).Nodup
  verifications : ∀ e ∈ g.guardianVerifications, e.1 = e.2.designatedId ∧ GuardianOp.saveVerification e.2 ∈ ops

theorem guardian_run_concat (g : Guardian) (ops : List GuardianOp) (op : GuardianOp) :
    g.run E (ops ++ [op]) = (g.run E ops).step E op := by
  simp [Guardian.run, List.foldl_append]

theorem guardian_records (kp : ElectionKeyPair) (d : CeremonyDetails) (ops : List GuardianOp) :
    ((Guardian.init kp d).run E ops).Records kp ops := by
  induction ops using List.reverseRecOn with
  | nil =>
    refine ⟨rfl, dset_nodup (d := []) List.nodup_nil _ _, ?_, List.nodup_nil, fun e he => by cases he⟩
    intro e he
    rcases mem_dset (show e ∈ dset [] kp.share.ownerId kp.share from he) with rfl | he
    · exact ⟨rfl, Or.inl rfl⟩
    · cases he
  | append_singleton ops op ih =>
    rw [guardian_run_concat]
    generalize (Guardian.init kp d).run E ops = g at ih ⊢
    have hk : ∀ e ∈ g.guardianKeys, e.1 = e.2.ownerId ∧ (e.2 = kp.share ∨ GuardianOp.saveKey e.2 ∈ ops ++ [op]) :=
      fun e he => ⟨(ih.keys e he).1, (ih.keys e he).2.imp_right (List.mem_append_left _)⟩
    have hv : ∀ e ∈ g.guardianVerifications, e.1 = e.2.designatedId ∧
        GuardianOp.saveVerification e.2 ∈ ops ++ [op] :=
      fun e he => ⟨(ih.verifications e he).1, List.mem_append_left _ (ih.verifications e he).2⟩
    cases op with
    | saveKey k =>
      refine ⟨ih.electionKeys, dset_nodup ih.keysNodup _ _, ?_, ih.verificationsNodup, hv⟩
      intro e he
      rcases mem_dset he with rfl | he
      · exact ⟨rfl, Or.inr (by simp)⟩
      · exact hk e he
    | generateBackups nonces =>
      obtain ⟨h1, -, h3, -, h5⟩ := backupLoop_fields (E := E) g nonces (g.guardianKeys.map (·.2)) 0
      refine ⟨h1.trans ih.electionKeys, ?_, ?_, ?_, ?_⟩
      · simp only [Guardian.step, Guardian.generateBackups, h3]; exact ih.keysNodup
      · simp only [Guardian.step, Guardian.generateBackups, h3]; exact hk
      · simp only [Guardian.step, Guardian.generateBackups, h5]; exact ih.verificationsNodup
      · simp only [Guardian.step, Guardian.generateBackups, h5]; exact hv
    | saveBackup b => exact ⟨ih.electionKeys, ih.keysNodup, hk, ih.verificationsNodup, hv⟩
    | saveVerification v =>
      refine ⟨ih.electionKeys, ih.keysNodup, hk, dset_nodup ih.verificationsNodup _ _, ?_⟩
      intro e he
      rcases mem_dset he with rfl | he
      · exact ⟨rfl, by simp⟩
      · exact hv e he
    | setDetails n k => exact ⟨ih.electionKeys, ih.keysNodup, hk, ih.verificationsNodup, hv⟩

/-- The guardian's own key stays as long as no other key is saved under its id. -/
theorem own_key_kept (kp : ElectionKeyPair) (d : CeremonyDetails) (ops : List GuardianOp)
    (hown : ∀ k, GuardianOp.saveKey k ∈ ops → k.ownerId = kp.ownerId → k = kp.share) :
    dget ((Guardian.init kp d).run E ops).guardianKeys kp.ownerId = some kp.share := by
  induction ops using List.reverseRecOn with
  | nil =>
    show dget (dset [] kp.share.ownerId kp.share) kp.ownerId = _
    rw [dget_dset]
    exact if_pos rfl
  | append_singleton ops op ih =>
    have ih := ih (fun k hk => hown k (List.mem_append_left _ hk))
    rw [guardian_run_concat]
    generalize (Guardian.init kp d).run E ops = g at ih ⊢
    cases op with
    | saveKey k =>
      simp only [Guardian.step, Guardian.saveKey, dget_dset]
      split
      · rename_i h
        rw [hown k (by simp) h]
      · exact ih
    | generateBackups nonces =>
      simp only [Guardian.step, Guardian.generateBackups, (backupLoop_fields g nonces _ 0).2.2.1]
      exact ih
    | _ => exact ih

/-- C59 Export and import: a guardian restored from the private record another guardian exported at any point of its
history, with the ceremony details of that guardian, is the same guardian (so it answers every later call in the
same way), unless a foreign key had been saved under the guardian's own id (see `C59_fails`). -/
theorem C59_restored_partial (kp : ElectionKeyPair) (d : CeremonyDetails) (ops : List GuardianOp)
    (hown : ∀ k, GuardianOp.saveKey k ∈ ops → k.ownerId = kp.ownerId → k = kp.share) (n quorum : Int) :
    Guardian.fromPrivateRecord ((Guardian.init kp d).run E ops).exportPrivate n quorum
      = ((Guardian.init kp d).run E ops).setDetails n quorum := by
  have hr := guardian_records (E := E) kp d ops
  have hk := own_key_kept (E := E) kp d ops hown
  generalize (Guardian.init kp d).run E ops = g at hr hk ⊢
  have h1 := hr.electionKeys
  unfold Guardian.fromPrivateRecord Guardian.init Guardian.exportPrivate Guardian.saveKey Guardian.setDetails
  simp only [h1]
  have : dset g.guardianKeys kp.share.ownerId kp.share = g.guardianKeys := dset_self hr.keysNodup hk
  rw [this]

/-- C59 In every state, the restored guardian has the same election keys, backups and verifications, the given
ceremony details, and the same keys of all other guardians; its own entry holds its own key. -/
theorem C59_restored_fields (g : Guardian) (n quorum : Int) :
    let g' := Guardian.fromPrivateRecord g.exportPrivate n quorum
    g'.electionKeys = g.electionKeys ∧ g'.details = ⟨n, quorum⟩ ∧ g'.backupsToShare = g.backupsToShare ∧
    g'.guardianBackups = g.guardianBackups ∧ g'.guardianVerifications = g.guardianVerifications ∧
    (∀ id, id ≠ g.id → dget g'.guardianKeys id = dget g.guardianKeys id) ∧
    dget g'.guardianKeys g.id = some g.shareKey := by
  refine ⟨rfl, rfl, rfl, rfl, rfl, fun id hid => ?_, ?_⟩
  · show dget (dset g.guardianKeys g.id g.shareKey) id = _
    rw [dget_dset, if_neg (fun h => hid h.symm)]
  · show dget (dset g.guardianKeys g.id g.shareKey) g.id = _
    rw [dget_dset, if_pos rfl]

/-- A key pair for the witnesses. -/
def wPair : ElectionKeyPair := ⟨"a", 1, ⟨1, 16⟩, []⟩

/-- C59 The equality fails for a guardian that saved somebody else's key under its own id: the import writes its own
key back, so the restored guardian publishes another joint key. -/
theorem C59_fails : ∃ (g : Guardian), g = (Guardian.init wPair ⟨1, 1⟩).run toyEnv [.saveKey wKeyA'] ∧
    g.publishJointKey extraSmall = some 101 ∧
    (Guardian.fromPrivateRecord g.exportPrivate 1 1).publishJointKey extraSmall = some 16 :=
  ⟨(Guardian.init wPair ⟨1, 1⟩).run toyEnv [.saveKey wKeyA'], rfl, by decide +kernel, by decide +kernel⟩

/-! ### The joint key a guardian publishes -/

/-- C59 Whatever happened to a guardian: if it publishes a joint key, then it holds keys of exactly the expected
number of different guardians (its own or saved ones), it saved successful verifications for `n - 1` different
designated guardians (and none of the verifications it holds failed), and the joint key is the product of the keys
it holds. -/
theorem C59_published_only_if_complete (hp : 1 < E.P.p) (kp : ElectionKeyPair) (d : CeremonyDetails)
    (ops : List GuardianOp) (jk : Nat) (h : ((Guardian.init kp d).run E ops).publishJointKey E.P = some jk) :
    let n := ((Guardian.init kp d).run E ops).details.numberOfGuardians
    ∃ (ks : List ElectionPublicKey) (vs : List Verification),
      (ks.length : Int) = n ∧ (ks.map (·.ownerId)).Nodup ∧
      (∀ k ∈ ks, k = kp.share ∨ GuardianOp.saveKey k ∈ ops) ∧
      (vs.length : Int) = n - 1 ∧ (vs.map (·.designatedId)).Nodup ∧
      (∀ v ∈ vs, v.verified = true ∧ GuardianOp.saveVerification v ∈ ops) ∧
      jk = (ks.map (·.key)).prod % E.P.p := by
  intro n
  have hr := guardian_records (E := E) kp d ops
  change ((Guardian.init kp d).run E ops).publishJointKey E.P = some jk at h
  have hn : n = ((Guardian.init kp d).run E ops).details.numberOfGuardians := rfl
  generalize (Guardian.init kp d).run E ops = g at hr h hn
  unfold Guardian.publishJointKey at h
  by_cases h1 : g.allKeysReceived = true
  · by_cases h2 : g.allBackupsVerified = true
    · simp only [h1, h2, Bool.not_true, Bool.false_eq_true, if_false, Option.some.injEq] at h
      have h3 : (g.guardianKeys.length : Int) = n := by
        simpa [Guardian.allKeysReceived, hn] using h1
      have h4 : (g.guardianVerifications.length : Int) = n - 1 ∧ ∀ e ∈ g.guardianVerifications, e.2.verified = true := by
        unfold Guardian.allBackupsVerified at h2
        split at h2
        · cases h2
        · rename_i hne
          exact ⟨by rw [hn]; exact Classical.not_not.1 hne, by simpa using h2⟩
      refine ⟨g.guardianKeys.map (·.2), g.guardianVerifications.map (·.2), ?_, ?_, ?_, ?_, ?_, ?_, ?_⟩
      · rw [List.length_map]; exact h3
      · rw [List.map_map]
        have : ∀ e ∈ g.guardianKeys, ((fun k : ElectionPublicKey => k.ownerId) ∘ fun e => e.2) e = e.1 :=
          fun e he => (hr.keys e he).1.symm
        rw [List.map_congr_left this]
        exact hr.keysNodup
      · intro k hk
        obtain ⟨e, he, rfl⟩ := List.mem_map.1 hk
        exact (hr.keys e he).2
      · rw [List.length_map]; exact h4.1
      · rw [List.map_map]
        have : ∀ e ∈ g.guardianVerifications,
            ((fun k : Verification => k.designatedId) ∘ fun e => e.2) e = e.1 :=
          fun e he => (hr.verifications e he).1.symm
        rw [List.map_congr_left this]
        exact hr.verificationsNodup
      · intro v hv
        obtain ⟨e, he, rfl⟩ := List.mem_map.1 hv
        exact ⟨h4.2 e he, (hr.verifications e he).2⟩
      · rw [← h, combinePublicKeys_prod hp, List.map_map]
        rfl
    · simp [h1, h2] at h
  · simp [h1] at h

/-- C59 A guardian that holds a failed verification publishes nothing. -/
theorem C59_failed_verification_blocks (g : Guardian) (P : Params) (id : String) (v : Verification)
    (h : dget g.guardianVerifications id = some v) (hf : v.verified = false) : g.publishJointKey P = none := by
  have hm := mem_of_dget h
  have : g.allBackupsVerified = false := by
    unfold Guardian.allBackupsVerified
    split
    · rfl
    · rw [List.all_eq_false]
      exact ⟨_, hm, by simp [hf]⟩
  unfold Guardian.publishJointKey
  rw [this]
  split <;> simp

/-- C59 A guardian and the mediator publish the same joint key if the guardian holds the key each participant
announced last, in any order. -/
theorem C59_same_key_as_mediator (hp : 1 < E.P.p) (me : String) (d : CeremonyDetails) (ops : List KCMOp) (g : Guardian)
    (jk : ElectionJointKey) (jg : Nat) (hm : (KCM.run E.P me d ops).publishJointKey E = some jk)
    (hg : g.publishJointKey E.P = some jg) (hperm : (g.guardianKeys.map (·.2)).Perm (participants ops)) :
    jg = jk.jointPublicKey := by
  rw [(C43_published_only_if_complete hp me d ops jk hm).2.2.2.1]
  unfold Guardian.publishJointKey at hg
  by_cases h1 : g.allKeysReceived = true <;> by_cases h2 : g.allBackupsVerified = true
  · simp only [h1, h2, Bool.not_true, Bool.false_eq_true, if_false, Option.some.injEq] at hg
    rw [← hg, combinePublicKeys_prod hp, ← (hperm.map (·.key)).prod_eq, List.map_map]
    rfl
  all_goals simp [h1, h2] at hg

/-- C59 What `verifications` a guardian counts is only their number and their outcome: a verification of somebody
else's backup counts like one of its own.  Here guardian `a` holds one verification, of a backup that `c` made, and
publishes. -/
theorem C59_foreign_verification_fails : ∃ g : Guardian,
    g = (Guardian.init wPair ⟨2, 2⟩).run toyEnv [.saveKey wKeyB, .saveVerification ⟨"c", "b", "b", true⟩] ∧
    g.publishJointKey extraSmall = some 46 ∧
    ∀ e ∈ g.guardianVerifications, e.2.ownerId ≠ g.id :=
  ⟨(Guardian.init wPair ⟨2, 2⟩).run toyEnv [.saveKey wKeyB, .saveVerification ⟨"c", "b", "b", true⟩], rfl,
    by decide +kernel, by decide +kernel⟩

-- a guardian with a non-trivial history
example : (((Guardian.init toySender ⟨2, 2⟩).run toyEnv [.saveKey toyReceiver.share, .generateBackups (fun i => 5 + i),
    .saveVerification ⟨"s", "r", "r", true⟩]).backupsToShare.map (·.1)) = ["s", "r"] := by decide +kernel
example : ((Guardian.init toySender ⟨2, 2⟩).run toyEnv [.saveKey toyReceiver.share,
    .saveVerification ⟨"s", "r", "r", true⟩]).publishJointKey extraSmall
      = some (toySender.keyPair.pub * toyReceiver.keyPair.pub % 157) := by decide +kernel

end EG
