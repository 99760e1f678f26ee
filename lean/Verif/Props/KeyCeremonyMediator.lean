import Verif.Lemmas.KeyCeremonyMediator
import Verif.Props.KeyCeremony
import Verif.Props.ElGamal

/-!
# The key-ceremony mediator (C43–C46)
-/

namespace EG

variable {E : Env}

/-- The product of keys as one modular product. -/
theorem combinePublicKeys_prod {P : Params} (hp : 1 < P.p) (ks : List Nat) :
    combinePublicKeys P ks = ks.prod % P.p := by
  have h1 : combinePublicKeys P ks = multPs P ks := rfl
  rw [h1, ← castP_inj (multPs_lt hp _) (Nat.mod_lt _ (by omega)), multPs_cast, ZMod.natCast_mod]
  simp [Nat.cast_list_prod]

/-! ### C43 -/

/-- C43 Whatever calls were made on the mediator since it was created: if it publishes a joint key, then, counting
from the last reset, exactly the expected number of different guardians announced, `n (n - 1)` backups for different
pairs of guardians were sent, `n (n - 1)` successful verifications for different pairs were sent, and the key is
the product of the keys those guardians announced last (with the hash of all their commitments). -/
theorem C43_published_only_if_complete (hp : 1 < E.P.p) (me : String) (d : CeremonyDetails) (ops : List KCMOp)
    (jk : ElectionJointKey) (h : (KCM.run E.P me d ops).publishJointKey E = some jk) :
    let n := (detailsAfter d ops).numberOfGuardians
    ((participants ops).length : Int) = n ∧
    (∃ bs : List Backup, (bs.length : Int) = n * (n - 1) ∧
      (bs.map (fun b => (b.ownerId, b.designatedId))).Nodup ∧
      ∀ b ∈ bs, b ∈ sentBackups ops ∧ b.ownerId ≠ b.designatedId) ∧
    (∃ vs : List Verification, (vs.length : Int) = n * (n - 1) ∧
      (vs.map (fun v => (v.ownerId, v.designatedId))).Nodup ∧
      ∀ v ∈ vs, v ∈ sentVerifications E.P me ops ∧ v.ownerId ≠ v.designatedId ∧ v.verified = true) ∧
    jk.jointPublicKey = ((participants ops).map (·.key)).prod % E.P.p ∧
    jk.commitmentHash = hashElems E [.list (((participants ops).flatMap (·.commitments)).map HArg.elem)] := by
  intro n
  have hr := records_run E.P me d ops
  obtain ⟨hkeys, -⟩ := keys_eq_participants E.P me d ops
  obtain ⟨hver, rfl⟩ := (publishJointKey_eq_some E _ _).1 h
  obtain ⟨h1, h2, h3, h4⟩ := (allBackupsVerified_iff _).1 hver
  rw [hr.details] at h1 h2 h3
  refine ⟨?_, ⟨(KCM.run E.P me d ops).backups.map (·.2), ?_, ?_, ?_⟩,
    ⟨(KCM.run E.P me d ops).verifications.map (·.2), ?_, ?_, ?_⟩, ?_, ?_⟩
  · rw [← hkeys, List.length_map]; exact h1
  · rw [List.length_map, h2]; ring
  · rw [List.map_map]
    have : ∀ e ∈ (KCM.run E.P me d ops).backups,
        ((fun b : Backup => (b.ownerId, b.designatedId)) ∘ fun e => e.2) e = e.1 :=
      fun e he => (hr.backups e he).2.1.symm
    rw [List.map_congr_left this]
    exact hr.backupsNodup
  · intro b hb
    obtain ⟨e, he, rfl⟩ := List.mem_map.1 hb
    exact ⟨(hr.backups e he).1, (hr.backups e he).2.2⟩
  · rw [List.length_map, h3]; ring
  · rw [List.map_map]
    have : ∀ e ∈ (KCM.run E.P me d ops).verifications,
        ((fun b : Verification => (b.ownerId, b.designatedId)) ∘ fun e => e.2) e = e.1 :=
      fun e he => (hr.verifications e he).2.1.symm
    rw [List.map_congr_left this]
    exact hr.verificationsNodup
  · intro b hb
    obtain ⟨e, he, rfl⟩ := List.mem_map.1 hb
    exact ⟨(hr.verifications e he).1, (hr.verifications e he).2.2, h4 e he⟩
  · rw [hkeys]; exact combinePublicKeys_prod hp _
  · rw [hkeys]; rfl

/-- A recorded verification stays as long as nothing is said about its pair. -/
theorem recorded_of_silent {P : Params} {o dd : String} {v : Verification} (ops : List KCMOp) (s : KCM)
    (hs : dget s.verifications (o, dd) = some v) (hsil : Silent o dd ops) :
    dget (ops.foldl (KCM.step P) s).verifications (o, dd) = some v := by
  have key : ∀ (w : Verification) (s : KCM), (w.ownerId, w.designatedId) ≠ (o, dd) →
      dget s.verifications (o, dd) = some v → dget (s.receiveVerification w).verifications (o, dd) = some v := by
    intro w s hw hs
    unfold KCM.receiveVerification
    split
    · exact hs
    · simp only [dget_dset, if_neg hw, hs]
  induction ops generalizing s with
  | nil => exact hs
  | cons op ops ih =>
    rw [List.foldl_cons]
    refine ih _ ?_ (fun op' h' => hsil op' (List.mem_cons_of_mem _ h'))
    have hop := hsil op (List.mem_cons_self ..)
    cases op with
    | announce k => exact hs
    | receiveBackups bs => simp only [KCM.step, (receiveBackups_fields s bs).2.2.2]; exact hs
    | receiveVerifications vs =>
      simp only [KCM.step, KCM.receiveVerifications]
      split
      · exact hs
      · simp only at hop
        have : ∀ (vs : List Verification) (s : KCM), (∀ w ∈ vs, (w.ownerId, w.designatedId) ≠ (o, dd)) →
            dget s.verifications (o, dd) = some v →
            dget (vs.foldl KCM.receiveVerification s).verifications (o, dd) = some v := by
          intro vs
          induction vs with
          | nil => exact fun s _ h => h
          | cons w vs ihv =>
            intro s hw hs
            exact ihv _ (fun w' h' => hw w' (List.mem_cons_of_mem _ h'))
              (key w s (hw w (List.mem_cons_self ..)) hs)
        exact this vs s hop hs
    | verifyChallenge c =>
      simp only at hop
      simp only [KCM.step, KCM.verifyChallenge]
      cases hv : verifyChallenge P s.id c with
      | error => exact hs
      | ok w =>
        simp only
        split
        · refine key w s ?_ hs
          simp only [verifyChallenge, bind, Except.bind, pure, Except.pure] at hv
          cases hc : verifyCoordinate P c.value c.designatedOrder c.commitments with
          | error => rw [hc] at hv; cases hv
          | ok b => rw [hc] at hv; cases hv; exact hop
        · exact hs
    | reset => exact hop.elim

/-- C43 One failed verification blocks publication: if a guardian reports (when the mediator holds all backups) that
the backup of a pair failed, no joint key is published after any further calls, until a new verification or
challenge for that pair arrives or the ceremony is reset. -/
theorem C43_failure_blocks (me : String) (d : CeremonyDetails) (ops : List KCMOp) (vs vs' : List Verification)
    (v : Verification) (later : List KCMOp) (hall : (KCM.run E.P me d ops).allBackupsAvailable = true)
    (hne : v.ownerId ≠ v.designatedId) (hfail : v.verified = false)
    (hvs' : ∀ w ∈ vs', (w.ownerId, w.designatedId) ≠ (v.ownerId, v.designatedId))
    (hlater : Silent v.ownerId v.designatedId later) :
    (KCM.run E.P me d (ops ++ [.receiveVerifications (vs ++ v :: vs')] ++ later)).publishJointKey E = none := by
  have h0 : dget (KCM.run E.P me d (ops ++ [.receiveVerifications (vs ++ v :: vs')])).verifications
      (v.ownerId, v.designatedId) = some v := by
    rw [run_concat]
    simp only [KCM.step, KCM.receiveVerifications, hall, Bool.not_true, Bool.false_eq_true, if_false,
      List.foldl_append, List.foldl_cons]
    generalize vs.foldl KCM.receiveVerification (KCM.run E.P me d ops) = s
    have h1 : dget (s.receiveVerification v).verifications (v.ownerId, v.designatedId) = some v := by
      simp only [KCM.receiveVerification, if_neg hne, dget_dset, if_true]
    generalize s.receiveVerification v = s' at h1
    induction vs' generalizing s' with
    | nil => exact h1
    | cons w vs' ih =>
      rw [List.foldl_cons]
      refine ih (fun w' h' => hvs' w' (List.mem_cons_of_mem _ h')) _ ?_
      unfold KCM.receiveVerification
      split
      · exact h1
      · simp only [dget_dset, if_neg (hvs' w (List.mem_cons_self ..)), h1]
  have h2 := recorded_of_silent (P := E.P) later _ h0 hlater
  have h3 : KCM.run E.P me d (ops ++ [.receiveVerifications (vs ++ v :: vs')] ++ later)
      = later.foldl (KCM.step E.P) (KCM.run E.P me d (ops ++ [.receiveVerifications (vs ++ v :: vs')])) := by
    simp [KCM.run, List.foldl_append]
  rw [← h3] at h2
  have hmem := mem_of_dget h2
  cases hpub : (KCM.run E.P me d (ops ++ [.receiveVerifications (vs ++ v :: vs')] ++ later)).publishJointKey E with
  | none => rfl
  | some jk =>
    have := ((allBackupsVerified_iff _).1 ((publishJointKey_eq_some E _ _).1 hpub).1).2.2.2 _ hmem
    rw [hfail] at this
    cases this

/-! ### Completeness -/

theorem foldl_announce (ks : List ElectionPublicKey) (s : KCM) :
    (ks.map KCMOp.announce).foldl (KCM.step E.P) s
      = { s with keys := ks.foldl (fun d k => dset d k.ownerId k) s.keys } := by
  induction ks generalizing s with
  | nil => rfl
  | cons k ks ih => rw [List.map_cons, List.foldl_cons, ih]; rfl

theorem foldl_receiveBackups (bss : List (List Backup)) (s : KCM) (h : s.allAnnounced = true) :
    (bss.map KCMOp.receiveBackups).foldl (KCM.step E.P) s = bss.flatten.foldl KCM.receiveBackup s := by
  induction bss generalizing s with
  | nil => rfl
  | cons bs bss ih =>
    rw [List.map_cons, List.foldl_cons, List.flatten_cons, List.foldl_append]
    have h1 : KCM.step E.P s (.receiveBackups bs) = bs.foldl KCM.receiveBackup s := by
      simp [KCM.step, KCM.receiveBackups, h]
    rw [h1, ih]
    obtain ⟨-, h2, h3, -⟩ := foldl_receiveBackup_fields bs s
    simp only [KCM.allAnnounced, h2, h3]
    exact h

theorem foldl_receiveVerifications (vss : List (List Verification)) (s : KCM) (h : s.allBackupsAvailable = true) :
    (vss.map KCMOp.receiveVerifications).foldl (KCM.step E.P) s
      = vss.flatten.foldl KCM.receiveVerification s := by
  induction vss generalizing s with
  | nil => rfl
  | cons bs bss ih =>
    rw [List.map_cons, List.foldl_cons, List.flatten_cons, List.foldl_append]
    have h1 : KCM.step E.P s (.receiveVerifications bs) = bs.foldl KCM.receiveVerification s := by
      simp [KCM.step, KCM.receiveVerifications, h]
    rw [h1, ih]
    obtain ⟨-, h2, h3, h4⟩ := foldl_receiveVerification_fields bs s
    simp only [KCM.allBackupsAvailable, KCM.allAnnounced, KCM.enoughBackups, h2, h3, h4]
    exact h

theorem foldl_receiveBackup_keys (bs : List Backup) (s : KCM) (p : String × String) :
    p ∈ dkeys (bs.foldl KCM.receiveBackup s).backups ↔
      p ∈ dkeys s.backups ∨ ∃ b ∈ bs, p = (b.ownerId, b.designatedId) ∧ b.ownerId ≠ b.designatedId := by
  induction bs generalizing s with
  | nil => simp
  | cons b bs ih =>
    rw [List.foldl_cons, ih]
    by_cases hb : b.ownerId = b.designatedId
    · have : s.receiveBackup b = s := by simp [KCM.receiveBackup, hb]
      rw [this]; simp [hb]
    · have hs : (s.receiveBackup b).backups = dset s.backups (b.ownerId, b.designatedId) b := by
        simp [KCM.receiveBackup, hb]
      rw [hs, dkeys_dset]
      by_cases hm : (b.ownerId, b.designatedId) ∈ dkeys s.backups
      · rw [if_pos hm]
        simp only [List.exists_mem_cons_iff]
        constructor
        · rintro (h | h)
          · exact Or.inl h
          · exact Or.inr (Or.inr h)
        · rintro (h | ⟨rfl, -⟩ | h)
          · exact Or.inl h
          · exact Or.inl hm
          · exact Or.inr h
      · rw [if_neg hm]
        simp [hb, or_assoc]

theorem foldl_receiveVerification_keys (bs : List Verification) (s : KCM) (p : String × String) :
    p ∈ dkeys (bs.foldl KCM.receiveVerification s).verifications ↔
      p ∈ dkeys s.verifications ∨ ∃ b ∈ bs, p = (b.ownerId, b.designatedId) ∧ b.ownerId ≠ b.designatedId := by
  induction bs generalizing s with
  | nil => simp
  | cons b bs ih =>
    rw [List.foldl_cons, ih]
    by_cases hb : b.ownerId = b.designatedId
    · have : s.receiveVerification b = s := by simp [KCM.receiveVerification, hb]
      rw [this]; simp [hb]
    · have hs : (s.receiveVerification b).verifications
          = dset s.verifications (b.ownerId, b.designatedId) b := by
        simp [KCM.receiveVerification, hb]
      rw [hs, dkeys_dset]
      by_cases hm : (b.ownerId, b.designatedId) ∈ dkeys s.verifications
      · rw [if_pos hm]
        simp only [List.exists_mem_cons_iff]
        constructor
        · rintro (h | h)
          · exact Or.inl h
          · exact Or.inr (Or.inr h)
        · rintro (h | ⟨rfl, -⟩ | h)
          · exact Or.inl h
          · exact Or.inl hm
          · exact Or.inr h
      · rw [if_neg hm]
        simp [hb, or_assoc]

/-- The number of ordered pairs of distinct participants. -/
theorem pairs_length {ids : List String} (hn : ids.Nodup) {pairs : List (String × String)} (hp : pairs.Nodup)
    (h : ∀ a b, (a, b) ∈ pairs ↔ a ∈ ids ∧ b ∈ ids ∧ a ≠ b) :
    (pairs.length : Int) = ((ids.length : Int) - 1) * ids.length := by
  have : pairs.toFinset = ids.toFinset.offDiag := by
    ext ⟨a, b⟩
    rw [Finset.mem_offDiag]
    simp [h]
  have hc := congrArg Finset.card this
  rw [Finset.offDiag_card, List.toFinset_card_of_nodup hn, List.toFinset_card_of_nodup hp] at hc
  have h2 : ids.length ≤ ids.length * ids.length := Nat.le_mul_self _
  zify [h2] at hc
  rw [hc]; ring

/-- C43 An honest ceremony publishes: if `n` guardians with different ids announce, then backups between exactly the
announced guardians arrive (in any chunks and order, with or without backups for oneself), one at least for every
pair, and then likewise the verifications, all successful, the mediator publishes the product of the keys, with the hash of all commitments. -/
theorem C43_honest_ceremony_publishes (hp : 1 < E.P.p) (me : String) (quorum : Int) (ks : List ElectionPublicKey)
    (hnd : (ks.map (·.ownerId)).Nodup) (bss : List (List Backup)) (vss : List (List Verification))
    (hb : ∀ b ∈ bss.flatten, b.ownerId ∈ ks.map (·.ownerId) ∧ b.designatedId ∈ ks.map (·.ownerId))
    (hball : ∀ o ∈ ks.map (·.ownerId), ∀ x ∈ ks.map (·.ownerId), o ≠ x →
      ∃ b ∈ bss.flatten, b.ownerId = o ∧ b.designatedId = x)
    (hv : ∀ v ∈ vss.flatten, v.ownerId ∈ ks.map (·.ownerId) ∧ v.designatedId ∈ ks.map (·.ownerId) ∧
      v.verified = true)
    (hvall : ∀ o ∈ ks.map (·.ownerId), ∀ x ∈ ks.map (·.ownerId), o ≠ x →
      ∃ v ∈ vss.flatten, v.ownerId = o ∧ v.designatedId = x) :
    (KCM.run E.P me ⟨ks.length, quorum⟩ (ks.map KCMOp.announce ++ bss.map KCMOp.receiveBackups ++
      vss.map KCMOp.receiveVerifications)).publishJointKey E = some ⟨(ks.map (·.key)).prod % E.P.p,
        hashElems E [.list ((ks.flatMap (·.commitments)).map HArg.elem)]⟩ := by
  have hrun : ∀ l, KCM.run E.P me ⟨ks.length, quorum⟩ l = l.foldl (KCM.step E.P) (KCM.init me ⟨ks.length, quorum⟩) :=
    fun _ => rfl
  set ids := ks.map (·.ownerId) with hids
  have hlen : ids.length = ks.length := List.length_map _
  -- announcements
  set s1 : KCM := ⟨me, ⟨ks.length, quorum⟩, ks.map (fun k => (k.ownerId, k)), [], []⟩ with hs1
  have e1 : (ks.map KCMOp.announce).foldl (KCM.step E.P) (KCM.init me ⟨ks.length, quorum⟩) = s1 := by
    rw [foldl_announce]
    simp only [KCM.init]
    rw [foldl_dset_fresh (fun k : ElectionPublicKey => k.ownerId) ks [] hnd (by simp [dkeys])]
    rfl
  have a1 : s1.allAnnounced = true := by simp [hs1, KCM.allAnnounced]
  -- backups
  set s2 := bss.flatten.foldl KCM.receiveBackup s1 with hs2
  obtain ⟨-, f2, f3, f4⟩ := foldl_receiveBackup_fields bss.flatten s1
  rw [← hs2] at f2 f3 f4
  have k2 : (s2.backups.length : Int) = ((ks.length : Int) - 1) * ks.length := by
    have hnd2 := (backups_foldl bss.flatten s1 List.nodup_nil).1
    have := pairs_length hnd hnd2 (fun a b => by
      rw [foldl_receiveBackup_keys]
      constructor
      · rintro (h | ⟨c, hc, h, hne⟩)
        · simp [hs1, dkeys] at h
        · cases h
          exact ⟨(hb c hc).1, (hb c hc).2, hne⟩
      · rintro ⟨ha, hb', hne⟩
        obtain ⟨c, hc, rfl, rfl⟩ := hball a ha b hb' hne
        exact Or.inr ⟨c, hc, rfl, hne⟩)
    rw [dkeys, List.length_map, hlen] at this
    exact this
  have a2 : s2.allBackupsAvailable = true := by
    simp only [KCM.allBackupsAvailable, KCM.allAnnounced, KCM.enoughBackups, f2, f3, k2]
    simp [hs1]
  -- verifications
  set s3 := vss.flatten.foldl KCM.receiveVerification s2 with hs3
  obtain ⟨-, g2, g3, g4⟩ := foldl_receiveVerification_fields vss.flatten s2
  rw [← hs3] at g2 g3 g4
  have hv2 : s2.verifications = [] := by rw [f4, hs1]
  have hnd3 := verifications_foldl vss.flatten s2 (by rw [hv2]; exact List.nodup_nil)
  have k3 : (s3.verifications.length : Int) = ((ks.length : Int) - 1) * ks.length := by
    have := pairs_length hnd hnd3.1 (fun a b => by
      rw [foldl_receiveVerification_keys]
      constructor
      · rintro (h | ⟨c, hc, h, hne⟩)
        · simp [hv2, dkeys] at h
        · cases h
          exact ⟨(hv c hc).1, (hv c hc).2.1, hne⟩
      · rintro ⟨ha, hb', hne⟩
        obtain ⟨c, hc, rfl, rfl⟩ := hvall a ha b hb' hne
        exact Or.inr ⟨c, hc, rfl, hne⟩)
    rw [dkeys, List.length_map, hlen] at this
    exact this
  rw [hrun, List.foldl_append, List.foldl_append, e1, foldl_receiveBackups bss s1 a1, ← hs2,
    foldl_receiveVerifications vss s2 a2, ← hs3, publishJointKey_eq_some, allBackupsVerified_iff]
  refine ⟨⟨?_, ?_, ?_, ?_⟩, ?_⟩
  · rw [g3, f3, g2, f2, hs1]; simp
  · rw [g4, g2, f2, k2, hs1]
  · rw [g2, f2, k3, hs1]
  · intro e he
    rcases hnd3.2 e he with h | ⟨h, -⟩
    · rw [hv2] at h; cases h
    · exact (hv _ h).2.2
  · rw [g3, f3, hs1]
    simp only [List.map_map, Function.comp_def, List.map_id']
    rw [combineElectionKeys, combinePublicKeys_prod hp]

/-- C43 The published key does not depend on the order of the announcements. -/
theorem C43_key_order_independent (ks ks' : List ElectionPublicKey) (h : ks.Perm ks') (hp : 1 < E.P.p) :
    (combineElectionKeys E ks).jointPublicKey = (combineElectionKeys E ks').jointPublicKey := by
  simp only [combineElectionKeys, combinePublicKeys_prod hp, (h.map (·.key)).prod_eq]

/-- Two guardian keys for the witnesses. -/
def wKeyA : ElectionPublicKey := ⟨"a", 1, 16, [16], []⟩
/-- The second. -/
def wKeyB : ElectionPublicKey := ⟨"b", 2, 101, [101], []⟩
/-- Another key of the first guardian. -/
def wKeyA' : ElectionPublicKey := ⟨"a", 1, 101, [101], []⟩
/-- A backup for the pair. -/
def wBackup (o x : String) : Backup := ⟨o, x, 1, ⟨1, [], []⟩⟩
/-- A complete ceremony of two guardians. -/
def wCeremony : List KCMOp :=
  [.announce wKeyA, .announce wKeyB, .receiveBackups [wBackup "a" "a", wBackup "a" "b", wBackup "b" "a"],
    .receiveVerifications [⟨"a", "b", "b", true⟩], .receiveVerifications [⟨"b", "a", "a", true⟩]]

/-- C43 The commitment hash published with the key, unlike the key, depends on the order in which the guardians
announced: the hash covers the commitments in announcement order, not in the order of the guardians' sequence
numbers. -/
theorem C43_commitment_hash_order_fails : ∃ (E : Env) (ks ks' : List ElectionPublicKey), E.P.Valid ∧ ks.Perm ks' ∧
    (combineElectionKeys E ks).commitmentHash ≠ (combineElectionKeys E ks').commitmentHash :=
  ⟨toyEnv, [wKeyA, wKeyB], [wKeyB, wKeyA], extraSmall_valid, List.Perm.swap _ _ _, by decide +kernel⟩

/-- C43 Announcements are accepted at any time: a guardian that announces a different key after all backups were
verified changes the joint key that is published, although no backup of the new key was ever checked. -/
theorem C43_reannouncement_fails : ∃ (E : Env) (ops : List KCMOp) (k : ElectionPublicKey) (jk jk' : ElectionJointKey),
    (KCM.run E.P "m" ⟨2, 2⟩ ops).publishJointKey E = some jk ∧
    (KCM.run E.P "m" ⟨2, 2⟩ (ops ++ [.announce k])).publishJointKey E = some jk' ∧
    jk.jointPublicKey ≠ jk'.jointPublicKey :=
  ⟨toyEnv, wCeremony, wKeyA', combineElectionKeys toyEnv [wKeyA, wKeyB], combineElectionKeys toyEnv [wKeyA', wKeyB],
    by decide +kernel, by decide +kernel, by decide +kernel⟩

-- the ceremony of the witness publishes the product 16 * 101 mod 157 = 46
example : ((KCM.run extraSmall "m" ⟨2, 2⟩ wCeremony).publishJointKey toyEnv).map (·.jointPublicKey) = some 46 := by
  decide +kernel
-- without the last verification nothing is published
example : (KCM.run extraSmall "m" ⟨2, 2⟩ wCeremony.dropLast).publishJointKey toyEnv = none := by decide +kernel
-- a failed verification blocks publication
example : (KCM.run extraSmall "m" ⟨2, 2⟩ (wCeremony ++ [.receiveVerifications [⟨"a", "b", "b", false⟩]])).publishJointKey
    toyEnv = none := by decide +kernel
example : (KCM.run extraSmall "m" ⟨2, 2⟩ wCeremony).allBackupsAvailable = true := by decide +kernel

/-! ### C44 -/

/-- C44 If every backup and every verification sent since the last reset names announced guardians, then, when
the mediator reports all backups verified, every ordered pair of different participants has a backup and a
successful verification that were sent.  (Without the hypothesis the claim fails: `C44_fails`.) -/
theorem C44_every_pair_covered_partial {P : Params} (me : String) (d : CeremonyDetails) (ops : List KCMOp)
    (hb : ∀ b ∈ sentBackups ops, (announcedKey ops b.ownerId).isSome ∧ (announcedKey ops b.designatedId).isSome)
    (hv : ∀ v ∈ sentVerifications P me ops,
      (announcedKey ops v.ownerId).isSome ∧ (announcedKey ops v.designatedId).isSome)
    (h : (KCM.run P me d ops).allBackupsVerified = true) (x y : String)
    (hx : (announcedKey ops x).isSome) (hy : (announcedKey ops y).isSome) (hxy : x ≠ y) :
    (∃ b ∈ sentBackups ops, b.ownerId = x ∧ b.designatedId = y) ∧
    (∃ v ∈ sentVerifications P me ops, v.ownerId = x ∧ v.designatedId = y ∧ v.verified = true) := by
  have hr := records_run P me d ops
  obtain ⟨h1, h2, h3, h4⟩ := (allBackupsVerified_iff _).1 h
  rw [← h1] at h2 h3
  have hlen : (dkeys (KCM.run P me d ops).keys).length = (KCM.run P me d ops).keys.length := List.length_map _
  rw [← hlen] at h2 h3
  have hin : ∀ i, (announcedKey ops i).isSome → i ∈ dkeys (KCM.run P me d ops).keys := by
    intro i hi
    rw [← hr.keys] at hi
    exact (mem_dkeys_iff _ _).2 (Option.isSome_iff_exists.1 hi)
  constructor
  · have hlb : (dkeys (KCM.run P me d ops).backups).length = (KCM.run P me d ops).backups.length := List.length_map _
    rw [← hlb] at h2
    have := all_pairs hr.keysNodup hr.backupsNodup (fun p hp' => by
      obtain ⟨e, he, rfl⟩ := List.mem_map.1 hp'
      obtain ⟨a1, a2, a3⟩ := hr.backups e he
      rw [a2]
      exact ⟨hin _ (hb _ a1).1, hin _ (hb _ a1).2, a3⟩) h2 x y (hin x hx) (hin y hy) hxy
    obtain ⟨e, he, hxy'⟩ := List.mem_map.1 this
    obtain ⟨a1, a2, a3⟩ := hr.backups e he
    rw [a2] at hxy'
    cases hxy'
    exact ⟨e.2, a1, rfl, rfl⟩
  · have hlb : (dkeys (KCM.run P me d ops).verifications).length = (KCM.run P me d ops).verifications.length :=
      List.length_map _
    rw [← hlb] at h3
    have := all_pairs hr.keysNodup hr.verificationsNodup (fun p hp' => by
      obtain ⟨e, he, rfl⟩ := List.mem_map.1 hp'
      obtain ⟨a1, a2, a3⟩ := hr.verifications e he
      rw [a2]
      exact ⟨hin _ (hv _ a1).1, hin _ (hv _ a1).2, a3⟩) h3 x y (hin x hx) (hin y hy) hxy
    obtain ⟨e, he, hxy'⟩ := List.mem_map.1 this
    obtain ⟨a1, a2, a3⟩ := hr.verifications e he
    rw [a2] at hxy'
    cases hxy'
    exact ⟨e.2, a1, rfl, rfl, h4 e he⟩

/-- A ceremony in which guardian `a` sends a backup and the verification for an invented guardian `x`; nothing was
sent for the pair `(b, a)`. -/
def wInvented : List KCMOp :=
  [.announce wKeyA, .announce wKeyB, .receiveBackups [wBackup "a" "b", wBackup "a" "x"],
    .receiveVerifications [⟨"a", "b", "b", true⟩, ⟨"a", "x", "x", true⟩]]

/-- C44 The claim fails for the code as it is: the mediator counts backups and verifications without checking that
they name announced guardians, so messages for an invented guardian stand in for missing ones.  Here no backup was
sent for the pair `(b, a)`, and still the mediator reports all backups verified and publishes. -/
theorem C44_fails : ∃ (P : Params) (ops : List KCMOp), (KCM.run P "m" ⟨2, 2⟩ ops).allBackupsVerified = true ∧
    (announcedKey ops "b").isSome ∧ (announcedKey ops "a").isSome ∧
    ¬ ∃ b ∈ sentBackups ops, b.ownerId = "b" ∧ b.designatedId = "a" :=
  ⟨extraSmall, wInvented, by decide +kernel, by decide +kernel, by decide +kernel, by decide +kernel⟩

-- the hypotheses of the partial theorem hold for the complete ceremony of two
example : (∀ b ∈ sentBackups wCeremony,
      (announcedKey wCeremony b.ownerId).isSome ∧ (announcedKey wCeremony b.designatedId).isSome) ∧
    (∀ v ∈ sentVerifications extraSmall "m" wCeremony,
      (announcedKey wCeremony v.ownerId).isSome ∧ (announcedKey wCeremony v.designatedId).isSome) ∧
    (KCM.run extraSmall "m" ⟨2, 2⟩ wCeremony).allBackupsVerified = true := by decide +kernel

/-! ### C45 -/

/-- C45 Before all guardians announced, `share_backups` returns `None`. -/
theorem C45_none_before_announced_partial (s : KCM) (r : Option String) (h : s.allAnnounced = false) :
    s.shareBackups r = .ok none := by
  simp [KCM.shareBackups, h]

theorem mapM_ok_of {α β : Type} (f : α → R β) (g : α → β) (l : List α) (h : ∀ x ∈ l, f x = .ok (g x)) :
    l.mapM f = .ok (l.map g) := by
  induction l with
  | nil => rfl
  | cons a l ih =>
    rw [List.mapM_cons, h a (List.mem_cons_self ..), ih (fun x hx => h x (List.mem_cons_of_mem _ hx))]
    rfl

/-- C45 Once every pair of different announced guardians has a backup, `share_backups` for a guardian does not
raise and returns exactly the backups recorded for that guardian, one per other announced guardian in the order of
their first announcements. -/
theorem C45_complete_shared_partial {P : Params} (me : String) (d : CeremonyDetails) (ops : List KCMOp)
    (hann : (KCM.run P me d ops).allAnnounced = true) (id : String) (hid : id ≠ "")
    (hall : ∀ o, (announcedKey ops o).isSome → o ≠ id →
      (dget (KCM.run P me d ops).backups (o, id)).isSome) :
    ∃ bs, (KCM.run P me d ops).shareBackups (some id) = .ok (some bs) ∧
      bs.map (·.ownerId) = ((announced ops).map (·.ownerId)).reverse.dedup.reverse.filter (fun o => decide (id ≠ o)) ∧
      ∀ b ∈ bs, b ∈ sentBackups ops ∧ b.designatedId = id := by
  have hr := records_run P me d ops
  obtain ⟨-, hkeys⟩ := keys_eq_participants P me d ops
  set s := KCM.run P me d ops with hs
  have hsome : ∀ o ∈ (dkeys s.keys).filter (fun other => decide (id ≠ other)),
      ∃ b, dget s.backups (o, id) = some b := by
    intro o ho
    rw [List.mem_filter] at ho
    have h1 : (announcedKey ops o).isSome := by rw [← hr.keys]; exact Option.isSome_iff_exists.2 ((mem_dkeys_iff _ _).1 ho.1)
    have h2 : o ≠ id := fun h => (of_decide_eq_true ho.2) h.symm
    exact Option.isSome_iff_exists.1 (hall o h1 h2)
  let g : String → Backup := fun o => (dget s.backups (o, id)).getD (wBackup o id)
  have hg : ∀ o ∈ (dkeys s.keys).filter (fun other => decide (id ≠ other)), dgetR s.backups (o, id) = .ok (g o) := by
    intro o ho
    obtain ⟨b, hb⟩ := hsome o ho
    simp [dgetR, g, hb]
  refine ⟨((dkeys s.keys).filter (fun other => decide (id ≠ other))).map g, ?_, ?_, ?_⟩
  · simp only [KCM.shareBackups, hann, Bool.not_true, Bool.false_eq_true, if_false, if_neg hid,
      KCM.shareBackupsTo, mapM_ok_of _ g _ hg]
    rfl
  · rw [List.map_map, ← hkeys]
    conv_rhs => rw [← List.map_id ((dkeys s.keys).filter _)]
    refine List.map_congr_left (fun o ho => ?_)
    obtain ⟨b, hb⟩ := hsome o ho
    have := (hr.backups _ (mem_of_dget hb)).2.1
    simp only [Function.comp, g, hb, Option.getD_some, _root_.id]
    exact (congrArg Prod.fst this).symm
  · intro b hb
    obtain ⟨o, ho, rfl⟩ := List.mem_map.1 hb
    obtain ⟨b, hb⟩ := hsome o ho
    have := hr.backups _ (mem_of_dget hb)
    simp only [g, hb, Option.getD_some]
    exact ⟨this.1, (congrArg Prod.snd this.2.1).symm⟩

/-- C45 The claim fails for the code as it is (`not self.all_backups_available` lacks the call): with some backups
missing, asking for the backups of one guardian raises `KeyError`, and asking without a guardian returns an
incomplete list instead of `None`. -/
theorem C45_fails : ∃ s : KCM, s.allBackupsAvailable = false ∧
    s.shareBackups (some "a") = .error .key ∧ s.shareBackups none = .ok (some [wBackup "a" "b"]) :=
  ⟨KCM.run extraSmall "m" ⟨2, 2⟩ [.announce wKeyA, .announce wKeyB, .receiveBackups [wBackup "a" "b"]],
    by decide +kernel, by decide +kernel, by decide +kernel⟩

example : (KCM.run extraSmall "m" ⟨2, 2⟩ wCeremony).shareBackups (some "a") = .ok (some [wBackup "b" "a"]) := by
  decide +kernel

/-! ### C46 -/

/-- C46 What a successful challenge guarantees: the mediator records a successful verification for the challenged
pair only if the revealed value lies, at the order named in the challenge, on the polynomial with the commitments
named in the challenge.  (That these commitments are the announced ones, and the order that of the designated
guardian, is not checked: `C46_fails`.) -/
theorem C46_challenge_partial {P : Params} (hv : P.Valid) (s s' : KCM) (c : BackupChallenge) (v : Verification)
    (as : List Nat) (x : Nat) (hcom : c.commitments = as.map (fun a => P.g ^ a % P.p)) (hx : c.designatedOrder = x)
    (hval : c.value < P.q) (hpow : ∀ i < as.length, x ^ i < P.p)
    (h : s.verifyChallenge P c = (.ok v, s')) (hver : v.verified = true) :
    c.value = polyAt as x % P.q ∧ v = ⟨c.ownerId, c.designatedId, s.id, true⟩ ∧
      (c.ownerId ≠ c.designatedId → s'.verifications = dset s.verifications (c.ownerId, c.designatedId) v) := by
  unfold KCM.verifyChallenge verifyChallenge at h
  rw [hx, hcom] at h
  simp only [bind, Except.bind, pure, Except.pure] at h
  cases hc : verifyCoordinate P c.value x (as.map (fun a => P.g ^ a % P.p)) with
  | error => rw [hc] at h; simp at h
  | ok b =>
    rw [hc] at h
    simp only [Prod.mk.injEq, Except.ok.injEq] at h
    obtain ⟨h1, h2⟩ := h
    subst h1
    simp only at hver
    subst hver
    refine ⟨C11_accepted_is_point_partial hv as x c.value hval hpow hc, rfl, fun hne => ?_⟩
    rw [← h2]
    simp [KCM.receiveVerification, hne]

/-- C46 A failed or raising challenge leaves the mediator as it was. -/
theorem C46_failed_challenge_records_nothing {P : Params} (s : KCM) (c : BackupChallenge)
    (h : ∀ v, (s.verifyChallenge P c).1 = .ok v → v.verified = false) : (s.verifyChallenge P c).2 = s := by
  unfold KCM.verifyChallenge at h ⊢
  cases hv : verifyChallenge P s.id c with
  | error => rfl
  | ok v =>
    rw [hv] at h
    have := h v rfl
    simp [this]

/-- C46 The answer to a challenge a guardian makes from its own polynomial succeeds (powers of the sequence order
below `p`, as in C10). -/
theorem C46_honest_challenge_succeeds_partial (hv : E.P.Valid) (s : KCM) (b : Backup) (rands : List (Nat × Nat))
    (x : Nat) (hx : b.designatedOrder = x) (hxq : x < E.P.q) (hpow : ∀ i < rands.length, x ^ i < E.P.p) :
    ∃ c, generateChallenge E.P b (generatePolynomial E rands) = .ok c ∧
      (s.verifyChallenge E.P c).1 = .ok ⟨b.ownerId, b.designatedId, s.id, true⟩ := by
  have hc := C10_coordinate_value E hv rands x hxq
  have hver := C10_honest_share_accepted_partial E hv rands x _ hpow hc
  refine ⟨⟨b.ownerId, b.designatedId, b.designatedOrder, polyAt (rands.map Prod.fst) x % E.P.q,
    getCommitments (generatePolynomial E rands), getProofs (generatePolynomial E rands)⟩, ?_, ?_⟩
  · simp only [generateChallenge, hx, hc, bind, Except.bind, pure, Except.pure]
  · simp only [KCM.verifyChallenge, verifyChallenge, hx, hver, bind, Except.bind, pure, Except.pure]

/-- A challenge with invented commitments (those of the constant polynomial 3). -/
def wChallenge : BackupChallenge := ⟨"a", "b", 2, 3, [16 ^ 3 % 157], []⟩

/-- C46 The claim fails for the code as it is: the commitments come with the challenge and are not compared with
those the challenged guardian announced.  Guardian `a` announced the commitment `16`; the value `3` does not lie on
its polynomial, and the mediator records a successful verification. -/
theorem C46_fails : ∃ (ops : List KCMOp) (c : BackupChallenge), announcedKey ops c.ownerId = some wKeyA ∧
    verifyCoordinate extraSmall c.value c.designatedOrder wKeyA.commitments = .ok false ∧
    dget (KCM.run extraSmall "m" ⟨2, 2⟩ (ops ++ [.verifyChallenge c])).verifications ("a", "b")
      = some ⟨"a", "b", "m", true⟩ :=
  ⟨[.announce wKeyA, .announce wKeyB], wChallenge, by decide +kernel, by decide +kernel, by decide +kernel⟩

end EG
