import Verif.Props.Orchestrator
import Verif.Lemmas.GuiKeyCeremonyRace
import Verif.Lemmas.Decryption

/-!
# Lemmas: a key ceremony in the GUI that everybody joined goes through its phases
-/

namespace EG

variable {E : Env} {loads : Bytes → R (List Char)}

/-- The private record of a guardian right after it joined. -/
def startRecord (kp : ElectionKeyPair) : PrivateGuardianRecord :=
  ⟨kp.ownerId, kp, [], [(kp.ownerId, kp.share)], [], []⟩

/-- Everybody joined. -/
structure AllIn (d : KCDoc) (files : List (String × PrivateGuardianRecord)) (kps : List ElectionKeyPair) : Prop where
  count : d.guardianCount = kps.length
  joined : d.joined = kps.map (fun kp => kp.ownerId)
  keys : ∀ kp ∈ kps, d.findKey kp.ownerId = .ok kp.share
  files : ∀ kp ∈ kps, ∃ r, dget files kp.ownerId = some r ∧ r.electionKeys = kp ∧ r.backupsToShare = [] ∧
    r.guardianKeys = [(kp.ownerId, kp.share)] ∧ r.guardianBackups = []

/-- The backups that these guardians made. -/
structure BackupsBy (E : Env) (kps : List ElectionKeyPair) (made : List String) (bs : List Backup) : Prop where
  nodup : made.Nodup
  ids : ∀ x ∈ made, x ∈ kps.map (fun kp => kp.ownerId)
  good : ∀ b ∈ bs, ∃ kp ∈ kps, ∃ kp' ∈ kps, kp.ownerId ∈ made ∧ ∃ n, generateBackup E kp.ownerId kp.polynomial kp'.share n = .ok b
  all : ∀ x ∈ made, ∀ kp' ∈ kps, ∃ b ∈ bs, b.ownerId = x ∧ b.designatedId = kp'.ownerId
  length : bs.length = kps.length * made.length

/-- The verifications that these guardians made. -/
structure VerifiedBy (kps : List ElectionKeyPair) (done : List String) (vs : List Verification) : Prop where
  nodup : done.Nodup
  ids : ∀ x ∈ done, x ∈ kps.map (fun kp => kp.ownerId)
  good : ∀ v ∈ vs, v.ownerId ∈ kps.map (fun kp => kp.ownerId) ∧ v.designatedId ∈ done ∧ v.verified = true
  all : ∀ x ∈ done, ∀ kp ∈ kps, kp.ownerId ≠ x → ∃ v ∈ vs, v.ownerId = kp.ownerId ∧ v.designatedId = x
  length : vs.length = (kps.length - 1) * done.length

/-- The keys that are announced to everybody. -/
def sharedKeys (kps : List ElectionKeyPair) : List (String × List ElectionPublicKey) :=
  kps.map (fun kp => (kp.ownerId, (othersOf kps kp).map (fun kp' => kp'.share)))

/-- Backups shared with everybody. -/
structure SharedWith (kps : List ElectionKeyPair) (bs : List Backup) (sh : List (String × List Backup)) : Prop where
  ids : sh.map (fun e => e.1) = kps.map (fun kp => kp.ownerId)
  owners : ∀ e ∈ sh, e.2.map (fun b => b.ownerId) = (kps.map (fun kp => kp.ownerId)).filter (fun x => decide (e.1 ≠ x))
  mem : ∀ e ∈ sh, ∀ b ∈ e.2, b ∈ bs ∧ b.designatedId = e.1

/-- The document in each phase. -/
def AtPhase (E : Env) (kps : List ElectionKeyPair) (d : KCDoc) (files : List (String × PrivateGuardianRecord)) : KCPhase → Prop
  | .joined => AllIn d files kps ∧ d.otherKeys = [] ∧ d.backups = [] ∧ d.sharedBackups = [] ∧ d.verifications = [] ∧
      d.jointKey = none
  | .backups made => AllIn d files kps ∧ d.otherKeys = sharedKeys kps ∧ BackupsBy E kps made d.backups ∧
      d.sharedBackups = [] ∧ d.verifications = [] ∧ d.jointKey = none
  | .verifying done => AllIn d files kps ∧ d.otherKeys = sharedKeys kps ∧
      (∃ made, made.length = kps.length ∧ BackupsBy E kps made d.backups) ∧
      SharedWith kps d.backups d.sharedBackups ∧ VerifiedBy kps done d.verifications ∧ d.jointKey = none
  | .complete => AllIn d files kps ∧ d.state = .complete ∧ d.completed = true ∧
      ∃ jk, d.jointKey = some jk ∧ jk.jointPublicKey = (kps.map (fun kp => kp.share.key)).prod % E.P.p

theorem AllIn.mediator {d : KCDoc} {files : List (String × PrivateGuardianRecord)} {kps : List ElectionKeyPair}
    (h : AllIn d files kps) (hn : (kps.map (fun kp => kp.ownerId)).Nodup) :
    d.announceGuardians = .ok (mediator1 "mediator_1" ⟨kps.length, d.quorum⟩ kps) := by
  unfold KCDoc.announceGuardians
  have hm : ∀ (l : List ElectionKeyPair) (m : KCM), (∀ kp ∈ l, d.findKey kp.ownerId = .ok kp.share) →
      (l.map (fun kp => kp.ownerId)).foldlM (fun m id => do return m.announce (← d.findKey id)) m
        = (.ok ((l.map (fun kp => kp.share)).foldl KCM.announce m) : R KCM) := by
    intro l
    induction l with
    | nil => intro m _; rfl
    | cons kp l ih =>
      intro m hk
      rw [List.map_cons, List.foldlM_cons, hk kp List.mem_cons_self]
      exact ih _ (fun kp' h' => hk kp' (List.mem_cons_of_mem _ h'))
  rw [h.joined, hm kps _ h.keys]
  have hf := foldl_announce (E := toyEnv) (kps.map (fun kp => kp.share)) d.mediator
  rw [List.foldl_map] at hf
  have hf' : (kps.map (fun kp => kp.share)).foldl KCM.announce d.mediator = _ := hf
  rw [hf', foldl_dset_fresh (fun k : ElectionPublicKey => k.ownerId) _ _ (by rw [List.map_map]; exact hn)
    (by simp [KCDoc.mediator, KCM.init, dkeys])]
  simp only [KCDoc.mediator, KCM.init, mediator1, h.count, List.nil_append, List.map_map]
  rfl

theorem AllIn.congr {d d' : KCDoc} {files : List (String × PrivateGuardianRecord)} {kps : List ElectionKeyPair}
    (h : AllIn d files kps) (h1 : d'.guardianCount = d.guardianCount) (h2 : d'.joined = d.joined) (h3 : d'.keys = d.keys) :
    AllIn d' files kps where
  count := h1.trans h.count
  joined := h2.trans h.joined
  keys := fun kp hkp => by
    have := h.keys kp hkp
    unfold KCDoc.findKey at this ⊢
    rw [h3]
    exact this
  files := h.files

/-- Stage 2. -/
theorem AllIn.announce {d : KCDoc} {files : List (String × PrivateGuardianRecord)} {kps : List ElectionKeyPair}
    (h : AllIn d files kps) (hn : (kps.map (fun kp => kp.ownerId)).Nodup) : d.announce = .ok (sharedKeys kps) := by
  unfold KCDoc.announce
  rw [h.mediator hn, h.joined]
  show List.mapM _ (kps.map _) = _
  refine mapM_map_ok _ _ _ kps (fun kp hkp => ?_)
  simp only [KCM.shareAnnounced, KCM.allAnnounced, mediator1, List.length_map, beq_self_eq_true, Bool.not_true,
    Bool.false_eq_true, if_false]
  have hw : (dkeys (kps.map (fun kp => (kp.ownerId, kp.share)))).filter (fun id => decide (some id ≠ some kp.ownerId))
      = (othersOf kps kp).map (fun kp' => kp'.ownerId) := by
    unfold dkeys othersOf
    rw [List.map_map, List.filter_map]
    congr 1
    refine List.filter_congr (fun x _ => ?_)
    simp
  rw [hw]
  have hg : ((othersOf kps kp).map (fun kp' => kp'.ownerId)).mapM
      (fun id => dgetR (kps.map (fun kp => (kp.ownerId, kp.share))) id)
      = .ok ((othersOf kps kp).map (fun kp' => kp'.share)) := by
    refine mapM_map_ok _ _ _ _ (fun kp' hkp' => ?_)
    unfold dgetR
    rw [dget_of_mem (v := kp'.share) (by unfold dkeys; rw [List.map_map]; exact hn)
      (List.mem_map.2 ⟨kp', (List.mem_filter.1 hkp').1, rfl⟩)]
  simp only [bind, Except.bind, pure, Except.pure, hg, getOptional]

/-- The guardian that a stage loads. -/
theorem AllIn.load {d : KCDoc} {files : List (String × PrivateGuardianRecord)} {kps : List ElectionKeyPair}
    (h : AllIn d files kps) (hn : (kps.map (fun kp => kp.ownerId)).Nodup) (ho : d.otherKeys = sharedKeys kps)
    {kp : ElectionKeyPair} (hkp : kp ∈ kps) :
    ∃ g0 g, d.loadGuardian (dget files kp.ownerId) = .ok g0 ∧ d.loadOtherKeys kp.ownerId g0 = .ok g ∧
      g.electionKeys = kp ∧ g.guardianKeys = keysAfter kps kp ∧ g.backupsToShare = [] ∧ g.guardianBackups = [] := by
  obtain ⟨r, hr, h1, h2, h3, h4⟩ := h.files kp hkp
  refine ⟨Guardian.fromPrivateRecord r d.guardianCount d.quorum,
    ((othersOf kps kp).map (fun kp' => kp'.share)).foldl Guardian.saveKey
      (Guardian.fromPrivateRecord r d.guardianCount d.quorum), ?_, ?_, ?_⟩
  · rw [hr]; rfl
  · unfold KCDoc.loadOtherKeys KCDoc.otherKeysFor
    rw [ho]
    have : (sharedKeys kps).find? (fun e => e.1 == kp.ownerId)
        = some (kp.ownerId, (othersOf kps kp).map (fun kp' => kp'.share)) := by
      have hmem : (kp.ownerId, (othersOf kps kp).map (fun kp' => kp'.share)) ∈ sharedKeys kps :=
        List.mem_map.2 ⟨kp, hkp, rfl⟩
      refine find?_of_nodup (fun e : String × List ElectionPublicKey => e.1) ?_ hmem
      unfold sharedKeys
      rw [List.map_map]
      exact hn
    rw [this]
    rfl
  · have hg0 : (Guardian.fromPrivateRecord r d.guardianCount d.quorum).guardianKeys = [(kp.ownerId, kp.share)] := by
      simp [Guardian.fromPrivateRecord, Guardian.init, Guardian.saveKey, h1, h3, ElectionKeyPair.share, dset]
    rw [saveKeys_eq]
    refine ⟨h1, ?_, h2, h4⟩
    show ((othersOf kps kp).map (fun kp' => kp'.share)).foldl (fun x k => dset x k.ownerId k) _ = _
    rw [hg0, foldl_dset_fresh (fun k : ElectionPublicKey => k.ownerId)]
    · unfold keysAfter
      rw [List.map_map]
      rfl
    · rw [List.map_map]
      exact List.Nodup.sublist (List.Sublist.map _ List.filter_sublist) hn
    · intro k hk
      obtain ⟨kp', hkp', rfl⟩ := List.mem_map.1 hk
      have := (List.mem_filter.1 hkp').2
      simpa [dkeys, ElectionKeyPair.share] using this

theorem backupLoop_fresh (g : Guardian) (nonces : Nat → Nat) (ks : List ElectionPublicKey) (i : Nat)
    (hn : (ks.map (fun k => k.ownerId)).Nodup) (hd : ∀ k ∈ ks, k.ownerId ∉ dkeys g.backupsToShare)
    (h : ∀ k ∈ ks, ∀ n, ∃ b, generateBackup E g.id g.electionKeys.polynomial k n = .ok b) :
    ∃ bs, List.Forall₂ (fun k b => ∃ n, generateBackup E g.id g.electionKeys.polynomial k n = .ok b) ks bs ∧
      g.backupLoop E nonces ks i
        = (.ok true, { g with backupsToShare := g.backupsToShare ++ (ks.map (fun k => k.ownerId)).zip bs }) := by
  induction ks generalizing g i with
  | nil => exact ⟨[], .nil, by simp [Guardian.backupLoop]⟩
  | cons k ks ih =>
    rw [List.map_cons, List.nodup_cons] at hn
    obtain ⟨b, hb⟩ := h k List.mem_cons_self (nonces i)
    obtain ⟨bs, h1, h2⟩ := ih { g with backupsToShare := dset g.backupsToShare k.ownerId b } (i + 1) hn.2
      (fun k' hk' hc => by
        rw [dset_fresh _ (hd k List.mem_cons_self)] at hc
        simp only [dkeys, List.map_append, List.map_cons, List.map_nil, List.mem_append, List.mem_singleton] at hc
        rcases hc with hc | hc
        · exact hd k' (List.mem_cons_of_mem _ hk') hc
        · exact hn.1 (hc ▸ List.mem_map_of_mem hk'))
      (fun k' hk' => h k' (List.mem_cons_of_mem _ hk'))
    refine ⟨b :: bs, .cons ⟨_, hb⟩ h1, ?_⟩
    rw [Guardian.backupLoop, hb]
    dsimp only
    rw [h2, dset_fresh _ (hd k List.mem_cons_self)]
    simp

theorem keysAfter_ids {kps : List ElectionKeyPair} (hn : (kps.map (fun kp => kp.ownerId)).Nodup) (kp : ElectionKeyPair) :
    (((keysAfter kps kp).map (·.2)).map (fun k => k.ownerId)).Nodup := by
  unfold keysAfter
  simp only [List.map_cons, List.map_map, List.nodup_cons]
  constructor
  · intro hc
    obtain ⟨kp', hkp', h⟩ := List.mem_map.1 hc
    have := (List.mem_filter.1 hkp').2
    simp only [decide_eq_true_eq] at this
    exact this h
  · exact List.Nodup.sublist (List.Sublist.map _ List.filter_sublist) hn

theorem keysAfter_mem {kps : List ElectionKeyPair} {kp : ElectionKeyPair} (hkp : kp ∈ kps) {k : ElectionPublicKey}
    (h : k ∈ (keysAfter kps kp).map (·.2)) : ∃ kp' ∈ kps, k = kp'.share := by
  unfold keysAfter at h
  simp only [List.map_cons, List.map_map, List.mem_cons] at h
  rcases h with rfl | h
  · exact ⟨kp, hkp, rfl⟩
  · obtain ⟨kp', hkp', h⟩ := List.mem_map.1 h
    exact ⟨kp', (List.mem_filter.1 hkp').1, h.symm⟩

theorem mem_keysAfter {kps : List ElectionKeyPair} (hn : (kps.map (fun kp => kp.ownerId)).Nodup)
    {kp kp' : ElectionKeyPair} (hkp : kp ∈ kps) (h : kp' ∈ kps) : kp'.share ∈ (keysAfter kps kp).map (·.2) :=
  List.mem_map.2 ⟨_, mem_of_dget (keysAfter_dget hn hkp h), rfl⟩

theorem forall₂_length_eq {α β : Type} {p : α → β → Prop} {l : List α} {r : List β} (h : List.Forall₂ p l r) :
    l.length = r.length := h.length_eq

/-- Honest backups can be made. -/
theorem Team.backup_ok (hv : E.P.Valid) (hlen : HmacLen E) (hl : ReadsCoordinate loads) (hq : E.P.q ≤ 256 ^ 246)
    {quorum : Nat} {rands : String → List (Nat × Nat)} {kps : List ElectionKeyPair} (ht : Team E quorum rands kps)
    {kp kp' : ElectionKeyPair} (hkp : kp ∈ kps) (hkp' : kp' ∈ kps) (n : Nat) :
    ∃ b, generateBackup E kp.ownerId kp.polynomial kp'.share n = .ok b ∧
      verifyBackup E loads kp'.ownerId b kp.share kp' = .ok ⟨kp.ownerId, kp'.ownerId, kp'.ownerId, true⟩ := by
  obtain ⟨h1, h2, h3⟩ := ht.orders kp' hkp'
  have hg := ht.generated kp' hkp'
  rw [← Int.toNat_of_nonneg h1] at hg
  exact C47_honest_verified_partial hv hlen loads hl hq _ _ _ _ h2 _ _ _ _ n (ht.generated kp hkp) hg
    (by rw [ht.coefficients kp hkp]; exact h3)

/-- Stage 3. -/
theorem AllIn.makeBackups (hv : E.P.Valid) (hlen : HmacLen E) (hl : ReadsCoordinate loads) (hq : E.P.q ≤ 256 ^ 246)
    {quorum : Nat} {rands : String → List (Nat × Nat)} {kps : List ElectionKeyPair} (ht : Team E quorum rands kps)
    {d : KCDoc} {files : List (String × PrivateGuardianRecord)} (h : AllIn d files kps) (ho : d.otherKeys = sharedKeys kps)
    {kp : ElectionKeyPair} (hkp : kp ∈ kps) (nonces : Nat → Nat) :
    ∃ bs, d.makeBackups E kp.ownerId (dget files kp.ownerId) nonces = .ok bs ∧ bs.length = kps.length ∧
      (∀ b ∈ bs, ∃ kp' ∈ kps, ∃ n, generateBackup E kp.ownerId kp.polynomial kp'.share n = .ok b) ∧
      ∀ kp' ∈ kps, ∃ b ∈ bs, b.ownerId = kp.ownerId ∧ b.designatedId = kp'.ownerId := by
  obtain ⟨g0, g, hg0, hg, e1, e2, e3, e4⟩ := h.load ht.ids ho hkp
  have hgid : g.id = kp.ownerId := by unfold Guardian.id; rw [e1]
  obtain ⟨bs, h1, h2⟩ := backupLoop_fresh (E := E) g nonces ((keysAfter kps kp).map (·.2)) 0 (keysAfter_ids ht.ids kp)
    (by rw [e3]; intro k _ hc; cases hc)
    (fun k hk n => by
      obtain ⟨kp', hkp', rfl⟩ := keysAfter_mem hkp hk
      obtain ⟨b, hb, -⟩ := ht.backup_ok hv hlen hl hq hkp hkp' n
      exact ⟨b, by rw [hgid, e1]; exact hb⟩)
  rw [hgid, e1] at h1
  have hblen := h1.length_eq
  refine ⟨bs, ?_, ?_, ?_, ?_⟩
  · unfold KCDoc.makeBackups
    simp only [hg0, hg, bind, Except.bind, pure, Except.pure]
    unfold Guardian.generateBackups
    rw [e2, h2]
    show Except.ok (Guardian.shareBackups _) = _
    unfold Guardian.shareBackups
    rw [e3]
    show Except.ok (((List.map _ _).zip bs).map (·.2)) = _
    rw [List.map_snd_zip]
    rw [List.length_map]; exact hblen.symm.le
  · rw [← hblen, List.length_map, keysAfter_length ht.ids hkp]
  · intro b hb
    obtain ⟨k, hk, n, hn⟩ := forall₂_mem_right h1 hb
    obtain ⟨kp', hkp', rfl⟩ := keysAfter_mem hkp hk
    exact ⟨kp', hkp', n, hn⟩
  · intro kp' hkp'
    obtain ⟨b, hb, n, hn⟩ := forall₂_mem_left h1 (mem_keysAfter ht.ids hkp hkp')
    exact ⟨b, hb, generateBackup_ids hn⟩

theorem mapM_ok_forall₂ {α β : Type} {f : α → R β} {p : α → β → Prop} (l : List α) (h : ∀ x ∈ l, ∃ y, f x = .ok y ∧ p x y) :
    ∃ r, l.mapM f = .ok r ∧ List.Forall₂ p l r := by
  induction l with
  | nil => exact ⟨[], rfl, .nil⟩
  | cons x l ih =>
    obtain ⟨y, h1, h2⟩ := h x List.mem_cons_self
    obtain ⟨r, h3, h4⟩ := ih (fun z hz => h z (List.mem_cons_of_mem _ hz))
    refine ⟨y :: r, ?_, .cons h2 h4⟩
    rw [List.mapM_cons, h1]
    simp only [bind, Except.bind, pure, Except.pure, h3]

/-- All guardians have made their backups. -/
theorem full_mem {l m : List String} (hm : m.Nodup) (hs : ∀ x ∈ m, x ∈ l) (hlen : m.length = l.length) :
    ∀ x ∈ l, x ∈ m :=
  fun _ hx => ((hm.subperm hs).perm_of_length_le hlen.ge).symm.subset hx

/-- Stage 4. -/
theorem AllIn.shareBackups {quorum : Nat} {rands : String → List (Nat × Nat)} {kps : List ElectionKeyPair}
    (ht : Team E quorum rands kps) {d : KCDoc} {files : List (String × PrivateGuardianRecord)} (h : AllIn d files kps)
    {made : List String} (hm : made.length = kps.length) (hb : BackupsBy E kps made d.backups) :
    ∃ sh, d.shareBackups = .ok sh ∧ SharedWith kps d.backups sh := by
  have hfull := full_mem hb.nodup hb.ids (by rw [hm, List.length_map])
  unfold KCDoc.shareBackups
  rw [h.mediator ht.ids, h.joined]
  simp only [bind, Except.bind, pure, Except.pure]
  set m := mediator1 "mediator_1" ⟨kps.length, d.quorum⟩ kps with hmdef
  have hann : m.allAnnounced = true := by simp [hmdef, mediator1, KCM.allAnnounced]
  have hrec : m.receiveBackups d.backups = d.backups.foldl KCM.receiveBackup m := by simp [KCM.receiveBackups, hann]
  obtain ⟨-, f2, f3, -⟩ := foldl_receiveBackup_fields d.backups m
  have hmb := (backups_foldl d.backups m List.nodup_nil).2
  have hmk := fun p => foldl_receiveBackup_keys d.backups m p
  rw [hrec]
  set m2 := d.backups.foldl KCM.receiveBackup m with hm2
  have hann2 : m2.allAnnounced = true := by
    simp only [KCM.allAnnounced, f2, f3]
    exact hann
  have hk2 : dkeys m2.keys = kps.map (fun kp => kp.ownerId) := by
    rw [f3]
    simp [hmdef, mediator1, dkeys]
  obtain ⟨sh, hsh, hall⟩ := mapM_ok_forall₂ (p := fun id e => e.1 = id ∧
      e.2.map (fun b => b.ownerId) = (kps.map (fun kp => kp.ownerId)).filter (fun x => decide (id ≠ x)) ∧
      ∀ b ∈ e.2, b ∈ d.backups ∧ b.designatedId = id)
    (f := fun id => (do
      match ← m2.shareBackups (some id) with
      | none => .error .value
      | some bs => return (id, bs) : R (String × List Backup)))
    (kps.map (fun kp => kp.ownerId)) (fun id hid => by
      have hne : id ≠ "" := by
        obtain ⟨kp, hkp, rfl⟩ := List.mem_map.1 hid
        exact ht.named kp hkp
      obtain ⟨bs, hbs, hbs2⟩ := mapM_ok_forall₂ (p := fun other b => b.ownerId = other ∧ b.designatedId = id ∧ b ∈ d.backups)
        (f := fun other => dgetR m2.backups (other, id))
        ((kps.map (fun kp => kp.ownerId)).filter (fun x => decide (id ≠ x))) (fun other ho => by
          obtain ⟨ho1, ho2⟩ := List.mem_filter.1 ho
          simp only [decide_eq_true_eq] at ho2
          obtain ⟨kp, hkp, hkid⟩ := List.mem_map.1 hid
          obtain ⟨b, hb1, hb2, hb3⟩ := hb.all other (hfull other ho1) kp hkp
          have hin := (hmk (other, id)).2 (.inr ⟨b, hb1, by rw [hb2, hb3, hkid], by
            rw [hb2, hb3, hkid]; exact fun h => ho2 h.symm⟩)
          cases hg : dget m2.backups (other, id) with
          | none =>
            exfalso
            exact absurd hin ((dget_eq_none_iff _ _).1 hg)
          | some b' =>
            refine ⟨b', by unfold dgetR; rw [hg], ?_⟩
            rcases hmb _ (mem_of_dget hg) with h | ⟨h1, h2, -⟩
            · cases h
            · simp only [Prod.mk.injEq] at h2
              exact ⟨h2.1.symm, h2.2.symm, h1⟩)
      refine ⟨(id, bs), ?_, rfl, ?_, ?_⟩
      · have : m2.shareBackups (some id) = .ok (some bs) := by
          unfold KCM.shareBackups
          rw [hann2]
          simp only [Bool.not_true, Bool.false_eq_true, if_false, if_neg hne]
          unfold KCM.shareBackupsTo
          rw [hk2, hbs]
          rfl
        rw [this]
        rfl
      · clear hbs
        generalize (kps.map (fun kp => kp.ownerId)).filter (fun x => decide (id ≠ x)) = l at hbs2
        show bs.map _ = _
        induction hbs2 with
        | nil => rfl
        | cons h1 _ ih => rw [List.map_cons, ih, h1.1]
      · intro b hb'
        obtain ⟨_, _, -, h2, h3⟩ := forall₂_mem_right hbs2 hb'
        exact ⟨h3, h2⟩)
  refine ⟨sh, hsh, ?_, ?_, ?_⟩
  · clear hsh
    generalize hg : kps.map (fun kp => kp.ownerId) = l at hall
    clear hg
    clear * - hall
    generalize hl : (fun x (e : String × List Backup) => _) = P at hall
    have : ∀ x e, P x e → e.1 = x := by intro x e h; subst hl; exact h.1
    clear hl
    induction hall with
    | nil => rfl
    | cons h1 _ ih => rw [List.map_cons, ih, this _ _ h1]
  · intro e he
    obtain ⟨id, -, h1, h2, -⟩ := forall₂_mem_right hall he
    rw [h1]; exact h2
  · intro e he
    obtain ⟨id, -, h1, -, h3⟩ := forall₂_mem_right hall he
    rw [h1]; exact h3

/-- The loop of stage 5. -/
theorem checkSharedLoop_spec (hv : E.P.Valid) (hlen : HmacLen E) (hl : ReadsCoordinate loads) (hq : E.P.q ≤ 256 ^ 246)
    {quorum : Nat} {rands : String → List (Nat × Nat)} {kps : List ElectionKeyPair} (ht : Team E quorum rands kps)
    {made : List String} {all : List Backup} (hb : BackupsBy E kps made all) {kp : ElectionKeyPair} (hkp : kp ∈ kps)
    (bs : List Backup) (hbs : ∀ b ∈ bs, b ∈ all ∧ b.designatedId = kp.ownerId) (g : Guardian) (hg : g.electionKeys = kp)
    (hk : g.guardianKeys = keysAfter kps kp) :
    checkSharedLoop E loads g bs = .ok (bs.map (fun b => ⟨b.ownerId, kp.ownerId, kp.ownerId, true⟩)) := by
  induction bs generalizing g with
  | nil => rfl
  | cons b bs ih =>
    obtain ⟨h1, h2⟩ := hbs b List.mem_cons_self
    obtain ⟨kp1, hkp1, kp2, hkp2, -, n, hgen⟩ := hb.good b h1
    obtain ⟨i1, i2⟩ := generateBackup_ids hgen
    have he : kp2 = kp := List.inj_on_of_nodup_map ht.ids hkp2 hkp (i2.symm.trans h2)
    subst he
    obtain ⟨b', hb', hver⟩ := ht.backup_ok hv hlen hl hq hkp1 hkp n
    rw [hgen] at hb'
    cases hb'
    have hgv : (g.saveBackup b).verifyBackup E loads b.ownerId = .ok ⟨b.ownerId, kp2.ownerId, kp2.ownerId, true⟩ := by
      unfold Guardian.verifyBackup Guardian.saveBackup
      simp only [dget_dset, if_true]
      rw [hk, i1, keysAfter_dget ht.ids hkp hkp1]
      unfold Guardian.id
      simp only [hg]
      exact hver
    rw [checkSharedLoop, hgv, ih (fun b' hb' => hbs b' (List.mem_cons_of_mem _ hb')) (g.saveBackup b) hg hk]
    rfl

/-- Stage 5. -/
theorem AllIn.verifyBackups (hv : E.P.Valid) (hlen : HmacLen E) (hl : ReadsCoordinate loads) (hq : E.P.q ≤ 256 ^ 246)
    {quorum : Nat} {rands : String → List (Nat × Nat)} {kps : List ElectionKeyPair} (ht : Team E quorum rands kps)
    {d : KCDoc} {files : List (String × PrivateGuardianRecord)} (h : AllIn d files kps) (ho : d.otherKeys = sharedKeys kps)
    {made : List String} (hb : BackupsBy E kps made d.backups) (hs : SharedWith kps d.backups d.sharedBackups)
    {kp : ElectionKeyPair} (hkp : kp ∈ kps) :
    d.verifyBackups E loads kp.ownerId (dget files kp.ownerId)
      = .ok (((kps.map (fun kp => kp.ownerId)).filter (fun x => decide (kp.ownerId ≠ x))).map
        (fun o => ⟨o, kp.ownerId, kp.ownerId, true⟩)) := by
  obtain ⟨g0, g, hg0, hg, e1, e2, -, -⟩ := h.load ht.ids ho hkp
  have hmem : kp.ownerId ∈ d.sharedBackups.map (fun e => e.1) := by rw [hs.ids]; exact List.mem_map_of_mem hkp
  obtain ⟨e, he, heid⟩ := List.mem_map.1 hmem
  have hf : d.sharedBackupsFor kp.ownerId = .ok e.2 := by
    unfold KCDoc.sharedBackupsFor
    have := find?_of_nodup (fun e : String × List Backup => e.1) (by rw [hs.ids]; exact ht.ids) he
    rw [heid] at this
    rw [this]
  unfold KCDoc.verifyBackups
  simp only [hf, hg0, hg, bind, Except.bind]
  rw [checkSharedLoop_spec hv hlen hl hq ht hb hkp e.2 (fun b hb' => by
    obtain ⟨h1, h2⟩ := hs.mem e he b hb'
    exact ⟨h1, h2.trans heid⟩) g e1 e2]
  have := hs.owners e he
  rw [heid] at this
  rw [← this, List.map_map]
  rfl

theorem others_length {kps : List ElectionKeyPair} (hn : (kps.map (fun kp => kp.ownerId)).Nodup)
    {kp : ElectionKeyPair} (hkp : kp ∈ kps) :
    ((kps.map (fun kp => kp.ownerId)).filter (fun x => decide (kp.ownerId ≠ x))).length = kps.length - 1 := by
  have := keysAfter_length hn hkp
  unfold keysAfter othersOf at this
  rw [List.length_cons, List.length_map] at this
  rw [List.filter_map, List.length_map]
  have hc : kps.filter ((fun x => decide (kp.ownerId ≠ x)) ∘ fun kp => kp.ownerId)
      = kps.filter (fun kp' => decide (kp'.ownerId ≠ kp.ownerId)) :=
    List.filter_congr (fun x _ => by simp [eq_comm])
  rw [hc]
  omega

/-- Stage 6. -/
theorem AllIn.publish (hp : 1 < E.P.p) {quorum : Nat} {rands : String → List (Nat × Nat)} {kps : List ElectionKeyPair}
    (ht : Team E quorum rands kps) {d : KCDoc} {files : List (String × PrivateGuardianRecord)} (h : AllIn d files kps)
    {made done : List String} (hm : made.length = kps.length) (hb : BackupsBy E kps made d.backups)
    (hdone : done.length = kps.length ∨ kps.length = 1) (hvb : VerifiedBy kps done d.verifications) :
    ∃ jk, d.publish E = .ok jk ∧ jk.jointPublicKey = (kps.map (fun kp => kp.share.key)).prod % E.P.p := by
  have hids : (kps.map (fun kp => kp.share)).map (·.ownerId) = kps.map (fun kp => kp.ownerId) := by
    rw [List.map_map]; rfl
  have hfull := full_mem hb.nodup hb.ids (by rw [hm, List.length_map])
  have hh := C43_honest_ceremony_publishes hp "mediator_1" d.quorum (kps.map (fun kp => kp.share))
    (by rw [hids]; exact ht.ids) [d.backups] [d.verifications]
    (fun b hb' => by
      rw [List.flatten_singleton] at hb'
      obtain ⟨kp1, hkp1, kp2, hkp2, -, n, hgen⟩ := hb.good b hb'
      obtain ⟨i1, i2⟩ := generateBackup_ids hgen
      rw [hids, i1, i2]
      exact ⟨List.mem_map_of_mem hkp1, List.mem_map_of_mem hkp2⟩)
    (fun o ho x hx _ => by
      rw [hids] at ho hx
      obtain ⟨kp, hkp, rfl⟩ := List.mem_map.1 hx
      rw [List.flatten_singleton]
      exact hb.all o (hfull o ho) kp hkp)
    (fun v hv' => by
      rw [List.flatten_singleton] at hv'
      obtain ⟨h1, h2, h3⟩ := hvb.good v hv'
      rw [hids]
      exact ⟨h1, hvb.ids _ h2, h3⟩)
    (fun o ho x hx hne => by
      rw [hids] at ho hx
      obtain ⟨kp, hkp, rfl⟩ := List.mem_map.1 ho
      rw [List.flatten_singleton]
      rcases hdone with hdone | hone
      · exact hvb.all x (full_mem hvb.nodup hvb.ids (by rw [hdone, List.length_map]) x hx) kp hkp hne
      · obtain ⟨kp', hkp', rfl⟩ := List.mem_map.1 hx
        obtain ⟨a, ha⟩ := List.length_eq_one_iff.1 hone
        rw [ha, List.mem_singleton] at hkp hkp'
        rw [hkp, hkp'] at hne
        exact absurd rfl hne)
  refine ⟨⟨((kps.map (fun kp => kp.share)).map (·.key)).prod % E.P.p,
    hashElems E [.list (((kps.map (fun kp => kp.share)).flatMap (·.commitments)).map HArg.elem)]⟩, ?_, by rw [List.map_map]; rfl⟩
  unfold KCDoc.publish
  rw [h.mediator ht.ids]
  simp only [bind, Except.bind, pure, Except.pure]
  have hrun : KCM.run E.P "mediator_1" ⟨(kps.map (fun kp => kp.share)).length, d.quorum⟩
      ((kps.map (fun kp => kp.share)).map KCMOp.announce ++ [d.backups].map KCMOp.receiveBackups ++
        [d.verifications].map KCMOp.receiveVerifications)
      = ((mediator1 "mediator_1" ⟨kps.length, d.quorum⟩ kps).receiveBackups d.backups).receiveVerifications d.verifications := by
    unfold KCM.run
    rw [List.foldl_append, List.foldl_append, foldl_announce,
      foldl_dset_fresh (fun k : ElectionPublicKey => k.ownerId) _ _ (by rw [List.map_map]; exact ht.ids)
        (by simp [KCM.init, dkeys])]
    simp only [KCM.init, mediator1, List.nil_append, List.map_map, List.length_map]
    rfl
  rw [hrun] at hh
  rw [hh]

end EG
