import Verif.Spec.GuiKeyCeremony
import Verif.Lemmas.Orchestrator

/-!
# Lemmas on the key ceremony in the GUI: what a stage computes
-/

namespace EG

variable {E : Env}

theorem findKey_ok {d : KCDoc} {id : String} {k : ElectionPublicKey} (h : d.findKey id = .ok k) :
    k ∈ d.keys ∧ k.ownerId = id := by
  unfold KCDoc.findKey at h
  cases hf : d.keys.find? (fun k => k.ownerId == id) with
  | none => rw [hf] at h; cases h
  | some k' =>
    rw [hf] at h
    cases h
    exact ⟨List.mem_of_find?_eq_some hf, by simpa using List.find?_some hf⟩

theorem mapM_forall₂ {α β : Type} {f : α → R β} {l : List α} {r : List β} (h : l.mapM f = .ok r) :
    List.Forall₂ (fun x y => f x = .ok y) l r := by
  induction l generalizing r with
  | nil => cases h; exact .nil
  | cons x l ih =>
    rw [List.mapM_cons] at h
    cases hx : f x with
    | error e => rw [hx] at h; cases h
    | ok y =>
      rw [hx] at h
      cases hl : l.mapM f with
      | error e => rw [hl] at h; cases h
      | ok r' =>
        rw [hl] at h
        cases h
        exact .cons hx (ih hl)

theorem forall₂_mem_right {α β : Type} {p : α → β → Prop} {l : List α} {r : List β} (h : List.Forall₂ p l r) {y : β} (hy : y ∈ r) :
    ∃ x ∈ l, p x y := by
  induction h with
  | nil => cases hy
  | cons h1 _ ih =>
    rcases List.mem_cons.1 hy with rfl | hy
    · exact ⟨_, List.mem_cons_self, h1⟩
    · obtain ⟨x, hx, hp⟩ := ih hy
      exact ⟨x, List.mem_cons_of_mem _ hx, hp⟩

theorem forall₂_mem_left {α β : Type} {p : α → β → Prop} {l : List α} {r : List β} (h : List.Forall₂ p l r) {x : α} (hx : x ∈ l) :
    ∃ y ∈ r, p x y := by
  induction h with
  | nil => cases hx
  | cons h1 _ ih =>
    rcases List.mem_cons.1 hx with rfl | hx
    · exact ⟨_, List.mem_cons_self, h1⟩
    · obtain ⟨y, hy, hp⟩ := ih hx
      exact ⟨y, List.mem_cons_of_mem _ hy, hp⟩

/-- The mediator after the announcements. -/
theorem announceGuardians_ok {d : KCDoc} {m : KCM} (h : d.announceGuardians = .ok m) :
    ∃ ks, List.Forall₂ (fun id k => d.findKey id = .ok k) d.joined ks ∧
      m = (ks.map KCMOp.announce).foldl (KCM.step E.P) d.mediator := by
  unfold KCDoc.announceGuardians at h
  generalize d.mediator = m0 at h ⊢
  generalize d.joined = l at h ⊢
  induction l generalizing m0 with
  | nil => cases h; exact ⟨[], .nil, rfl⟩
  | cons id l ih =>
    rw [List.foldlM_cons] at h
    cases hk : d.findKey id with
    | error e => rw [hk] at h; cases h
    | ok k =>
      rw [hk] at h
      obtain ⟨ks, h1, h2⟩ := ih _ h
      exact ⟨k :: ks, .cons hk h1, h2⟩

theorem announceGuardians_keys {d : KCDoc} {m : KCM} (h : d.announceGuardians = .ok m) :
    (∀ e ∈ m.keys, d.findKey e.1 = .ok e.2) ∧ m.details = ⟨d.guardianCount, d.quorum⟩ ∧ m.backups = [] ∧
      m.verifications = [] ∧ ∀ id ∈ d.joined, ∃ k, d.findKey id = .ok k := by
  obtain ⟨ks, h1, rfl⟩ := announceGuardians_ok (E := toyEnv) h
  rw [foldl_announce]
  refine ⟨?_, rfl, rfl, rfl, fun id hid => ?_⟩
  · have : ∀ (l : List ElectionPublicKey) (x : List (String × ElectionPublicKey)),
        (∀ k ∈ l, d.findKey k.ownerId = .ok k) → (∀ e ∈ x, d.findKey e.1 = .ok e.2) →
        ∀ e ∈ l.foldl (fun d k => dset d k.ownerId k) x, d.findKey e.1 = .ok e.2 := by
      intro l
      induction l with
      | nil => intro x _ hx; exact hx
      | cons k l ih =>
        intro x hl hx
        refine ih _ (fun y hy => hl y (List.mem_cons_of_mem _ hy)) (fun e he => ?_)
        rcases mem_dset he with rfl | he
        · exact hl k List.mem_cons_self
        · exact hx e he
    refine this ks _ (fun k hk => ?_) (fun e he => by cases he)
    obtain ⟨id, -, hf⟩ := forall₂_mem_right h1 hk
    have := (findKey_ok hf).2
    rw [this]
    exact hf
  · obtain ⟨k, -, hk⟩ := forall₂_mem_left h1 hid
    exact ⟨k, hk⟩

/-- Stage 2: who gets which keys. -/
theorem announce_ok {d : KCDoc} {l : List (String × List ElectionPublicKey)} (h : d.announce = .ok l) :
    (∀ id ∈ d.joined, ∃ k, d.findKey id = .ok k) ∧
      ∀ e ∈ l, e.1 ∈ d.joined ∧ ∀ k ∈ e.2, d.findKey k.ownerId = .ok k := by
  unfold KCDoc.announce at h
  cases hm : d.announceGuardians with
  | error e => rw [hm] at h; cases h
  | ok m =>
    rw [hm] at h
    obtain ⟨hk, -, -, -, hall⟩ := announceGuardians_keys hm
    refine ⟨hall, fun e he => ?_⟩
    obtain ⟨id, hid, hf⟩ := forall₂_mem_right (mapM_forall₂ h) he
    unfold KCM.shareAnnounced at hf
    split at hf
    · cases hf
    · dsimp only at hf
      cases hw : ((dkeys m.keys).filter (fun x => decide (some x ≠ some id))).mapM (fun x => dgetR m.keys x) with
      | error e => rw [hw] at hf; cases hf
      | ok ks =>
        rw [hw] at hf
        cases hf
        refine ⟨hid, fun k hk' => ?_⟩
        obtain ⟨x, -, hx⟩ := forall₂_mem_right (mapM_forall₂ hw) hk'
        unfold dgetR at hx
        cases hg : dget m.keys x with
        | none => rw [hg] at hx; cases hx
        | some k' =>
          rw [hg] at hx
          cases hx
          have := hk _ (mem_of_dget hg)
          have h2 := (findKey_ok this).2
          simp only at h2 this
          rw [h2]
          exact this

theorem backupLoop_mem (g : Guardian) (nonces : Nat → Nat) (ks : List ElectionPublicKey) (i : Nat) :
    ∀ e ∈ (g.backupLoop E nonces ks i).2.backupsToShare, e ∈ g.backupsToShare ∨ ∃ k ∈ ks, ∃ n,
      generateBackup E g.id g.electionKeys.polynomial k n = .ok e.2 := by
  induction ks generalizing g i with
  | nil => intro e he; exact .inl he
  | cons k ks ih =>
    intro e he
    rw [Guardian.backupLoop] at he
    cases hb : generateBackup E g.id g.electionKeys.polynomial k (nonces i) with
    | error x => rw [hb] at he; exact .inl he
    | ok b =>
      rw [hb] at he
      rcases ih { g with backupsToShare := dset g.backupsToShare k.ownerId b } (i + 1) e he with h | ⟨k', hk', n, hn⟩
      · rcases mem_dset h with rfl | h
        · exact .inr ⟨k, List.mem_cons_self, _, hb⟩
        · exact .inl h
      · exact .inr ⟨k', List.mem_cons_of_mem _ hk', n, hn⟩

/-- The private record of a guardian that just joined. -/
structure FreshRecord (E : Env) (d : KCDoc) (user : String) (r : PrivateGuardianRecord) : Prop where
  id : r.electionKeys.ownerId = user
  order : user ∈ d.joined ∧ r.electionKeys.sequenceOrder = (d.joined.idxOf user : Int) + 1
  generated : ∃ rands : List (Nat × Nat), rands.length = d.quorum.toNat ∧
    generateElectionKeyPair E user r.electionKeys.sequenceOrder rands = .ok r.electionKeys
  shared : r.backupsToShare = []
  received : r.guardianBackups = []
  keys : r.guardianKeys = [(user, r.electionKeys.share)]

theorem makeGuardian_ok {user : String} {number n quorum : Int} {rands : Nat → Nat × Nat} {g : Guardian}
    (h : makeGuardian E user number n quorum rands = .ok g) :
    ∃ kp, generateElectionKeyPair E user number ((List.range quorum.toNat).map rands) = .ok kp ∧
      g = Guardian.init kp ⟨n, quorum⟩ := by
  unfold makeGuardian Guardian.fromRandom at h
  cases hk : generateElectionKeyPair E user number ((List.range quorum.toNat).map rands) with
  | error e => rw [hk] at h; cases h
  | ok kp => rw [hk] at h; cases h; exact ⟨kp, rfl, rfl⟩

theorem saveKeys_eq (l : List ElectionPublicKey) (g : Guardian) :
    l.foldl Guardian.saveKey g = { g with guardianKeys := l.foldl (fun x k => dset x k.ownerId k) g.guardianKeys } := by
  induction l generalizing g with
  | nil => rfl
  | cons a l ih => rw [List.foldl_cons, ih]; rfl

theorem foldl_dset_mem (l : List ElectionPublicKey) (x : List (String × ElectionPublicKey)) :
    ∀ e ∈ l.foldl (fun d k => dset d k.ownerId k) x, e ∈ x ∨ (e.2 ∈ l ∧ e.1 = e.2.ownerId) := by
  induction l generalizing x with
  | nil => intro e he; exact .inl he
  | cons k l ih =>
    intro e he
    rcases ih _ e he with h | ⟨h, h'⟩
    · rcases mem_dset h with rfl | h
      · exact .inr ⟨List.mem_cons_self, rfl⟩
      · exact .inl h
    · exact .inr ⟨List.mem_cons_of_mem _ h, h'⟩

/-- The guardian loaded from its fresh record, with the keys of the others. -/
theorem loaded_ok {d d' : KCDoc} {user : String} {file : Option PrivateGuardianRecord} {g g' : Guardian}
    (hf : ∀ r, file = some r → FreshRecord E d' user r) (h1 : d.loadGuardian file = .ok g)
    (h2 : d.loadOtherKeys user g = .ok g') :
    ∃ r ks, file = some r ∧ (user, ks) ∈ d.otherKeys ∧ g'.electionKeys = r.electionKeys ∧ g'.id = user ∧
      g'.backupsToShare = [] ∧ g'.guardianBackups = [] ∧
      (∀ e ∈ g'.guardianKeys, e = (user, r.electionKeys.share) ∨ (e.2 ∈ ks ∧ e.1 = e.2.ownerId)) := by
  unfold KCDoc.loadGuardian at h1
  cases hr : file with
  | none => rw [hr] at h1; cases h1
  | some r =>
    rw [hr] at h1
    cases h1
    have hfr := hf r hr
    unfold KCDoc.loadOtherKeys KCDoc.otherKeysFor at h2
    cases hk : d.otherKeys.find? (fun e => e.1 == user) with
    | none => rw [hk] at h2; cases h2
    | some e =>
      rw [hk] at h2
      cases h2
      have he1 : e.1 = user := by simpa using List.find?_some hk
      refine ⟨r, e.2, rfl, ?_, ?_, ?_, ?_, ?_, ?_⟩
      · rw [← he1]; exact List.mem_of_find?_eq_some hk
      · rw [saveKeys_eq]; rfl
      · rw [saveKeys_eq]; exact hfr.id
      · rw [saveKeys_eq]; exact hfr.shared
      · rw [saveKeys_eq]; exact hfr.received
      · intro x hx
        rw [saveKeys_eq] at hx
        rcases foldl_dset_mem _ _ x hx with h | h
        · left
          have hg : (Guardian.fromPrivateRecord r d.guardianCount d.quorum).guardianKeys
              = dset r.guardianKeys r.electionKeys.share.ownerId r.electionKeys.share := rfl
          rw [hg, hfr.keys] at h
          have hid : r.electionKeys.share.ownerId = user := hfr.id
          rw [hid] at h
          rcases mem_dset h with h | h
          · exact h
          · exact List.mem_singleton.1 h
        · exact .inr h

/-- Stage 3: the backups that a guardian makes. -/
theorem makeBackups_ok {d d' : KCDoc} {user : String} {file : Option PrivateGuardianRecord} {nonces : Nat → Nat}
    {bs : List Backup} (hf : ∀ r, file = some r → FreshRecord E d' user r) (h : d.makeBackups E user file nonces = .ok bs) :
    ∃ r ks, file = some r ∧ (user, ks) ∈ d.otherKeys ∧ ∀ b ∈ bs, ∃ k, (k = r.electionKeys.share ∨ k ∈ ks) ∧
      ∃ n, generateBackup E user r.electionKeys.polynomial k n = .ok b := by
  unfold KCDoc.makeBackups at h
  simp only [bind, Except.bind, pure, Except.pure] at h
  cases h1 : d.loadGuardian file with
  | error e => rw [h1] at h; cases h
  | ok g =>
    rw [h1] at h
    simp only at h
    cases h2 : d.loadOtherKeys user g with
    | error e => rw [h2] at h; cases h
    | ok g' =>
      rw [h2] at h
      simp only at h
      obtain ⟨r, ks, hr, hks, hek, hid, hsh, -, hkeys⟩ := loaded_ok hf h1 h2
      refine ⟨r, ks, hr, hks, fun b hb => ?_⟩
      have hmem : ∃ e ∈ (g'.generateBackups E nonces).2.backupsToShare, e.2 = b := by
        cases hgen : (g'.generateBackups E nonces).1 with
        | error e => rw [hgen] at h; cases h
        | ok _ =>
          rw [hgen] at h
          cases h
          obtain ⟨e, he, rfl⟩ := List.mem_map.1 hb
          exact ⟨e, he, rfl⟩
      obtain ⟨e, he, rfl⟩ := hmem
      rcases backupLoop_mem g' nonces _ 0 e he with h' | ⟨k, hk, n, hn⟩
      · rw [hsh] at h'; cases h'
      · obtain ⟨x, hx, rfl⟩ := List.mem_map.1 hk
        rw [hid, hek] at hn
        refine ⟨x.2, ?_, n, hn⟩
        rcases hkeys x hx with rfl | ⟨h', -⟩
        · exact .inl rfl
        · exact .inr h'

theorem receiveBackup_mem (bs : List Backup) (m : KCM) :
    ∀ e ∈ (bs.foldl KCM.receiveBackup m).backups, e ∈ m.backups ∨ (e.2 ∈ bs ∧ e.1 = (e.2.ownerId, e.2.designatedId)) := by
  induction bs generalizing m with
  | nil => intro e he; exact .inl he
  | cons b bs ih =>
    intro e he
    rcases ih _ e he with h | ⟨h, h'⟩
    · unfold KCM.receiveBackup at h
      split at h
      · exact .inl h
      · rcases mem_dset h with rfl | h
        · exact .inr ⟨List.mem_cons_self, rfl⟩
        · exact .inl h
    · exact .inr ⟨List.mem_cons_of_mem _ h, h'⟩

theorem receiveBackups_mem (bs : List Backup) (m : KCM) :
    ∀ e ∈ (m.receiveBackups bs).backups, e ∈ m.backups ∨ (e.2 ∈ bs ∧ e.1 = (e.2.ownerId, e.2.designatedId)) := by
  unfold KCM.receiveBackups
  split
  · exact fun e he => .inl he
  · exact receiveBackup_mem bs m

/-- Stage 4: who gets which backups. -/
theorem shareBackups_ok {d : KCDoc} {l : List (String × List Backup)} (h : d.shareBackups = .ok l) (hnamed : "" ∉ d.joined) :
    ∀ e ∈ l, e.1 ∈ d.joined ∧ ∀ b ∈ e.2, b ∈ d.backups ∧ b.designatedId = e.1 := by
  unfold KCDoc.shareBackups at h
  cases hm : d.announceGuardians with
  | error e => rw [hm] at h; cases h
  | ok m =>
    rw [hm] at h
    obtain ⟨-, -, hmb, -, -⟩ := announceGuardians_keys hm
    intro e he
    obtain ⟨id, hid, hf⟩ := forall₂_mem_right (mapM_forall₂ h) he
    have hne : id ≠ "" := fun hx => hnamed (hx ▸ hid)
    simp only [bind, Except.bind, pure, Except.pure] at hf
    cases hs : (m.receiveBackups d.backups).shareBackups (some id) with
    | error x => rw [hs] at hf; cases hf
    | ok o =>
      rw [hs] at hf
      cases o with
      | none => cases hf
      | some bs =>
        cases hf
        unfold KCM.shareBackups at hs
        split at hs
        · cases hs
        · simp only [if_neg hne] at hs
          unfold KCM.shareBackupsTo at hs
          cases hw : ((dkeys (m.receiveBackups d.backups).keys).filter (fun other => decide (id ≠ other))).mapM
              (fun other => dgetR (m.receiveBackups d.backups).backups (other, id)) with
          | error x => rw [hw] at hs; cases hs
          | ok bs' =>
            rw [hw] at hs
            cases hs
            refine ⟨hid, fun b hb => ?_⟩
            obtain ⟨x, -, hx⟩ := forall₂_mem_right (mapM_forall₂ hw) hb
            unfold dgetR at hx
            cases hg : dget (m.receiveBackups d.backups).backups (x, id) with
            | none => rw [hg] at hx; cases hx
            | some b' =>
              rw [hg] at hx
              cases hx
              rcases receiveBackups_mem _ _ _ (mem_of_dget hg) with h' | ⟨h', h''⟩
              · rw [hmb] at h'; cases h'
              · exact ⟨h', (congrArg Prod.snd h'').symm⟩

/-- Stage 5: the verifications of a guardian. -/
theorem checkSharedLoop_ok {loads : Bytes → R (List Char)} {g : Guardian} {bs : List Backup} {vs : List Verification}
    (h : checkSharedLoop E loads g bs = .ok vs) :
    ∀ v ∈ vs, ∃ b ∈ bs, ∃ k, (b.ownerId, k) ∈ g.guardianKeys ∧ verifyBackup E loads g.id b k g.electionKeys = .ok v := by
  induction bs generalizing g vs with
  | nil => cases h; intro v hv; cases hv
  | cons b bs ih =>
    unfold checkSharedLoop at h
    simp only [bind, Except.bind, pure, Except.pure] at h
    cases hv : (g.saveBackup b).verifyBackup E loads b.ownerId with
    | error e => rw [hv] at h; cases h
    | ok v =>
      rw [hv] at h
      simp only at h
      cases hl : checkSharedLoop E loads (g.saveBackup b) bs with
      | error e => rw [hl] at h; cases h
      | ok vs' =>
        rw [hl] at h
        cases h
        intro x hx
        rcases List.mem_cons.1 hx with rfl | hx
        · refine ⟨b, List.mem_cons_self, ?_⟩
          unfold Guardian.verifyBackup at hv
          have hb : dget (g.saveBackup b).guardianBackups b.ownerId = some b := by
            unfold Guardian.saveBackup
            rw [dget_dset, if_pos rfl]
          rw [hb] at hv
          simp only at hv
          have hgk : (g.saveBackup b).guardianKeys = g.guardianKeys := rfl
          rw [hgk] at hv
          cases hk : dget g.guardianKeys b.ownerId with
          | none => rw [hk] at hv; cases hv
          | some k =>
            rw [hk] at hv
            exact ⟨k, mem_of_dget hk, hv⟩
        · obtain ⟨b', hb', k, hk, hv'⟩ := ih hl x hx
          exact ⟨b', List.mem_cons_of_mem _ hb', k, hk, hv'⟩

theorem verifyBackups_ok {loads : Bytes → R (List Char)} {d d' : KCDoc} {user : String}
    {file : Option PrivateGuardianRecord} {vs : List Verification} (hf : ∀ r, file = some r → FreshRecord E d' user r)
    (h : d.verifyBackups E loads user file = .ok vs) :
    ∃ r ks bs, file = some r ∧ (user, ks) ∈ d.otherKeys ∧ (user, bs) ∈ d.sharedBackups ∧
      ∀ v ∈ vs, ∃ b ∈ bs, ∃ k, k.ownerId = b.ownerId ∧ (k = r.electionKeys.share ∨ k ∈ ks) ∧
        verifyBackup E loads user b k r.electionKeys = .ok v := by
  unfold KCDoc.verifyBackups at h
  simp only [bind, Except.bind] at h
  cases h0 : d.sharedBackupsFor user with
  | error e => rw [h0] at h; cases h
  | ok bs =>
    rw [h0] at h
    simp only at h
    cases h1 : d.loadGuardian file with
    | error e => rw [h1] at h; cases h
    | ok g =>
      rw [h1] at h
      simp only at h
      cases h2 : d.loadOtherKeys user g with
      | error e => rw [h2] at h; cases h
      | ok g' =>
        rw [h2] at h
        simp only at h
        obtain ⟨r, ks, hr, hks, hek, hid, -, -, hkeys⟩ := loaded_ok hf h1 h2
        have hbs : (user, bs) ∈ d.sharedBackups := by
          unfold KCDoc.sharedBackupsFor at h0
          cases hk : d.sharedBackups.find? (fun e => e.1 == user) with
          | none => rw [hk] at h0; cases h0
          | some e =>
            rw [hk] at h0
            cases h0
            have he1 : e.1 = user := by simpa using List.find?_some hk
            rw [← he1]
            exact List.mem_of_find?_eq_some hk
        refine ⟨r, ks, bs, hr, hks, hbs, fun v hv => ?_⟩
        obtain ⟨b, hb, k, hk, hver⟩ := checkSharedLoop_ok h v hv
        rw [hid, hek] at hver
        refine ⟨b, hb, k, ?_, ?_, hver⟩
        · rcases hkeys _ hk with he | ⟨-, he⟩
          · have := hf r hr
            simp only [Prod.mk.injEq] at he
            rw [he.2, he.1]
            exact this.id
          · exact he.symm
        · rcases hkeys _ hk with he | ⟨he, -⟩
          · exact .inl (congrArg Prod.snd he)
          · exact .inr he

end EG
