import Verif.Spec.Orchestrator
import Verif.Props.KeyCeremony
import Verif.Props.KeyCeremonyMediator

/-!
# Lemmas on the key ceremony orchestrator
-/

namespace EG

variable {E : Env}

theorem mapM_map_ok {α β γ : Type} (f : β → R γ) (h : α → β) (g : α → γ) (l : List α)
    (hl : ∀ x ∈ l, f (h x) = .ok (g x)) : (l.map h).mapM f = .ok (l.map g) := by
  induction l with
  | nil => rfl
  | cons x l ih =>
    rw [List.map_cons, List.mapM_cons, hl x List.mem_cons_self, ih (fun y hy => hl y (List.mem_cons_of_mem _ hy))]
    rfl

theorem foldl_step_map {α : Type} (P : Params) (op : α → KCMOp) (f : KCM → α → KCM)
    (h : ∀ s x, KCM.step P s (op x) = f s x) (l : List α) (s : KCM) :
    (l.map op).foldl (KCM.step P) s = l.foldl f s := by
  rw [List.foldl_map]
  congr 1
  funext s x
  exact h s x

theorem backupLoop_spec (g : Guardian) (nonces : Nat → Nat) (ks : List ElectionPublicKey) (i : Nat)
    (h : ∀ k ∈ ks, ∀ n, ∃ b, generateBackup E g.id g.electionKeys.polynomial k n = .ok b) :
    ∃ d, g.backupLoop E nonces ks i = (.ok true, { g with backupsToShare := d }) ∧
      (∀ e ∈ d, e ∈ g.backupsToShare ∨ ∃ k ∈ ks, ∃ n,
        generateBackup E g.id g.electionKeys.polynomial k n = .ok e.2) ∧
      (∀ x ∈ dkeys g.backupsToShare, x ∈ dkeys d) ∧ (∀ k ∈ ks, k.ownerId ∈ dkeys d) ∧
      ((∀ e ∈ g.backupsToShare, e.1 = e.2.designatedId) → ∀ e ∈ d, e.1 = e.2.designatedId) := by
  induction ks generalizing g i with
  | nil => exact ⟨g.backupsToShare, rfl, fun e he => .inl he, fun _ hx => hx, by simp, fun h => h⟩
  | cons k ks ih =>
    obtain ⟨b, hb⟩ := h k List.mem_cons_self (nonces i)
    obtain ⟨d, h1, h2, h3, h4, h5⟩ := ih { g with backupsToShare := dset g.backupsToShare k.ownerId b } (i + 1)
      (fun k' hk' => h k' (List.mem_cons_of_mem _ hk'))
    have hmem : k.ownerId ∈ dkeys d := by
      refine h3 _ ?_
      simp only [dkeys_dset]
      split
      · assumption
      · simp
    refine ⟨d, ?_, ?_, ?_, ?_, ?_⟩
    · rw [Guardian.backupLoop, hb]
      exact h1
    · intro e he
      rcases h2 e he with h | ⟨k', hk', n, hn⟩
      · rcases mem_dset h with rfl | h
        · exact .inr ⟨k, List.mem_cons_self, _, hb⟩
        · exact .inl h
      · exact .inr ⟨k', List.mem_cons_of_mem _ hk', n, hn⟩
    · intro x hx
      refine h3 _ ?_
      simp only [dkeys_dset]
      split
      · assumption
      · exact List.mem_append_left _ hx
    · intro k' hk'
      rcases List.mem_cons.1 hk' with rfl | hk'
      · exact hmem
      · exact h4 k' hk'
    · intro hg
      refine h5 ?_
      intro e he
      rcases mem_dset he with rfl | he
      · have hd : b.designatedId = k.ownerId := by
          simp only [generateBackup, bind, Except.bind, pure, Except.pure] at hb
          split at hb
          · cases hb
          split at hb
          · cases hb
          split at hb
          · cases hb
          cases hb
          rfl
        exact hd.symm
      · exact hg e he

theorem generateBackup_ids {sid : String} {poly : Polynomial'} {k : ElectionPublicKey} {n : Nat} {b : Backup}
    (hb : generateBackup E sid poly k n = .ok b) : b.ownerId = sid ∧ b.designatedId = k.ownerId := by
  simp only [generateBackup, bind, Except.bind, pure, Except.pure] at hb
  split at hb
  · cases hb
  split at hb
  · cases hb
  split at hb
  · cases hb
  cases hb
  exact ⟨rfl, rfl⟩

theorem generateAndSend_spec (nonces : String → Nat → Nat) (f f' : ElectionKeyPair → Guardian)
    (l : List ElectionKeyPair) (m : KCM)
    (h : ∀ kp ∈ l, (f kp).generateBackups E (nonces (f kp).id) = (.ok true, f' kp)) :
    generateAndSend E nonces (l.map f) m
      = .ok (l.map f', (l.map (fun kp => (f' kp).shareBackups)).foldl KCM.receiveBackups m) := by
  induction l generalizing m with
  | nil => rfl
  | cons kp l ih =>
    rw [List.map_cons, generateAndSend, h kp List.mem_cons_self]
    simp only [bind, Except.bind, pure, Except.pure]
    rw [ih _ (fun x hx => h x (List.mem_cons_of_mem _ hx))]
    rfl

theorem verifyOthers_spec (loads : Bytes → R (List Char)) (g : Guardian) (f : ElectionKeyPair → Guardian)
    (v : ElectionKeyPair → Verification) (l : List ElectionKeyPair) (m : KCM)
    (h : ∀ kp ∈ l, g.id ≠ (f kp).id → g.verifyBackup E loads (f kp).id = .ok (v kp)) :
    verifyOthers E loads g (l.map f) m
      = .ok ((l.map (fun kp => if g.id = (f kp).id then [] else [v kp])).foldl KCM.receiveVerifications m) := by
  induction l generalizing m with
  | nil => rfl
  | cons kp l ih =>
    rw [List.map_cons, verifyOthers]
    by_cases hg : g.id = (f kp).id
    · simp only [if_pos hg, bind, Except.bind, pure, Except.pure]
      rw [ih _ (fun x hx => h x (List.mem_cons_of_mem _ hx))]
      simp [hg]
    · simp only [if_neg hg, bind, Except.bind, pure, Except.pure]
      rw [h kp List.mem_cons_self hg]
      simp only
      rw [ih _ (fun x hx => h x (List.mem_cons_of_mem _ hx))]
      simp [hg]

theorem round3_spec (loads : Bytes → R (List Char)) (gs : List Guardian) (f : ElectionKeyPair → Guardian)
    (vs : ElectionKeyPair → List (List Verification)) (l : List ElectionKeyPair) (m : KCM)
    (h : ∀ kp ∈ l, ∀ m, verifyOthers E loads (f kp) gs m = .ok ((vs kp).foldl KCM.receiveVerifications m)) :
    (l.map f).foldlM (fun m g => verifyOthers E loads g gs m) m
      = .ok ((l.flatMap vs).foldl KCM.receiveVerifications m) := by
  induction l generalizing m with
  | nil => rfl
  | cons kp l ih =>
    rw [List.map_cons, List.foldlM_cons, h kp List.mem_cons_self]
    simp only [bind, Except.bind]
    rw [ih _ (fun x hx => h x (List.mem_cons_of_mem _ hx)), List.flatMap_cons, List.foldl_append]

/-- The guardian before the ceremony. -/
def guardian0 (d : CeremonyDetails) (kp : ElectionKeyPair) : Guardian := Guardian.init kp d

/-- The key pairs of the others. -/
def othersOf (kps : List ElectionKeyPair) (kp : ElectionKeyPair) : List ElectionKeyPair :=
  kps.filter (fun kp' => decide (kp'.ownerId ≠ kp.ownerId))

/-- The keys a guardian has after the first round. -/
def keysAfter (kps : List ElectionKeyPair) (kp : ElectionKeyPair) : List (String × ElectionPublicKey) :=
  (kp.ownerId, kp.share) :: (othersOf kps kp).map (fun kp' => (kp'.ownerId, kp'.share))

/-- The guardian after the first round. -/
def guardian1 (d : CeremonyDetails) (kps : List ElectionKeyPair) (kp : ElectionKeyPair) : Guardian :=
  { guardian0 d kp with guardianKeys := keysAfter kps kp }

/-- The mediator after the announcements. -/
def mediator1 (me : String) (d : CeremonyDetails) (kps : List ElectionKeyPair) : KCM :=
  ⟨me, d, kps.map (fun kp => (kp.ownerId, kp.share)), [], []⟩

theorem keysAfter_dget {kps : List ElectionKeyPair} (hn : (kps.map (fun kp => kp.ownerId)).Nodup)
    {kp : ElectionKeyPair} (hkp : kp ∈ kps) {kp' : ElectionKeyPair} (h : kp' ∈ kps) :
    dget (keysAfter kps kp) kp'.ownerId = some kp'.share := by
  unfold keysAfter
  rw [dget_cons]
  by_cases he : kp.ownerId = kp'.ownerId
  · have := List.inj_on_of_nodup_map hn hkp h he
    subst this
    simp
  · rw [if_neg he]
    refine dget_of_mem ?_ (List.mem_map.2 ⟨kp', ?_, rfl⟩)
    · unfold dkeys
      rw [List.map_map]
      exact List.Nodup.sublist (List.Sublist.map _ List.filter_sublist) hn
    · exact List.mem_filter.2 ⟨h, by simpa using fun x => he x.symm⟩

theorem keysAfter_length {kps : List ElectionKeyPair} (hn : (kps.map (fun kp => kp.ownerId)).Nodup)
    {kp : ElectionKeyPair} (hkp : kp ∈ kps) : (keysAfter kps kp).length = kps.length := by
  unfold keysAfter othersOf
  rw [List.length_cons, List.length_map]
  induction kps with
  | nil => simp at hkp
  | cons x l ih =>
    simp only [List.map_cons, List.nodup_cons] at hn
    rw [List.filter_cons]
    rcases List.mem_cons.1 hkp with rfl | hkp
    · have hall : l.filter (fun kp' => decide (kp'.ownerId ≠ kp.ownerId)) = l := by
        refine List.filter_eq_self.2 (fun y hy => ?_)
        simp only [decide_eq_true_eq]
        exact fun h => hn.1 (h ▸ List.mem_map_of_mem hy)
      rw [hall]
      simp
    · have hne : x.ownerId ≠ kp.ownerId := fun h => hn.1 (h ▸ List.mem_map_of_mem hkp)
      rw [if_pos (by simpa using hne), List.length_cons, ih hn.2 hkp, List.length_cons]

theorem round1_spec (me : String) (d : CeremonyDetails) (kps : List ElectionKeyPair)
    (hn : (kps.map (fun kp => kp.ownerId)).Nodup) (hd : d.numberOfGuardians = kps.length) :
    performRound1 (kps.map (guardian0 d)) (KCM.init me d)
      = .ok (kps.map (guardian1 d kps), mediator1 me d kps) := by
  have h1 : (kps.map (guardian0 d)).foldl (fun m g => m.announce g.shareKey) (KCM.init me d) = mediator1 me d kps := by
    rw [List.foldl_map]
    have : ∀ (l : List ElectionKeyPair) (s : KCM),
        l.foldl (fun m kp => m.announce (guardian0 d kp).shareKey) s
          = { s with keys := (l.map (fun kp => kp.share)).foldl (fun x k => dset x k.ownerId k) s.keys } := by
      intro l
      induction l with
      | nil => intro s; rfl
      | cons a l ih => intro s; rw [List.foldl_cons, ih]; rfl
    rw [this]
    unfold mediator1 KCM.init
    rw [foldl_dset_fresh (fun k : ElectionPublicKey => k.ownerId) (kps.map (fun kp => kp.share)) []
      (by rw [List.map_map]; exact hn) (by simp [dkeys])]
    rw [List.map_map]
    rfl
  unfold performRound1
  rw [h1]
  dsimp only
  have hall : (mediator1 me d kps).allAnnounced = true := by simp [KCM.allAnnounced, mediator1, hd]
  have hdk : dkeys (mediator1 me d kps).keys = kps.map (fun kp => kp.ownerId) := by
    simp [dkeys, mediator1, List.map_map, Function.comp_def]
  have hdget : ∀ kp ∈ kps, dget (mediator1 me d kps).keys kp.ownerId = some kp.share := fun kp hkp =>
    dget_of_mem (by rw [hdk]; exact hn) (List.mem_map.2 ⟨kp, hkp, rfl⟩)
  rw [mapM_map_ok _ (guardian0 d) (guardian1 d kps)]
  · rfl
  intro kp hkp
  have hshare : (mediator1 me d kps).shareAnnounced (some kp.ownerId)
      = .ok (some ((othersOf kps kp).map (fun kp' => kp'.share))) := by
    unfold KCM.shareAnnounced
    rw [hall, hdk]
    simp only [Bool.not_true, Bool.false_eq_true, if_false]
    have hf : (kps.map (fun kp => kp.ownerId)).filter (fun id => decide (some id ≠ some kp.ownerId))
        = (othersOf kps kp).map (fun kp' => kp'.ownerId) := by
      rw [List.filter_map]
      unfold othersOf
      congr 1
      refine List.filter_congr (fun x _ => ?_)
      simp
    rw [hf, mapM_map_ok _ (fun kp' : ElectionKeyPair => kp'.ownerId) (fun kp' => kp'.share)]
    · rfl
    · intro kp' hkp'
      unfold dgetR
      rw [hdget kp' (List.mem_filter.1 hkp').1]
  have hid : (guardian0 d kp).id = kp.ownerId := rfl
  rw [hid, hshare]
  simp only [bind, Except.bind, pure, Except.pure, getOptional]
  congr 1
  have hsave : ∀ (l : List ElectionPublicKey) (g : Guardian),
      l.foldl Guardian.saveKey g = { g with guardianKeys := l.foldl (fun x k => dset x k.ownerId k) g.guardianKeys } := by
    intro l
    induction l with
    | nil => intro g; rfl
    | cons a l ih => intro g; rw [List.foldl_cons, ih]; rfl
  rw [hsave]
  unfold guardian1
  have hk0 : (guardian0 d kp).guardianKeys = [(kp.ownerId, kp.share)] := rfl
  rw [hk0, foldl_dset_fresh (fun k : ElectionPublicKey => k.ownerId)]
  · simp only [List.map_map]
    rfl
  · rw [List.map_map]
    exact List.Nodup.sublist (List.Sublist.map _ List.filter_sublist) hn
  · intro k hk
    obtain ⟨kp', hkp', rfl⟩ := List.mem_map.1 hk
    have := (List.mem_filter.1 hkp').2
    simp only [decide_eq_true_eq] at this
    simpa [dkeys, ElectionKeyPair.share] using this

/-- What the first two rounds achieve. -/
theorem rounds12_spec (hv : E.P.Valid) (hlen : HmacLen E) (loads : Bytes → R (List Char))
    (hl : ReadsCoordinate loads) (hq : E.P.q ≤ 256 ^ 246) (me : String) (quorum : Nat)
    (rands : String → List (Nat × Nat)) (kps : List ElectionKeyPair) (ht : Team E quorum rands kps)
    (nonces : String → Nat → Nat) :
    ∃ (g3 : ElectionKeyPair → Guardian) (gs1 : List Guardian) (m1 m2 : KCM) (bss : List (List Backup)),
      performRound1 (kps.map (fun kp => Guardian.init kp ⟨kps.length, quorum⟩)) (KCM.init me ⟨kps.length, quorum⟩)
        = .ok (gs1, m1) ∧
      performRound2 E nonces gs1 m1 = .ok (kps.map g3, m2) ∧
      (∀ kp ∈ kps, (g3 kp).Equipped E loads rands kps kp) ∧
      (∀ kp, (g3 kp).id = kp.ownerId) ∧
      (∀ kp ∈ kps, ∀ kp' ∈ kps, kp.ownerId ≠ kp'.ownerId →
        (g3 kp).verifyBackup E loads kp'.ownerId = .ok ⟨kp'.ownerId, kp.ownerId, kp.ownerId, true⟩) ∧
      m2 = KCM.run E.P me ⟨(kps.map (fun kp => kp.share)).length, quorum⟩
        ((kps.map (fun kp => kp.share)).map KCMOp.announce ++ bss.map KCMOp.receiveBackups) ∧
      (∀ b ∈ bss.flatten, b.ownerId ∈ (kps.map (fun kp => kp.share)).map (·.ownerId) ∧
        b.designatedId ∈ (kps.map (fun kp => kp.share)).map (·.ownerId)) ∧
      (∀ o ∈ (kps.map (fun kp => kp.share)).map (·.ownerId), ∀ x ∈ (kps.map (fun kp => kp.share)).map (·.ownerId),
        o ≠ x → ∃ b ∈ bss.flatten, b.ownerId = o ∧ b.designatedId = x) := by
  classical
  set d : CeremonyDetails := ⟨kps.length, quorum⟩ with hd
  have hn := ht.ids
  -- backups between any two guardians
  have hgen : ∀ kp ∈ kps, ∀ kp' ∈ kps, ∀ n, ∃ b, generateBackup E kp.ownerId kp.polynomial kp'.share n = .ok b ∧
      decryptBackup E loads b kp'
        = .ok (some (polyAt ((rands kp.ownerId).map Prod.fst) kp'.sequenceOrder.toNat % E.P.q)) ∧
      verifyBackup E loads kp'.ownerId b kp.share kp' = .ok ⟨kp.ownerId, kp'.ownerId, kp'.ownerId, true⟩ := by
    intro kp hkp kp' hkp' n
    obtain ⟨h0, hq', hpow⟩ := ht.orders kp' hkp'
    have hs := ht.generated kp hkp
    have hr := ht.generated kp' hkp'
    have ho : (kp'.sequenceOrder.toNat : Int) = kp'.sequenceOrder := Int.toNat_of_nonneg h0
    rw [← ho] at hr
    obtain ⟨b, hb, -, -, -, hdec⟩ := C47_backup_decrypts hv hlen loads hl hq _ _ _ _ hq' _ _ kp kp' n hs hr
    obtain ⟨b', hb', hver⟩ := C47_honest_verified_partial hv hlen loads hl hq _ _ _ _ hq' _ _ kp kp' n hs hr
      (by rw [ht.coefficients kp hkp]; exact hpow)
    rw [hb] at hb'
    cases hb'
    exact ⟨b, hb, hdec, hver⟩
  -- the first round
  have hr1 := round1_spec me d kps hn rfl
  -- generation of the backups
  have hgb : ∀ kp ∈ kps, ∃ x : List (String × Backup),
      (guardian1 d kps kp).generateBackups E (nonces (guardian1 d kps kp).id)
        = (.ok true, { guardian1 d kps kp with backupsToShare := x }) ∧
      (∀ e ∈ x, ∃ kp' ∈ kps, ∃ n, generateBackup E kp.ownerId kp.polynomial kp'.share n = .ok e.2) ∧
      ∀ kp' ∈ kps, ∃ b, (kp'.ownerId, b) ∈ x ∧ b.designatedId = kp'.ownerId := by
    intro kp hkp
    have hkeys : ∀ k ∈ (guardian1 d kps kp).guardianKeys.map (·.2), ∃ kp' ∈ kps, k = kp'.share := by
      intro k hk
      obtain ⟨e, he, rfl⟩ := List.mem_map.1 hk
      rcases List.mem_cons.1 he with rfl | he
      · exact ⟨kp, hkp, rfl⟩
      · obtain ⟨kp', hkp', rfl⟩ := List.mem_map.1 he
        exact ⟨kp', (List.mem_filter.1 hkp').1, rfl⟩
    obtain ⟨x, h1, h2, -, h4, h5⟩ := backupLoop_spec (E := E) (guardian1 d kps kp) (nonces (guardian1 d kps kp).id)
      ((guardian1 d kps kp).guardianKeys.map (·.2)) 0 (fun k hk n => by
        obtain ⟨kp', hkp', rfl⟩ := hkeys k hk
        obtain ⟨b, hb, -⟩ := hgen kp hkp kp' hkp' n
        exact ⟨b, hb⟩)
    refine ⟨x, h1, ?_, ?_⟩
    · intro e he
      rcases h2 e he with h | ⟨k, hk, n, hb⟩
      · cases h
      · obtain ⟨kp', hkp', rfl⟩ := hkeys k hk
        exact ⟨kp', hkp', n, hb⟩
    · intro kp' hkp'
      have hmem : kp'.share ∈ (guardian1 d kps kp).guardianKeys.map (·.2) :=
        List.mem_map.2 ⟨_, mem_of_dget (keysAfter_dget hn hkp hkp'), rfl⟩
      have := h4 _ hmem
      obtain ⟨e, he, hek⟩ := List.mem_map.1 this
      have hed := h5 (fun e he => by cases he) e he
      have hk' : kp'.share.ownerId = kp'.ownerId := rfl
      rw [hk'] at hek
      exact ⟨e.2, by rw [← hek]; exact he, by rw [← hed, hek]⟩
  choose! X hX1 hX2 hX3 using hgb
  set g2 : ElectionKeyPair → Guardian := fun kp => { guardian1 d kps kp with backupsToShare := X kp } with hg2
  set bss : List (List Backup) := kps.map (fun kp => (g2 kp).shareBackups) with hbss
  have hgs := generateAndSend_spec (E := E) nonces (guardian1 d kps) g2 kps (mediator1 me d kps) hX1
  rw [← hbss] at hgs
  set m2 := bss.foldl KCM.receiveBackups (mediator1 me d kps) with hm2
  have hall1 : (mediator1 me d kps).allAnnounced = true := by simp [KCM.allAnnounced, mediator1, hd]
  have hm2' : m2 = bss.flatten.foldl KCM.receiveBackup (mediator1 me d kps) := by
    rw [hm2, ← foldl_receiveBackups (E := E) bss _ hall1]
    exact (foldl_step_map E.P KCMOp.receiveBackups KCM.receiveBackups (fun _ _ => rfl) bss _).symm
  obtain ⟨-, f2, f3, f4⟩ := foldl_receiveBackup_fields bss.flatten (mediator1 me d kps)
  rw [← hm2'] at f2 f3 f4
  -- what was sent
  have hsent : ∀ b ∈ bss.flatten, ∃ kp ∈ kps, ∃ kp' ∈ kps, ∃ n,
      generateBackup E kp.ownerId kp.polynomial kp'.share n = .ok b := by
    intro b hb
    obtain ⟨bs, hbs, hb⟩ := List.mem_flatten.1 hb
    obtain ⟨kp, hkp, rfl⟩ := List.mem_map.1 hbs
    obtain ⟨e, he, rfl⟩ := List.mem_map.1 hb
    obtain ⟨kp', hkp', n, h⟩ := hX2 kp hkp e he
    exact ⟨kp, hkp, kp', hkp', n, h⟩
  have hsentall : ∀ kp ∈ kps, ∀ kp' ∈ kps, ∃ b ∈ bss.flatten, b.ownerId = kp.ownerId ∧ b.designatedId = kp'.ownerId := by
    intro kp hkp kp' hkp'
    obtain ⟨b, hb, hb'⟩ := hX3 kp hkp kp' hkp'
    obtain ⟨kp'', hkp'', n, h⟩ := hX2 kp hkp _ hb
    refine ⟨b, List.mem_flatten.2 ⟨_, List.mem_map.2 ⟨kp, hkp, rfl⟩, List.mem_map.2 ⟨_, hb, rfl⟩⟩,
      (generateBackup_ids h).1, hb'⟩
  have hnd2 := backups_foldl bss.flatten (mediator1 me d kps) List.nodup_nil
  rw [← hm2'] at hnd2
  have hstored : ∀ kp ∈ kps, ∀ kp' ∈ kps, kp.ownerId ≠ kp'.ownerId → ∃ b,
      dget m2.backups (kp.ownerId, kp'.ownerId) = some b ∧
        ∃ n, generateBackup E kp.ownerId kp.polynomial kp'.share n = .ok b := by
    intro kp hkp kp' hkp' hne
    have hmem : (kp.ownerId, kp'.ownerId) ∈ dkeys m2.backups := by
      rw [hm2', foldl_receiveBackup_keys]
      obtain ⟨b, hb, h1, h2⟩ := hsentall kp hkp kp' hkp'
      exact .inr ⟨b, hb, by rw [h1, h2], by rw [h1, h2]; exact hne⟩
    obtain ⟨b, hb⟩ := (mem_dkeys_iff _ _).1 hmem
    refine ⟨b, hb, ?_⟩
    rcases hnd2.2 _ (mem_of_dget hb) with h | ⟨h, h', -⟩
    · cases h
    · obtain ⟨k1, hk1, k2, hk2, n, hbn⟩ := hsent b h
      obtain ⟨i1, i2⟩ := generateBackup_ids hbn
      have e1 : k1.ownerId = kp.ownerId := by rw [← i1]; exact (congrArg Prod.fst h').symm
      have e2 : k2.ownerId = kp'.ownerId := by
        have : b.designatedId = kp'.ownerId := (congrArg Prod.snd h').symm
        rw [← this, i2]; rfl
      have := List.inj_on_of_nodup_map hn hk1 hkp e1
      subst this
      have := List.inj_on_of_nodup_map hn hk2 hkp' e2
      subst this
      exact ⟨n, hbn⟩
  haveI : Nonempty Backup := ⟨⟨"", "", 0, ⟨0, [], []⟩⟩⟩
  choose! B hB1 hB2 using hstored
  set got : ElectionKeyPair → List (String × Backup) := fun kp =>
    (othersOf kps kp).map (fun kp' => (kp'.ownerId, B kp' kp)) with hgot
  set g3 : ElectionKeyPair → Guardian := fun kp => { g2 kp with guardianBackups := got kp } with hg3
  have hothers : ∀ kp, ∀ kp' ∈ othersOf kps kp, kp' ∈ kps ∧ kp'.ownerId ≠ kp.ownerId := by
    intro kp kp' h
    have := List.mem_filter.1 h
    exact ⟨this.1, by simpa using this.2⟩
  have hr2 : performRound2 E nonces (kps.map (guardian1 d kps)) (mediator1 me d kps) = .ok (kps.map g3, m2) := by
    unfold performRound2
    rw [hgs]
    simp only [bind, Except.bind]
    rw [mapM_map_ok _ g2 g3]
    · rfl
    intro kp hkp
    have hid : (g2 kp).id = kp.ownerId := rfl
    have hdk : dkeys m2.keys = kps.map (fun kp => kp.ownerId) := by
      rw [f3]
      simp [dkeys, mediator1, List.map_map, Function.comp_def]
    have hshare : m2.shareBackups (some kp.ownerId) = .ok (some ((othersOf kps kp).map (fun kp' => B kp' kp))) := by
      unfold KCM.shareBackups
      have ha : m2.allAnnounced = true := by
        unfold KCM.allAnnounced
        rw [f2, f3]
        exact hall1
      rw [ha]
      simp only [Bool.not_true, Bool.false_eq_true, if_false, if_neg (ht.named kp hkp)]
      unfold KCM.shareBackupsTo
      have hf : (dkeys m2.keys).filter (fun other => decide (kp.ownerId ≠ other))
          = (othersOf kps kp).map (fun kp' => kp'.ownerId) := by
        rw [hdk, List.filter_map]
        unfold othersOf
        congr 1
        refine List.filter_congr (fun x _ => ?_)
        simp [eq_comm]
      rw [hf, mapM_map_ok _ (fun kp' : ElectionKeyPair => kp'.ownerId) (fun kp' => B kp' kp)]
      · rfl
      · intro kp' hkp'
        obtain ⟨hk, hne⟩ := hothers kp kp' hkp'
        unfold dgetR
        rw [hB1 kp' hk kp hkp hne]
    rw [hid, hshare]
    simp only [getOptional]
    show Except.ok _ = Except.ok _
    congr 1
    have hsave : ∀ (l : List Backup) (g : Guardian), l.foldl Guardian.saveBackup g
        = { g with guardianBackups := l.foldl (fun x b => dset x b.ownerId b) g.guardianBackups } := by
      intro l
      induction l with
      | nil => intro g; rfl
      | cons a l ih => intro g; rw [List.foldl_cons, ih]; rfl
    have howner : ∀ kp' ∈ othersOf kps kp, (B kp' kp).ownerId = kp'.ownerId := by
      intro kp' hkp'
      obtain ⟨hk, hne⟩ := hothers kp kp' hkp'
      obtain ⟨n, hbn⟩ := hB2 kp' hk kp hkp hne
      exact (generateBackup_ids hbn).1
    have hmapo : ((othersOf kps kp).map (fun kp' => B kp' kp)).map (fun b => b.ownerId)
        = (othersOf kps kp).map (fun kp' => kp'.ownerId) := by
      rw [List.map_map]
      exact List.map_congr_left howner
    rw [hsave, foldl_dset_fresh (fun b : Backup => b.ownerId)]
    · simp only [hg3, hgot, hg2]
      congr 1
      have h0 : (guardian1 d kps kp).guardianBackups = [] := rfl
      rw [h0, List.nil_append, List.map_map]
      exact List.map_congr_left (fun kp' hkp' => by simp [howner kp' hkp'])
    · rw [hmapo]
      exact List.Nodup.sublist (List.Sublist.map _ List.filter_sublist) hn
    · intro b _
      have h0 : (g2 kp).guardianBackups = [] := rfl
      rw [h0]
      simp [dkeys]
  -- the third round
  have hgotget : ∀ kp ∈ kps, ∀ kp' ∈ kps, kp'.ownerId ≠ kp.ownerId →
      dget (got kp) kp'.ownerId = some (B kp' kp) := by
    intro kp _ kp' hkp' hne
    refine dget_of_mem ?_ (List.mem_map.2 ⟨kp', List.mem_filter.2 ⟨hkp', by simpa using hne⟩, rfl⟩)
    unfold dkeys
    rw [hgot, List.map_map]
    exact List.Nodup.sublist (List.Sublist.map _ List.filter_sublist) hn
  have hks : (kps.map (fun kp => kp.share)).map (·.ownerId) = kps.map (fun kp => kp.ownerId) := by
    rw [List.map_map]; rfl
  refine ⟨g3, _, _, m2, bss, hr1, hr2, ?_, fun _ => rfl, ?_, ?_, ?_, ?_⟩
  · intro kp hkp
    refine ⟨rfl, fun kp' hkp' => keysAfter_dget hn hkp hkp', keysAfter_length hn hkp, fun kp' hkp' hne => ?_⟩
    refine ⟨B kp' kp, hgotget kp hkp kp' hkp' hne, ?_⟩
    obtain ⟨n, hbn⟩ := hB2 kp' hkp' kp hkp hne
    obtain ⟨b, hb, hdec, -⟩ := hgen kp' hkp' kp hkp n
    rw [hbn] at hb
    cases hb
    exact hdec
  · intro kp hkp kp' hkp' hne
    have hne' : kp'.ownerId ≠ kp.ownerId := fun h => hne h.symm
    unfold Guardian.verifyBackup
    have e2 : dget (g3 kp).guardianBackups kp'.ownerId = some (B kp' kp) := hgotget kp hkp kp' hkp' hne'
    have e3 : dget (g3 kp).guardianKeys kp'.ownerId = some kp'.share := keysAfter_dget hn hkp hkp'
    rw [e2, e3]
    show verifyBackup E loads kp.ownerId (B kp' kp) kp'.share kp = _
    obtain ⟨n, hbn⟩ := hB2 kp' hkp' kp hkp hne'
    obtain ⟨b, hb, -, hver⟩ := hgen kp' hkp' kp hkp n
    rw [hbn] at hb
    cases hb
    exact hver
  · unfold KCM.run
    rw [List.foldl_append,
      foldl_step_map E.P KCMOp.receiveBackups KCM.receiveBackups (fun _ _ => rfl), foldl_announce, hm2]
    congr 2
    unfold KCM.init mediator1
    rw [foldl_dset_fresh (fun k : ElectionPublicKey => k.ownerId) _ [] (by rw [hks]; exact hn) (by simp [dkeys])]
    simp only [List.map_map, List.length_map, List.nil_append]
    rfl
  · intro b hb
    obtain ⟨kp, hkp, kp', hkp', n, h⟩ := hsent b hb
    obtain ⟨i1, i2⟩ := generateBackup_ids h
    rw [hks, i1, i2]
    exact ⟨List.mem_map_of_mem (f := fun kp : ElectionKeyPair => kp.ownerId) hkp,
      List.mem_map_of_mem (f := fun kp : ElectionKeyPair => kp.ownerId) hkp'⟩
  · rw [hks]
    intro o ho x hx _
    obtain ⟨kp, hkp, rfl⟩ := List.mem_map.1 ho
    obtain ⟨kp', hkp', rfl⟩ := List.mem_map.1 hx
    exact hsentall kp hkp kp' hkp'

end EG
