import Verif.Spec.CliText
import Verif.Lemmas.GuiKeyCeremonyText
import Verif.Lemmas.GuiText
import Verif.Lemmas.CliCommands
import Verif.Props.GuiElection

/-!
# The texts of the files of the commands
-/

namespace EG

variable {E : Env}

/-! ### Reading a file as one type or another -/

theorem need_nil {α : Type} (k : String) (dec : Json → R α) : need [] k dec = .error .key := rfl

theorem read_encrypted {P : Params} {f : CliFile} (h : f.Typed P) : fromRaw (CBallot.ofJson P) f.toText = f.asEncrypted := by
  cases f with
  | encrypted b => exact raw_trip (CBallot.trip h)
  | submitted b =>
    have h1 := (SBallot.trip h).1
    have h2 := (CBallot.trip h).2.2
    rw [CliFile.toText, fromRaw, toRaw, jsonLoads_dumps' _ h1]
    simp only [CliFile.asEncrypted]
    rw [← h2]
    simp only [CBallot.ofJson, CBallot.ofMembers, SBallot.toJson, CBallot.toJson, CBallot.members, bind, Except.bind, asObj, List.cons_append, List.nil_append, need_cons, orElse_cons, String.reduceEq, if_true, if_false]
  | device d =>
    rw [CliFile.toText, fromRaw, toRaw, jsonLoads_dumps' _ (Device.trip d).1]
    simp [CBallot.ofJson, CBallot.ofMembers, Device.toJson, CliFile.asEncrypted, bind, Except.bind, asObj, need_cons, need_nil]
  | key r =>
    rw [CliFile.toText, fromRaw, toRaw, jsonLoads_dumps' _ (PrivateGuardianRecord.trip h).1]
    simp [CBallot.ofJson, CBallot.ofMembers, PrivateGuardianRecord.toJson, CliFile.asEncrypted, bind, Except.bind, asObj, need_cons, need_nil]

theorem read_submitted {P : Params} {f : CliFile} (h : f.Typed P) : fromRaw (SBallot.ofJson P) f.toText = f.asSubmitted := by
  cases f with
  | encrypted b =>
    have h1 := (CBallot.trip h).1
    have h2 := (CBallot.trip h).2.2
    simp only [CBallot.ofJson, CBallot.toJson, asObj, bind, Except.bind] at h2
    rw [CliFile.toText, fromRaw, toRaw, jsonLoads_dumps' _ h1]
    simp only [SBallot.ofJson, CBallot.toJson, asObj, bind, Except.bind, h2]
    simp [CBallot.members, need_cons, need_nil, CliFile.asSubmitted]
  | submitted b => exact raw_trip (SBallot.trip h)
  | device d =>
    rw [CliFile.toText, fromRaw, toRaw, jsonLoads_dumps' _ (Device.trip d).1]
    simp [SBallot.ofJson, CBallot.ofMembers, Device.toJson, CliFile.asSubmitted, bind, Except.bind, asObj, need_cons, need_nil]
  | key r =>
    rw [CliFile.toText, fromRaw, toRaw, jsonLoads_dumps' _ (PrivateGuardianRecord.trip h).1]
    simp [SBallot.ofJson, CBallot.ofMembers, PrivateGuardianRecord.toJson, CliFile.asSubmitted, bind, Except.bind, asObj, need_cons, need_nil]

theorem read_key {P : Params} {f : CliFile} (h : f.Typed P) : fromRaw (PrivateGuardianRecord.ofJson P) f.toText = f.asKey := by
  cases f with
  | encrypted b =>
    rw [CliFile.toText, fromRaw, toRaw, jsonLoads_dumps' _ (CBallot.trip h).1]
    simp [PrivateGuardianRecord.ofJson, CBallot.toJson, CBallot.members, CliFile.asKey, bind, Except.bind, asObj, need_cons, need_nil]
  | submitted b =>
    rw [CliFile.toText, fromRaw, toRaw, jsonLoads_dumps' _ (SBallot.trip h).1]
    simp [PrivateGuardianRecord.ofJson, SBallot.toJson, CBallot.members, CliFile.asKey, bind, Except.bind, asObj, need_cons, need_nil]
  | device d =>
    rw [CliFile.toText, fromRaw, toRaw, jsonLoads_dumps' _ (Device.trip d).1]
    simp [PrivateGuardianRecord.ofJson, Device.toJson, CliFile.asKey, bind, Except.bind, asObj, need_cons, need_nil]
  | key r => exact raw_trip (PrivateGuardianRecord.trip h)

theorem read_files {α : Type} {dec : Json → R α} {as : CliFile → R α} {fs : List CliFile}
    (h : ∀ f ∈ fs, fromRaw dec f.toText = as f) : (fs.map CliFile.toText).mapM (fromRaw dec) = fs.mapM as := by
  induction fs with
  | nil => rfl
  | cons f fs ih =>
    rw [List.map_cons, List.mapM_cons, List.mapM_cons, h f List.mem_cons_self, ih (fun f hf => h f (List.mem_cons_of_mem _ hf))]

/-! ### Writing files -/

theorem Dir.toText_dset (d : Dir) (k : String) (f : CliFile) : Dir.toText (dset d k f) = dset d.toText k f.toText :=
  (dset_map_snd CliFile.toText d k f).symm

theorem Dir.toText_foldl {α : Type} (l : List α) (name : α → String) (f : α → CliFile) (d : Dir) :
    Dir.toText (l.foldl (fun d x => dset d (name x) (f x)) d) = l.foldl (fun d x => dset d (name x) (f x).toText) d.toText := by
  induction l generalizing d with
  | nil => rfl
  | cons x l ih => rw [List.foldl_cons, List.foldl_cons, ih, Dir.toText_dset]

/-! ### The ceremony -/

theorem saveKey_typed {P : Params} {g : Guardian} {k : ElectionPublicKey} (h : g.exportPrivate.Typed P) (hk : k.Typed P) :
    (g.saveKey k).exportPrivate.Typed P :=
  ⟨h.1, h.2.1, DictOf.dset h.2.2.1 _ hk, h.2.2.2⟩

theorem saveBackup_typed {P : Params} {g : Guardian} {b : Backup} (h : g.exportPrivate.Typed P) (hb : b.Typed P) :
    (g.saveBackup b).exportPrivate.Typed P :=
  ⟨h.1, h.2.1, h.2.2.1, DictOf.dset h.2.2.2.1 _ hb, h.2.2.2.2⟩

theorem foldl_typed {P : Params} {α : Type} {f : Guardian → α → Guardian} {ok : α → Prop}
    (hf : ∀ g a, g.exportPrivate.Typed P → ok a → (f g a).exportPrivate.Typed P) {l : List α} (hl : ∀ a ∈ l, ok a) {g : Guardian}
    (h : g.exportPrivate.Typed P) : (l.foldl f g).exportPrivate.Typed P := by
  induction l generalizing g with
  | nil => exact h
  | cons a l ih => exact ih (fun b hb => hl b (List.mem_cons_of_mem _ hb)) (hf g a h (hl a List.mem_cons_self))

theorem generate_typed (hp : 0 < E.P.p) (nonces : Nat → Nat) (ks : List ElectionPublicKey) (i : Nat) {g g' : Guardian} {x : R Bool}
    (hg : g.exportPrivate.Typed E.P) (h : g.backupLoop E nonces ks i = (x, g')) : g'.exportPrivate.Typed E.P := by
  induction ks generalizing g i with
  | nil => cases h; exact hg
  | cons k ks ih =>
    simp only [Guardian.backupLoop] at h
    split at h
    · cases h; exact hg
    · rename_i b hb
      refine ih (i + 1) (g := { g with backupsToShare := dset g.backupsToShare k.ownerId b }) ⟨hg.1, DictOf.dset hg.2.1 _ ?_, hg.2.2⟩ h
      simp only [generateBackup, bindOk, pureOk] at hb
      obtain ⟨_, _, _, _, c, hc, rfl⟩ := hb
      exact hashedEncrypt_typed hp hc

theorem getOptional_ok {α : Type} {o : Option α} {a : α} (h : getOptional o = .ok a) : o = some a := by
  cases o <;> cases h; rfl

theorem shareAnnounced_typed {P : Params} {m : KCM} (hm : ∀ e ∈ m.keys, e.2.Typed P) {id : Option String} {ks : List ElectionPublicKey}
    (h : m.shareAnnounced id = .ok (some ks)) : ∀ k ∈ ks, k.Typed P := by
  unfold KCM.shareAnnounced at h
  split at h
  · cases h
  · simp only [bindOk, pureOk, Option.some.injEq] at h
    obtain ⟨ks', hks, rfl⟩ := h
    exact mapM_all (fun id _ k hk => hm _ (dgetR_mem hk)) hks

theorem shareBackups_typed {P : Params} {m : KCM} (hm : ∀ e ∈ m.backups, e.2.Typed P) {id : Option String} {bs : List Backup}
    (h : m.shareBackups id = .ok (some bs)) : ∀ b ∈ bs, b.Typed P := by
  unfold KCM.shareBackups at h
  have hall : ∀ b ∈ m.backups.map (·.2), b.Typed P := by
    intro b hb
    obtain ⟨e, he, rfl⟩ := List.mem_map.1 hb
    exact hm e he
  split at h
  · cases h
  · split at h
    · cases h; exact hall
    · rename_i id
      split at h
      · cases h; exact hall
      · cases hs : m.shareBackupsTo id with
        | error e => rw [hs] at h; cases h
        | ok bs' =>
          rw [hs] at h
          cases h
          exact mapM_all (fun id _ k hk => hm _ (dgetR_mem hk)) hs

theorem announceAll_typed {P : Params} {gs : List Guardian} (hg : ∀ g ∈ gs, g.exportPrivate.Typed P) {m : KCM}
    (hm : ∀ e ∈ m.keys, e.2.Typed P) : ∀ e ∈ (gs.foldl (fun m g => m.announce g.shareKey) m).keys, e.2.Typed P := by
  induction gs generalizing m with
  | nil => exact hm
  | cons g gs ih =>
    refine ih (fun g hg' => hg g (List.mem_cons_of_mem _ hg')) (fun e he => ?_)
    rcases mem_dset he with rfl | he
    · have h := (hg g List.mem_cons_self).1
      refine ⟨h.1.2, fun x hx => ?_, fun x hx => ?_⟩
      · obtain ⟨y, hy, rfl⟩ := List.mem_map.1 hx
        exact (h.2 y hy).2.1
      · obtain ⟨y, hy, rfl⟩ := List.mem_map.1 hx
        exact (h.2 y hy).2.2
    · exact hm e he

theorem announceAll_backups {gs : List Guardian} {m : KCM} : (gs.foldl (fun m g => m.announce g.shareKey) m).backups = m.backups := by
  induction gs generalizing m with
  | nil => rfl
  | cons g gs ih => exact ih

theorem receiveAll_typed {P : Params} {bs : List Backup} (hb : ∀ b ∈ bs, b.Typed P) {m : KCM} (hm : ∀ e ∈ m.backups, e.2.Typed P) :
    ∀ e ∈ (m.receiveBackups bs).backups, e.2.Typed P := by
  unfold KCM.receiveBackups
  split
  · exact hm
  · clear * - hb hm
    induction bs generalizing m with
    | nil => exact hm
    | cons b bs ih =>
      refine ih (fun b hb' => hb b (List.mem_cons_of_mem _ hb')) (fun e he => ?_)
      unfold KCM.receiveBackup at he
      split at he
      · exact hm e he
      · rcases mem_dset he with rfl | he
        · exact hb b List.mem_cons_self
        · exact hm e he

theorem generateAndSend_typed (hp : 0 < E.P.p) {nonces : String → Nat → Nat} {gs gs' : List Guardian} {m m' : KCM}
    (hg : ∀ g ∈ gs, g.exportPrivate.Typed E.P) (hm : ∀ e ∈ m.backups, e.2.Typed E.P)
    (h : generateAndSend E nonces gs m = .ok (gs', m')) :
    (∀ g ∈ gs', g.exportPrivate.Typed E.P) ∧ ∀ e ∈ m'.backups, e.2.Typed E.P := by
  induction gs generalizing m gs' m' with
  | nil => cases h; exact ⟨by simp, hm⟩
  | cons g gs ih =>
    simp only [generateAndSend, bindOk, pureOk] at h
    obtain ⟨_, hr, ⟨gs1, m1⟩, h1, h2⟩ := h
    cases h2
    have hgt : (g.generateBackups E (nonces g.id)).2.exportPrivate.Typed E.P :=
      generate_typed hp _ _ _ (hg g List.mem_cons_self) (Prod.eta _).symm
    have := ih (fun g hg' => hg g (List.mem_cons_of_mem _ hg')) (receiveAll_typed (fun b hb => by
      obtain ⟨e, he, rfl⟩ := List.mem_map.1 hb
      exact hgt.2.1.2 e he) hm) h1
    exact ⟨fun x hx => (List.mem_cons.1 hx).elim (fun h => h ▸ hgt) (this.1 x), this.2⟩

theorem ceremony_typed (hp : 0 < E.P.p) {loads : Bytes → R (List Char)} {nonces : String → Nat → Nat} {gs gs' : List Guardian} {m m' : KCM}
    (hg : ∀ g ∈ gs, g.exportPrivate.Typed E.P) (hk : ∀ e ∈ m.keys, e.2.Typed E.P) (hm : ∀ e ∈ m.backups, e.2.Typed E.P)
    (h : performFullCeremony E loads nonces gs m = .ok (gs', m')) : ∀ g ∈ gs', g.exportPrivate.Typed E.P := by
  simp only [performFullCeremony, performRound1, performRound2, bindOk, pureOk, Prod.mk.injEq] at h
  obtain ⟨⟨gs1, m1⟩, ⟨gs1', h1, h1e⟩, ⟨gs2, m2⟩, ⟨⟨gs3, m3⟩, h2, gs2', h3, h3e⟩, m4, -, rfl, -⟩ := h
  cases h1e
  cases h3e
  have hk1 := announceAll_typed hg hk
  have hg1 : ∀ g ∈ gs1, g.exportPrivate.Typed E.P := by
    refine mapM_all (fun g hg' g' hg'' => ?_) h1
    simp only [bindOk, pureOk] at hg''
    obtain ⟨o, ho, ks, hks, rfl⟩ := hg''
    rw [getOptional_ok hks] at ho
    exact foldl_typed (ok := ElectionPublicKey.Typed E.P) (fun _ _ h1 h2 => saveKey_typed h1 h2) (shareAnnounced_typed hk1 ho) (hg g hg')
  have hg2 := generateAndSend_typed hp hg1 (by rw [announceAll_backups]; exact hm) h2
  refine mapM_all (fun g hg' g' hg'' => ?_) h3
  simp only [bindOk, pureOk] at hg''
  obtain ⟨o, ho, ks, hks, rfl⟩ := hg''
  rw [getOptional_ok hks] at ho
  exact foldl_typed (ok := Backup.Typed E.P) (fun _ _ h1 h2 => saveBackup_typed h1 h2) (shareBackups_typed hg2.2 ho) (hg2.1 g hg')

theorem createGuardians_typed (hv : E.P.Valid) {d : CeremonyDetails} {rands : Nat → List (Nat × Nat)} (hr : PolynomialsInRange E.P rands)
    {gs : List Guardian} (h : createGuardians E d rands = .ok gs) : ∀ g ∈ gs, g.exportPrivate.Typed E.P := by
  refine mapM_all (fun i _ g hg => ?_) h
  simp only [Guardian.fromRandom, bindOk, pureOk] at hg
  obtain ⟨kp, hkp, rfl⟩ := hg
  have hpoly : ∀ c ∈ generatePolynomial E (rands i), c.Typed E.P := by
    intro c hc
    simp only [generatePolynomial, List.mem_map] at hc
    obtain ⟨r, hr', rfl⟩ := hc
    exact mkCoefficient_typed hv (hr i r hr')
  unfold generateElectionKeyPair at hkp
  simp only at hkp
  split at hkp
  · cases hkp
  · rename_i c cs heq
    cases hkp
    have hc : c.Typed E.P := hpoly c (by rw [heq]; exact List.mem_cons_self)
    refine saveKey_typed ⟨⟨⟨hc.1, hc.2.1⟩, hpoly⟩, DictOf.nil _, DictOf.nil _, DictOf.nil _, List.nodup_nil⟩
      ⟨hc.2.1, fun x hx => ?_, fun x hx => ?_⟩
    · obtain ⟨y, hy, rfl⟩ := List.mem_map.1 hx
      exact (hpoly y hy).2.1
    · obtain ⟨y, hy, rfl⟩ := List.mem_map.1 hx
      exact (hpoly y hy).2.2

theorem runKeyCeremony_typed (hp : 0 < E.P.p) {loads : Bytes → R (List Char)} {nonces : String → Nat → Nat} {gs gs' : List Guardian}
    {jk : ElectionJointKey} (hg : ∀ g ∈ gs, g.exportPrivate.Typed E.P) (h : runKeyCeremony E loads nonces gs = .ok (gs', jk)) :
    ∀ g ∈ gs', g.exportPrivate.Typed E.P := by
  cases gs with
  | nil => cases h
  | cons g gs =>
    simp only [runKeyCeremony, bindOk, pureOk, Prod.mk.injEq] at h
    obtain ⟨⟨gs1, m⟩, h1, _, -, rfl, -⟩ := h
    exact ceremony_typed hp hg (by simp [KCM.init]) (by simp [KCM.init]) h1

theorem guardian_shareKey_typed {P : Params} {g : Guardian} (h : g.exportPrivate.Typed P) : g.shareKey.Typed P := by
  refine ⟨h.1.1.2, fun x hx => ?_, fun x hx => ?_⟩
  · obtain ⟨y, hy, rfl⟩ := List.mem_map.1 hx
    exact (h.1.2 y hy).2.1
  · obtain ⟨y, hy, rfl⟩ := List.mem_map.1 hx
    exact (h.1.2 y hy).2.2

theorem publishJointKey_typed (hp : 1 < E.P.p) (hq : 0 < E.P.q) {m : KCM} {jk : ElectionJointKey} (h : m.publishJointKey E = some jk) : jk.Typed E.P := by
  unfold KCM.publishJointKey at h
  split at h
  · cases h
  · cases h
    exact ⟨multPs_lt hp _, hashElems_lt hq _⟩

theorem runKeyCeremony_joint (hp : 1 < E.P.p) (hq : 0 < E.P.q) {loads : Bytes → R (List Char)} {nonces : String → Nat → Nat}
    {gs gs' : List Guardian} {jk : ElectionJointKey} (h : runKeyCeremony E loads nonces gs = .ok (gs', jk)) : jk.Typed E.P := by
  cases gs with
  | nil => cases h
  | cons g gs =>
    simp only [runKeyCeremony, bindOk, pureOk, Prod.mk.injEq] at h
    obtain ⟨⟨gs1, m⟩, -, jk', hj, -, rfl⟩ := h
    exact publishJointKey_typed hp hq (getOptional_ok hj)

theorem buildElection_typed (hq : 0 < E.P.q) {n quorum : Int} {m : Manifest} (hm : m.isValid = true) {key ch : Nat} {url : Option String} {im : InternalManifest}
    {ctx : Context} {ext : Option (List (String × String))} (hk : key < E.P.p) (hc : ch < E.P.q)
    (h : buildElection E n quorum m key ch url = .ok (im, ctx, ext)) :
    im.manifestHash < E.P.q ∧ ctx.Typed E.P ∧ ∀ d ∈ ext, Keys d := by
  rw [buildElection_eq hm] at h
  cases hi : mkInternalManifest E m with
  | error e => rw [hi] at h; cases h
  | ok im' =>
    rw [hi] at h
    cases h
    refine ⟨?_, ⟨hk, hc, hashElems_lt hq _, hashElems_lt hq _, hashElems_lt hq _⟩, fun d hd => ?_⟩
    · simp only [mkInternalManifest, bindOk, pureOk] at hi
      obtain ⟨_, _, rfl⟩ := hi
      exact hashElems_lt hq _
    · cases url with
      | none => cases hd
      | some u => cases hd; simp [Keys]

/-! ### Ballots -/

theorem encryptLoop_typed (hp : 1 < E.P.p) (hq : 0 < E.P.q) {json : ContestData → Bytes} {im : InternalManifest} {ctx : Context}
    (hm : im.manifestHash < E.P.q) {calls : List (PlaintextBallot × Nat × Int)} (hn : ∀ c ∈ calls, c.2.1 < E.P.q) {seed : Nat}
    (hs : seed < E.P.q) {cs : List CBallot} (h : encryptLoop E json im ctx seed calls = .ok cs) : ∀ c ∈ cs, c.Typed E.P := by
  induction calls generalizing seed cs with
  | nil => cases h; simp
  | cons call calls ih =>
    obtain ⟨b, nonce, now⟩ := call
    simp only [encryptLoop, mediatorEncrypt, bindOk, pureOk] at h
    obtain ⟨⟨enc, seed'⟩, ⟨o, ho, he⟩, c, hc, cs', hcs, rfl⟩ := h
    have hc' := getOptional_ok hc
    simp only at hc' hcs
    cases o with
    | none => cases he; cases hc'
    | some c' =>
      cases he
      cases hc'
      have hct := encryptBallot_typed hp hq hm hs (hn _ List.mem_cons_self) ho
      intro x hx
      rcases List.mem_cons.1 hx with rfl | hx
      · exact hct
      · exact ih (fun c hc => hn c (List.mem_cons_of_mem _ hc)) hct.2.2.2.1 hcs x hx

theorem box_typed (hq : 0 < E.P.q) {im : InternalManifest} {ctx : Context} {store : Store SBallot} {b : CBallot} (hb : b.Typed E.P)
    (hs : ∀ e ∈ store, e.2.toCBallot.Typed E.P) (st : BallotBoxState) :
    ∀ e ∈ (submitBallotToBox E b st im ctx store).2, e.2.toCBallot.Typed E.P := by
  unfold submitBallotToBox
  split
  · exact hs
  · exact hs
  · split
    · exact hs
    · intro e he
      simp only [Store.set] at he
      rcases mem_dset he with rfl | he
      · exact submitBallot_typed hq hb st
      · exact hs e he

theorem submitLoop_typed {box : Store SBallot → CBallot → R (Option SBallot) × Store SBallot}
    (hbox : ∀ store b, b.Typed E.P → (∀ e ∈ store, e.2.toCBallot.Typed E.P) → ∀ e ∈ (box store b).2, e.2.toCBallot.Typed E.P)
    {bs : List CBallot} (hb : ∀ b ∈ bs, b.Typed E.P) {store store' : Store SBallot} (hs : ∀ e ∈ store, e.2.toCBallot.Typed E.P)
    (h : submitLoop box bs store = .ok store') : ∀ e ∈ store', e.2.toCBallot.Typed E.P := by
  induction bs generalizing store with
  | nil => cases h; exact hs
  | cons b bs ih =>
    simp only [submitLoop, bindOk] at h
    obtain ⟨_, -, h⟩ := h
    exact ih (fun b hb' => hb b (List.mem_cons_of_mem _ hb')) (hbox _ _ (hb b List.mem_cons_self) hs) h

theorem submitBallots_typed (hq : 0 < E.P.q) {im : InternalManifest} {ctx : Context} {cast spoil : List CBallot}
    (hc : ∀ b ∈ cast, b.Typed E.P) (hs : ∀ b ∈ spoil, b.Typed E.P) {bs : List SBallot} (h : submitBallots E im ctx cast spoil = .ok bs) :
    ∀ b ∈ bs, b.toCBallot.Typed E.P := by
  simp only [submitBallots, bindOk, pureOk] at h
  obtain ⟨s1, h1, s2, h2, rfl⟩ := h
  have := submitLoop_typed (fun store b hb hs => box_typed hq hb hs .spoiled) hs
    (submitLoop_typed (fun store b hb hs => box_typed hq hb hs .cast) hc (by simp) h1) h2
  intro b hb
  obtain ⟨e, he, rfl⟩ := List.mem_map.1 hb
  exact this e he

theorem castAndSpoil_typed (hq : 0 < E.P.q) {im : InternalManifest} {ctx : Context} {spoilId : Option String} {bs : List CBallot}
    (hb : ∀ b ∈ bs, b.Typed E.P) {store store' : Store SBallot} (hs : ∀ e ∈ store, e.2.toCBallot.Typed E.P)
    (h : castAndSpoil E im ctx spoilId bs store = .ok store') : ∀ e ∈ store', e.2.toCBallot.Typed E.P := by
  induction bs generalizing store with
  | nil => cases h; exact hs
  | cons b bs ih =>
    simp only [castAndSpoil, bindOk] at h
    obtain ⟨_, -, _, -, h⟩ := h
    refine ih (fun b hb' => hb b (List.mem_cons_of_mem _ hb')) ?_ h
    split
    · exact box_typed hq (hb b List.mem_cons_self) hs .spoiled
    · exact box_typed hq (hb b List.mem_cons_self) hs .cast

/-! ### The tally and its decryption -/

theorem cliTally_typed (hp : 1 < E.P.p) (hq : 0 < E.P.q) {im : InternalManifest} {ctx : Context} {bs : List SBallot} {t : Tally}
    (h : cliTally E im ctx bs = .ok t) : DictOf (TallyContest.Typed E.P) t.contests := by
  unfold cliTally Tally.batchAppend Tally.batchAppendIter at h
  cases hb : batchLoop E im ctx true bs (newTally E "election-results" im) [] with
  | mk r t' =>
    rw [hb] at h
    cases r with
    | error e => cases h
    | ok d =>
      cases h
      refine executeAccumulate_typed hp ?_
      have := batchLoop_contests (E := E) (v := true) (ctx := ctx) (m := im) bs (newTally E "election-results" im) []
      rw [hb] at this
      simp only at this
      rw [this]
      exact newTally_typed hp hq _ _

theorem ballotShares_typed (hv : E.P.Valid) {g : Guardian} (hk : g.electionKeys.keyPair.pub < E.P.p) {bs : List SBallot}
    (hb : ∀ b ∈ bs, b.toCBallot.Typed E.P) {ctx : Context} {seeds : Nat → Nat → Nat → Nat} :
    ∀ e ∈ g.computeBallotShares E bs ctx seeds, ∀ sh ∈ e.2, sh.Typed E.P := by
  have : DictOf (fun o : Option DecShare => ∀ sh ∈ o, sh.Typed E.P) (g.computeBallotShares E bs ctx seeds) := by
    refine DictOf.foldl (fun d x hx hd => hd.dset _ fun sh hsh => ?_) (DictOf.nil _)
    have hx' : x.1 ∈ bs := by
      obtain ⟨_, -, hi⟩ := List.mem_zipIdx (x := x.1) (i := x.2) hx
      rw [hi]
      exact List.getElem_mem _
    exact shareForContests_typed hv hk (fun c hc => (ballot_cts (hb _ hx') c hc).1) hsh
  exact this.2

theorem cliAnnounce_typed (hv : E.P.Valid) {sd : TallySeeds} {ctx : Context} {t : Tally} (ht : DictOf (TallyContest.Typed E.P) t.contests)
    {bs : List SBallot} (hb : ∀ b ∈ bs, b.toCBallot.Typed E.P) {gs : List Guardian} (hg : ∀ g ∈ gs, g.electionKeys.keyPair.pub < E.P.p)
    {dm dm' : DM} (hd : dm.SharesTyped E.P) (h : cliAnnounce E sd ctx t bs gs dm = .ok dm') : dm'.SharesTyped E.P := by
  induction gs generalizing dm with
  | nil => cases h; exact hd
  | cons g gs ih =>
    simp only [cliAnnounce, bindOk] at h
    obtain ⟨sh, hsh, h⟩ := h
    have hcts := tally_cts ht
    exact ih (fun g hg' => hg g (List.mem_cons_of_mem _ hg')) (announce_typed hd
      (shareForContests_typed hv (hg g List.mem_cons_self) (fun c hc => (hcts c hc).1) (getOptional_ok hsh))
      (ballotShares_typed hv (hg g List.mem_cons_self) hb)) h

/-- Elements and dicts of the results. -/
structure DecryptResults.Typed (P : Params) (r : DecryptResults) : Prop where
  tally : r.tally.Typed P
  spoiled : ∀ e ∈ r.spoiled, e.2.Typed P
  ciphertextTally : DictOf (TallyContest.Typed P) r.ciphertextTally.contests
  lagrange : DictOf (fun n => n < P.q) r.lagrange

theorem cliDecrypt_typed (hv : E.P.Valid) {sd : TallySeeds} {maxE : Nat} {ctx : Context} {t : Tally}
    (ht : DictOf (TallyContest.Typed E.P) t.contests) {bs : List SBallot} (hb : ∀ b ∈ bs, b.toCBallot.Typed E.P) {gs : List Guardian}
    (hg : ∀ g ∈ gs, g.electionKeys.keyPair.pub < E.P.p) {m : Manifest} {r : DecryptResults} (h : cliDecrypt E sd maxE ctx t bs gs m = .ok r) :
    r.Typed E.P := by
  simp only [cliDecrypt, bindOk, pureOk] at h
  obtain ⟨dm, hdm, l, hl, opt, hopt, pt, hpt, opbs, hopbs, pbs, hpbs, rfl⟩ := h
  have hdt : dm.SharesTyped E.P := cliAnnounce_typed hv ht hb hg ⟨by simp [DM.init], by simp [DM.init]⟩ hdm
  rw [getOptional_ok hpt] at hopt
  rw [getOptional_ok hpbs] at hopbs
  refine ⟨?_, ?_, ht, lagrange_typed hv.one_lt_q hl⟩
  · unfold DM.plaintextTally at hopt
    split at hopt
    · cases hopt
    · simp only [decryptTally, bindOk, pureOk] at hopt
      obtain ⟨o, ho, hopt⟩ := hopt
      cases o with
      | none => cases hopt
      | some cs =>
        cases hopt
        exact decryptContests_typed hv.one_lt_p hdt.1 (tally_cts ht) (DictOf.nil _) ho
  · unfold DM.plaintextBallots at hopbs
    split at hopbs
    · cases hopbs
    · cases hx : plaintextBallotsLoop E maxE dm ctx m bs [] with
      | error e => rw [hx] at hopbs; cases hopbs
      | ok x =>
        rw [hx] at hopbs
        cases hopbs
        exact plaintextBallots_typed hv.one_lt_p hdt hb (by simp) hx

theorem exportRecord_typed {P : Params} {m : Manifest} {ctx : Context} {ext : Option (List (String × String))} {constants : Constants}
    {devices : List Device} {bs : List SBallot} {res : DecryptResults} {gs : List Guardian} (hm : m.Typed)
    (hp : ∀ c ∈ m.contests, c.primaryPartyIds = none) (hc : ctx.Typed P) (he : ∀ d ∈ ext, Keys d) (hb : ∀ b ∈ bs, b.toCBallot.Typed P)
    (hr : res.Typed P) (hg : ∀ g ∈ gs, g.exportPrivate.Typed P) :
    (exportRecord m ctx ext constants devices bs (res.spoiled.map (·.2)) res.ciphertextTally.publish res.tally
      (some (gs.map Guardian.publish)) res.lagrange).Typed P where
  manifest := hm
  parties := hp
  context := hc
  extendedData := he
  coefficients := hr.lagrange
  guardians := fun e he => by
    obtain ⟨g, hg', h⟩ := List.mem_map.1 (writeAll_mem e he)
    rw [← h]
    exact guardian_shareKey_typed (hg g hg')
  submitted := fun e he => hb _ (writeAll_mem e he)
  spoiled := fun e he => by
    obtain ⟨x, hx, h⟩ := List.mem_map.1 (writeAll_mem e he)
    rw [← h]
    exact hr.spoiled x hx
  encryptedTally := hr.ciphertextTally
  tally := hr.tally

end EG
