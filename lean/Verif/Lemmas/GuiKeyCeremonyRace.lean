import Verif.Lemmas.GuiKeyCeremony

/-!
# Lemmas on the key ceremony in the GUI: all interleavings
-/

namespace EG

variable {E : Env} {loads : Bytes → R (List Char)}

/-- The document `d` may have been read before the document became `d'`. -/
structure KCDoc.Le (d d' : KCDoc) : Prop where
  count : d.guardianCount = d'.guardianCount
  quorum : d.quorum = d'.quorum
  joined : d.joined <+: d'.joined
  keys : d.keys <+: d'.keys
  backups : d.backups <+: d'.backups
  verifications : d.verifications <+: d'.verifications

theorem KCDoc.Le.refl (d : KCDoc) : d.Le d :=
  ⟨rfl, rfl, List.prefix_refl _, List.prefix_refl _, List.prefix_refl _, List.prefix_refl _⟩

theorem KCDoc.Le.trans {a b c : KCDoc} (h : a.Le b) (h' : b.Le c) : a.Le c :=
  ⟨h.count.trans h'.count, h.quorum.trans h'.quorum, h.joined.trans h'.joined, h.keys.trans h'.keys,
    h.backups.trans h'.backups, h.verifications.trans h'.verifications⟩

theorem KCDoc.le_apply (d : KCDoc) (u : KCUpdate) : d.Le (d.apply u) := by
  cases u <;> refine ⟨rfl, rfl, ?_, ?_, ?_, ?_⟩ <;> simp [KCDoc.apply]

/-- Private files are only added. -/
def FilesLe (f f' : List (String × PrivateGuardianRecord)) : Prop := ∀ u r, dget f u = some r → dget f' u = some r

theorem FilesLe.refl (f : List (String × PrivateGuardianRecord)) : FilesLe f f := fun _ _ h => h

/-- A backup made from the private file of its owner. -/
def GoodBackup (E : Env) (d : KCDoc) (files : List (String × PrivateGuardianRecord)) (b : Backup) : Prop :=
  b.ownerId ∈ d.joined ∧ ∃ r, dget files b.ownerId = some r ∧ ∃ k ∈ d.keys, ∃ n,
    generateBackup E b.ownerId r.electionKeys.polynomial k n = .ok b

/-- A verification made by the designated guardian from its private file and the published key. -/
def GoodVerification (E : Env) (loads : Bytes → R (List Char)) (d : KCDoc) (files : List (String × PrivateGuardianRecord))
    (v : Verification) : Prop :=
  ∃ b ∈ d.backups, ∃ r, dget files b.designatedId = some r ∧ ∃ k ∈ d.keys, k.ownerId = b.ownerId ∧
    verifyBackup E loads b.designatedId b k r.electionKeys = .ok v

/-- The entries of the document were made by the stages. -/
structure GoodDoc (E : Env) (loads : Bytes → R (List Char)) (d : KCDoc) (files : List (String × PrivateGuardianRecord)) :
    Prop where
  keysJoined : ∀ k ∈ d.keys, k.ownerId ∈ d.joined
  keysFile : ∀ k ∈ d.keys, ∃ r, dget files k.ownerId = some r ∧ r.electionKeys.share = k
  keysNodup : (d.keys.map (fun k => k.ownerId)).Nodup
  otherKeys : ∀ e ∈ d.otherKeys, e.1 ∈ d.joined ∧ (∃ k ∈ d.keys, k.ownerId = e.1) ∧ ∀ k ∈ e.2, k ∈ d.keys
  backups : ∀ b ∈ d.backups, GoodBackup E d files b
  sharedBackups : ∀ e ∈ d.sharedBackups, ∀ b ∈ e.2, b ∈ d.backups ∧ b.designatedId = e.1
  verifications : ∀ v ∈ d.verifications, GoodVerification E loads d files v

/-- An update that a stage computed. -/
def GoodUpdate (E : Env) (loads : Bytes → R (List Char)) (d : KCDoc) (files : List (String × PrivateGuardianRecord)) :
    KCUpdate → Prop
  | .joined _ => False
  | .key _ => False
  | .otherKeys l => ∀ e ∈ l, e.1 ∈ d.joined ∧ (∃ k ∈ d.keys, k.ownerId = e.1) ∧ ∀ k ∈ e.2, k ∈ d.keys
  | .backups bs => ∀ b ∈ bs, GoodBackup E d files b
  | .sharedBackups l => ∀ e ∈ l, ∀ b ∈ e.2, b ∈ d.backups ∧ b.designatedId = e.1
  | .verifications vs => ∀ v ∈ vs, GoodVerification E loads d files v
  | .jointKey jk => ∃ read : KCDoc, read.Le d ∧ GoodDoc E loads read files ∧ read.publish E = .ok jk
  | .complete => True

theorem GoodBackup.mono {d d' : KCDoc} {f f' : List (String × PrivateGuardianRecord)} {b : Backup} (hd : d.Le d')
    (hf : FilesLe f f') (h : GoodBackup E d f b) : GoodBackup E d' f' b := by
  obtain ⟨h0, r, h1, k, h2, h3⟩ := h
  exact ⟨hd.joined.subset h0, r, hf _ _ h1, k, hd.keys.subset h2, h3⟩

theorem GoodVerification.mono {d d' : KCDoc} {f f' : List (String × PrivateGuardianRecord)} {v : Verification}
    (hd : d.Le d') (hf : FilesLe f f') (h : GoodVerification E loads d f v) : GoodVerification E loads d' f' v := by
  obtain ⟨b, h0, r, h1, k, h2, h3⟩ := h
  exact ⟨b, hd.backups.subset h0, r, hf _ _ h1, k, hd.keys.subset h2, h3⟩

theorem GoodDoc.mono {d : KCDoc} {f f' : List (String × PrivateGuardianRecord)} (hf : FilesLe f f')
    (h : GoodDoc E loads d f) : GoodDoc E loads d f' where
  keysJoined := h.keysJoined
  keysFile := fun k hk => by
    obtain ⟨r, h1, h2⟩ := h.keysFile k hk
    exact ⟨r, hf _ _ h1, h2⟩
  keysNodup := h.keysNodup
  otherKeys := h.otherKeys
  backups := fun b hb => (h.backups b hb).mono (.refl d) hf
  sharedBackups := h.sharedBackups
  verifications := fun v hv => (h.verifications v hv).mono (.refl d) hf

theorem GoodUpdate.mono {d d' : KCDoc} {f f' : List (String × PrivateGuardianRecord)} {u : KCUpdate} (hd : d.Le d')
    (hf : FilesLe f f') (h : GoodUpdate E loads d f u) : GoodUpdate E loads d' f' u := by
  cases u with
  | joined => exact h
  | key => exact h
  | otherKeys l =>
    intro e he
    obtain ⟨h1, ⟨k, h2, h3⟩, h4⟩ := h e he
    exact ⟨hd.joined.subset h1, ⟨k, hd.keys.subset h2, h3⟩, fun k hk => hd.keys.subset (h4 k hk)⟩
  | backups bs => exact fun b hb => (h b hb).mono hd hf
  | sharedBackups l => exact fun e he b hb => ⟨hd.backups.subset (h e he b hb).1, (h e he b hb).2⟩
  | verifications vs => exact fun v hv => (h v hv).mono hd hf
  | jointKey jk =>
    obtain ⟨read, h1, h2, h3⟩ := h
    exact ⟨read, h1.trans hd, h2.mono hf, h3⟩
  | complete => trivial

theorem GoodDoc.apply {d : KCDoc} {f : List (String × PrivateGuardianRecord)} {u : KCUpdate} (h : GoodDoc E loads d f)
    (hu : GoodUpdate E loads d f u) : GoodDoc E loads (d.apply u) f := by
  have hle := d.le_apply u
  cases u with
  | joined => exact hu.elim
  | key => exact hu.elim
  | otherKeys l =>
    refine ⟨h.keysJoined, h.keysFile, h.keysNodup, fun e he => ?_, h.backups, h.sharedBackups, h.verifications⟩
    rcases List.mem_append.1 he with he | he
    · exact h.otherKeys e he
    · exact hu e he
  | backups bs =>
    refine ⟨h.keysJoined, h.keysFile, h.keysNodup, h.otherKeys, fun b hb => ?_, fun e he b hb => ?_, fun v hv => ?_⟩
    · rcases List.mem_append.1 hb with hb | hb
      · exact (h.backups b hb).mono hle (.refl f)
      · exact (hu b hb).mono hle (.refl f)
    · exact ⟨hle.backups.subset (h.sharedBackups e he b hb).1, (h.sharedBackups e he b hb).2⟩
    · exact (h.verifications v hv).mono hle (.refl f)
  | sharedBackups l =>
    refine ⟨h.keysJoined, h.keysFile, h.keysNodup, h.otherKeys, h.backups, fun e he => ?_, h.verifications⟩
    rcases List.mem_append.1 he with he | he
    · exact h.sharedBackups e he
    · exact hu e he
  | verifications vs =>
    refine ⟨h.keysJoined, h.keysFile, h.keysNodup, h.otherKeys, h.backups, h.sharedBackups, fun v hv => ?_⟩
    rcases List.mem_append.1 hv with hv | hv
    · exact h.verifications v hv
    · exact hu v hv
  | jointKey jk =>
    exact ⟨h.keysJoined, h.keysFile, h.keysNodup, h.otherKeys, h.backups, h.sharedBackups, h.verifications⟩
  | complete =>
    exact ⟨h.keysJoined, h.keysFile, h.keysNodup, h.otherKeys, h.backups, h.sharedBackups, h.verifications⟩

theorem GoodDoc.joined {d : KCDoc} {f : List (String × PrivateGuardianRecord)} (h : GoodDoc E loads d f) (u : String) :
    GoodDoc E loads (d.apply (.joined u)) f where
  keysJoined := fun k hk => List.mem_append_left _ (h.keysJoined k hk)
  keysFile := h.keysFile
  keysNodup := h.keysNodup
  otherKeys := fun e he => ⟨List.mem_append_left _ (h.otherKeys e he).1, (h.otherKeys e he).2⟩
  backups := fun b hb => (h.backups b hb).mono (d.le_apply _) (.refl f)
  sharedBackups := h.sharedBackups
  verifications := fun v hv => (h.verifications v hv).mono (d.le_apply _) (.refl f)

theorem GoodDoc.key {d : KCDoc} {f : List (String × PrivateGuardianRecord)} (h : GoodDoc E loads d f)
    (k : ElectionPublicKey) (hk : k.ownerId ∈ d.joined) (hf : ∃ r, dget f k.ownerId = some r ∧ r.electionKeys.share = k)
    (hn : k.ownerId ∉ d.keys.map (fun k => k.ownerId)) : GoodDoc E loads (d.apply (.key k)) f := by
  have hle := d.le_apply (.key k)
  refine ⟨fun x hx => ?_, fun x hx => ?_, ?_, fun e he => ?_, fun b hb => (h.backups b hb).mono hle (.refl f), h.sharedBackups,
    fun v hv => (h.verifications v hv).mono hle (.refl f)⟩
  · rcases List.mem_append.1 hx with hx | hx
    · exact h.keysJoined x hx
    · rw [List.mem_singleton.1 hx]; exact hk
  · rcases List.mem_append.1 hx with hx | hx
    · exact h.keysFile x hx
    · rw [List.mem_singleton.1 hx]; exact hf
  · show ((d.keys ++ [k]).map (fun k => k.ownerId)).Nodup
    rw [List.map_append, List.nodup_append]
    refine ⟨h.keysNodup, by simp, fun a ha b hb => ?_⟩
    simp only [List.map_cons, List.map_nil, List.mem_singleton] at hb
    rintro rfl
    exact hn (hb ▸ ha)
  · obtain ⟨h1, ⟨k', h2, h3⟩, h4⟩ := h.otherKeys e he
    exact ⟨h1, ⟨k', List.mem_append_left _ h2, h3⟩, fun x hx => List.mem_append_left _ (h4 x hx)⟩

/-- What a stage computes from a good document. -/
theorem compute_good {d d' : KCDoc} {files : List (String × PrivateGuardianRecord)} {user : String} {nonces : Nat → Nat}
    {st : KCStage} {us : List KCUpdate} (h : GoodDoc E loads d files)
    (hfiles : ∀ u r, dget files u = some r → FreshRecord E d' u r) (hnamed : "" ∉ d.joined)
    (hc : st.compute E loads d user (dget files user) nonces = .ok us) : ∀ u ∈ us, GoodUpdate E loads d files u := by
  cases st with
  | announce =>
    unfold KCStage.compute at hc
    cases ha : d.announce with
    | error e => rw [ha] at hc; cases hc
    | ok l =>
      rw [ha] at hc
      cases hc
      intro u hu
      rw [List.mem_singleton.1 hu]
      obtain ⟨h1, h2⟩ := announce_ok ha
      intro e he
      obtain ⟨k, hk⟩ := h1 e.1 (h2 e he).1
      exact ⟨(h2 e he).1, ⟨k, findKey_ok hk⟩, fun k hk => (findKey_ok ((h2 e he).2 k hk)).1⟩
  | makeBackups =>
    unfold KCStage.compute at hc
    cases ha : d.makeBackups E user (dget files user) nonces with
    | error e => rw [ha] at hc; cases hc
    | ok l =>
      rw [ha] at hc
      cases hc
      intro u hu
      rw [List.mem_singleton.1 hu]
      obtain ⟨r, ks, hr, hks, hb⟩ := makeBackups_ok (d' := d') (fun r hr => hfiles user r hr) ha
      obtain ⟨ho1, ⟨k0, hk0, hk0'⟩, ho2⟩ := h.otherKeys _ hks
      intro b hbl
      obtain ⟨k, hk, n, hn⟩ := hb b hbl
      have hbo := (generateBackup_ids hn).1
      unfold GoodBackup
      rw [hbo]
      refine ⟨ho1, r, hr, k, ?_, n, hn⟩
      rcases hk with rfl | hk
      · obtain ⟨r', hr', hsh⟩ := h.keysFile k0 hk0
        rw [hk0', hr] at hr'
        cases hr'
        rw [hsh]
        exact hk0
      · exact ho2 k hk
  | shareBackups =>
    unfold KCStage.compute at hc
    cases ha : d.shareBackups with
    | error e => rw [ha] at hc; cases hc
    | ok l =>
      rw [ha] at hc
      cases hc
      intro u hu
      rw [List.mem_singleton.1 hu]
      exact fun e he => (shareBackups_ok ha hnamed e he).2
  | verifyBackups =>
    unfold KCStage.compute at hc
    cases ha : d.verifyBackups E loads user (dget files user) with
    | error e => rw [ha] at hc; cases hc
    | ok l =>
      rw [ha] at hc
      cases hc
      intro u hu
      rw [List.mem_singleton.1 hu]
      obtain ⟨r, ks, bs, hr, hks, hbs, hv⟩ := verifyBackups_ok (d' := d') (fun r hr => hfiles user r hr) ha
      obtain ⟨-, ⟨k0, hk0, hk0'⟩, ho2⟩ := h.otherKeys _ hks
      intro v hvl
      obtain ⟨b, hb, k, hkb, hk, hver⟩ := hv v hvl
      obtain ⟨hb1, hb2⟩ := h.sharedBackups _ hbs b hb
      have hb2' : b.designatedId = user := hb2
      refine ⟨b, hb1, r, by rw [hb2']; exact hr, k, ?_, hkb, by rw [hb2']; exact hver⟩
      rcases hk with rfl | hk
      · obtain ⟨r', hr', hsh⟩ := h.keysFile k0 hk0
        rw [hk0', hr] at hr'
        cases hr'
        rw [hsh]
        exact hk0
      · exact ho2 k hk
  | publish =>
    unfold KCStage.compute at hc
    cases ha : d.publish E with
    | error e => rw [ha] at hc; cases hc
    | ok l =>
      rw [ha] at hc
      cases hc
      intro u hu
      rcases List.mem_cons.1 hu with rfl | hu
      · exact ⟨d, .refl d, h, ha⟩
      · rw [List.mem_singleton.1 hu]
        trivial

/-- The user of a call that joins. -/
def KCProc.joinUser : KCProc → Option String
  | .joining u => some u
  | .numbered u _ _ _ => some u
  | .saved k => some k.ownerId
  | _ => none

/-- The user whose private file a call has saved. -/
def KCProc.savedUser : KCProc → Option String
  | .saved k => some k.ownerId
  | _ => none

/-- What holds of a call that is under way. -/
def KCProc.Good (E : Env) (loads : Bytes → R (List Char)) (d : KCDoc) (files : List (String × PrivateGuardianRecord)) :
    KCProc → Prop
  | .joining _ => True
  | .numbered u number n quorum => number = (d.joined.idxOf u : Int) + 1 ∧ n = d.guardianCount ∧ quorum = d.quorum
  | .saved k => ∃ r, dget files k.ownerId = some r ∧ r.electionKeys.share = k
  | .running _ _ read => read.Le d ∧ GoodDoc E loads read files
  | .writing us => ∀ u ∈ us, GoodUpdate E loads d files u

/-- What holds in every interleaving, as long as no user joined twice. -/
structure RaceInv (E : Env) (loads : Bytes → R (List Char)) (d : KCDoc) (files : List (String × PrivateGuardianRecord))
    (procs : List KCProc) : Prop where
  fresh : ∀ u r, dget files u = some r → FreshRecord E d u r
  owners : List.Subperm (procs.filterMap KCProc.joinUser ++ d.keys.map (fun k => k.ownerId)) d.joined
  all : 0 < d.quorum → ∀ u ∈ d.joined, u ∈ procs.filterMap KCProc.joinUser ++ d.keys.map (fun k => k.ownerId)
  owned : ∀ u ∈ dkeys files, u ∈ procs.filterMap KCProc.savedUser ++ d.keys.map (fun k => k.ownerId)
  good : GoodDoc E loads d files
  calls : ∀ p ∈ procs, p.Good E loads d files
  joint : ∀ jk, d.jointKey = some jk → GoodUpdate E loads d files (.jointKey jk)

theorem RaceInv.perm {d : KCDoc} {files : List (String × PrivateGuardianRecord)} {ps ps' : List KCProc} (hp : ps.Perm ps')
    (h : RaceInv E loads d files ps) : RaceInv E loads d files ps' where
  fresh := h.fresh
  owners := ((hp.filterMap KCProc.joinUser).append_right _).symm.subperm.trans h.owners
  all := fun hq u hu => ((hp.filterMap KCProc.joinUser).append_right _).subset (h.all hq u hu)
  owned := fun u hu => ((hp.filterMap KCProc.savedUser).append_right _).subset (h.owned u hu)
  good := h.good
  calls := fun p hp' => h.calls p (hp.symm.subset hp')
  joint := h.joint

theorem KCProc.Good.mono {d d' : KCDoc} {f f' : List (String × PrivateGuardianRecord)} {p : KCProc} (hd : d.Le d')
    (hf : FilesLe f f') (hj : ∀ u, p.joinUser = some u → u ∈ d.joined) (h : p.Good E loads d f) : p.Good E loads d' f' := by
  cases p with
  | joining => trivial
  | numbered u number n quorum =>
    obtain ⟨h1, h2, h3⟩ := h
    refine ⟨?_, h2.trans hd.count, h3.trans hd.quorum⟩
    obtain ⟨l, hl⟩ := hd.joined
    rw [h1, ← hl, List.idxOf_append_of_mem (hj u rfl)]
  | saved k =>
    obtain ⟨r, h1, h2⟩ := h
    exact ⟨r, hf _ _ h1, h2⟩
  | running u st read => exact ⟨h.1.trans hd, h.2.mono hf⟩
  | writing us => exact fun u hu => (h u hu).mono hd hf

theorem FreshRecord.mono {d d' : KCDoc} {u : String} {r : PrivateGuardianRecord} (hd : d.Le d')
    (h : FreshRecord E d u r) : FreshRecord E d' u r where
  id := h.id
  order := by
    obtain ⟨l, hl⟩ := hd.joined
    refine ⟨hd.joined.subset h.order.1, ?_⟩
    rw [h.order.2, ← hl, List.idxOf_append_of_mem h.order.1]
  generated := by rw [← hd.quorum]; exact h.generated
  shared := h.shared
  received := h.received
  keys := h.keys

theorem RaceInv.joinUser {d : KCDoc} {files : List (String × PrivateGuardianRecord)} {ps : List KCProc}
    (h : RaceInv E loads d files ps) {p : KCProc} (hp : p ∈ ps) {u : String} (hu : p.joinUser = some u) : u ∈ d.joined :=
  h.owners.subset (List.mem_append_left _ (List.mem_filterMap.2 ⟨p, hp, hu⟩))

/-- An update of the document that a stage computed. -/
theorem RaceInv.write {d : KCDoc} {files : List (String × PrivateGuardianRecord)} {ps : List KCProc} {u : KCUpdate}
    (h : RaceInv E loads d files ps) (hu : GoodUpdate E loads d files u) : RaceInv E loads (d.apply u) files ps := by
  have hle := d.le_apply u
  have hj : (d.apply u).joined = d.joined := by cases u <;> first | rfl | exact hu.elim
  have hk : (d.apply u).keys = d.keys := by cases u <;> first | rfl | exact hu.elim
  refine ⟨fun x r hr => (h.fresh x r hr).mono hle, by rw [hj, hk]; exact h.owners, ?_, by rw [hk]; exact h.owned, h.good.apply hu,
    fun p hp => (h.calls p hp).mono hle (.refl _) (fun u hu => h.joinUser hp hu), ?_⟩
  · rw [hj, hk, ← hle.quorum]; exact h.all
  · intro jk hjk
    by_cases hc : ∃ jk', u = .jointKey jk'
    · obtain ⟨jk', rfl⟩ := hc
      have : jk' = jk := by simpa [KCDoc.apply] using hjk
      subst this
      exact hu.mono hle (.refl _)
    · refine (h.joint jk ?_).mono hle (.refl _)
      rw [← hjk]
      cases u <;> first | rfl | exact absurd ⟨_, rfl⟩ hc

theorem dget_isSome_of_mem_dkeys {κ α : Type} [DecidableEq κ] {d : List (κ × α)} {k : κ} {v : α} (h : dget d k = some v) :
    k ∈ dkeys d := (mem_dkeys_iff _ _).2 ⟨v, h⟩

/-- One step of a call. -/
theorem RaceInv.advance {d : KCDoc} {files : List (String × PrivateGuardianRecord)} {p : KCProc} {ps : List KCProc}
    (h : RaceInv E loads d files (p :: ps)) (hnd : d.joined.Nodup) (hnamed : "" ∉ d.joined) (rands : Nat → Nat × Nat)
    (nonces : Nat → Nat) :
    RaceInv E loads (p.advance E loads d files rands nonces).1 (p.advance E loads d files rands nonces).2.1
      ((p.advance E loads d files rands nonces).2.2.toList ++ ps) := by
  have hrest : ∀ x ∈ ps, x.Good E loads d files := fun x hx => h.calls x (List.mem_cons_of_mem _ hx)
  have hdrop : p.joinUser = none → RaceInv E loads d files ps := by
    intro hj
    refine ⟨h.fresh, ?_, ?_, ?_, h.good, hrest, h.joint⟩
    · have := h.owners
      rwa [List.filterMap_cons_none hj] at this
    · have := h.all
      rwa [List.filterMap_cons_none hj] at this
    · have := h.owned
      have hs : p.savedUser = none := by cases p <;> first | rfl | cases hj
      rwa [List.filterMap_cons_none hs] at this
  cases p with
  | joining user =>
    have hu : user ∈ d.joined := h.joinUser List.mem_cons_self rfl
    have hg : d.guardianNumber user = .ok ((d.joined.idxOf user : Int) + 1) := by
      unfold KCDoc.guardianNumber
      rw [if_pos hu]
    simp only [KCProc.advance, hg]
    refine ⟨h.fresh, h.owners, h.all, h.owned, h.good, fun x hx => ?_, h.joint⟩
    rcases List.mem_cons.1 hx with rfl | hx
    · exact ⟨rfl, rfl, rfl⟩
    · exact hrest x hx
  | numbered user number n quorum =>
    obtain ⟨hnum, hn, hq⟩ := h.calls _ List.mem_cons_self
    have hu : user ∈ d.joined := h.joinUser List.mem_cons_self rfl
    simp only [KCProc.advance]
    cases hm : makeGuardian E user number n quorum rands with
    | error e =>
      show RaceInv E loads d files ps
      refine ⟨h.fresh, ?_, ?_, h.owned, h.good, hrest, h.joint⟩
      · have := h.owners
        rw [List.filterMap_cons_some (f := KCProc.joinUser) (b := user) rfl, List.cons_append] at this
        exact (List.sublist_cons_self _ _).subperm.trans this
      · intro hq0
        exfalso
        subst hq
        unfold makeGuardian Guardian.fromRandom at hm
        cases hk : generateElectionKeyPair E user number ((List.range d.quorum.toNat).map rands) with
        | ok kp => rw [hk] at hm; cases hm
        | error e =>
          have hpos : 0 < d.quorum.toNat := by omega
          cases hl : (List.range d.quorum.toNat).map rands with
          | nil =>
            have := congrArg List.length hl
            simp at this
            omega
          | cons a l => rw [hl] at hk; cases hk
    | ok g =>
      obtain ⟨kp, hkp, rfl⟩ := makeGuardian_ok hm
      have hkpid := (generateElectionKeyPair_ok hkp).1
      have hkpo := (generateElectionKeyPair_ok hkp).2.1
      have hid : (Guardian.init kp ⟨n, quorum⟩).id = user := hkpid
      have hnodup : (user :: (ps.filterMap KCProc.joinUser ++ d.keys.map (fun k => k.ownerId))).Nodup := by
        have := h.owners
        rw [List.filterMap_cons_some (f := KCProc.joinUser) (b := user) rfl, List.cons_append] at this
        obtain ⟨l, hl, hs⟩ := this
        exact hl.nodup_iff.1 (hnd.sublist hs)
      have hfresh : user ∉ dkeys files := by
        intro hx
        have := h.owned user hx
        rw [List.filterMap_cons_none (f := KCProc.savedUser) rfl] at this
        refine (List.nodup_cons.1 hnodup).1 ?_
        rcases List.mem_append.1 this with hx | hx
        · obtain ⟨x, hx1, hx2⟩ := List.mem_filterMap.1 hx
          refine List.mem_append_left _ (List.mem_filterMap.2 ⟨x, hx1, ?_⟩)
          cases x <;> first | exact hx2 | cases hx2
        · exact List.mem_append_right _ hx
      have hle : FilesLe files (dset files user (Guardian.init kp ⟨n, quorum⟩).exportPrivate) := by
        intro u r hr
        rw [dget_dset]
        split
        · rename_i hx
          exact absurd (hx ▸ dget_isSome_of_mem_dkeys hr) hfresh
        · exact hr
      show RaceInv E loads d (dset files (Guardian.init kp ⟨n, quorum⟩).id (Guardian.init kp ⟨n, quorum⟩).exportPrivate)
        (KCProc.saved (Guardian.init kp ⟨n, quorum⟩).shareKey :: ps)
      rw [hid]
      refine ⟨fun u r hr => ?_, ?_, ?_, fun u hu' => ?_, h.good.mono hle, fun x hx => ?_,
        fun jk hjk => (h.joint jk hjk).mono (.refl d) hle⟩
      · rw [dget_dset] at hr
        split at hr
        · rename_i hx
          cases hr
          subst hx
          refine ⟨hkpid, ⟨hu, ?_⟩, ⟨(List.range d.quorum.toNat).map rands, ?_, ?_⟩, rfl, rfl, ?_⟩
          · show kp.sequenceOrder = _
            rw [hkpo, hnum]
          · simp
          · show generateElectionKeyPair E _ kp.sequenceOrder _ = .ok kp
            rw [hkpo, ← hq]
            exact hkp
          · show [(kp.share.ownerId, kp.share)] = _
            have : kp.share.ownerId = kp.ownerId := rfl
            rw [this, hkpid]
            rfl
        · exact h.fresh u r hr
      · have := h.owners
        rw [List.filterMap_cons_some (f := KCProc.joinUser) (b := user) rfl] at this
        show List.Subperm ((KCProc.saved kp.share :: ps).filterMap KCProc.joinUser ++ _) _
        have hx : (KCProc.saved kp.share).joinUser = some user := by rw [← hkpid]; rfl
        rw [List.filterMap_cons_some hx]
        exact this
      · have := h.all
        rw [List.filterMap_cons_some (f := KCProc.joinUser) (b := user) rfl] at this
        have hx : (KCProc.saved kp.share).joinUser = some user := by rw [← hkpid]; rfl
        show 0 < d.quorum → ∀ u ∈ d.joined, u ∈ (KCProc.saved kp.share :: ps).filterMap KCProc.joinUser ++ _
        rw [List.filterMap_cons_some hx]
        exact this
      · show u ∈ (KCProc.saved kp.share :: ps).filterMap KCProc.savedUser ++ _
        have hx : (KCProc.saved kp.share).savedUser = some user := by rw [← hkpid]; rfl
        rw [List.filterMap_cons_some hx]
        rw [dkeys_dset, if_neg hfresh] at hu'
        rcases List.mem_append.1 hu' with hu' | hu'
        · have := h.owned u hu'
          rw [List.filterMap_cons_none (f := KCProc.savedUser) rfl] at this
          exact List.mem_cons_of_mem _ this
        · rw [List.mem_singleton.1 hu']
          exact List.mem_cons_self
      · rcases List.mem_cons.1 hx with rfl | hx
        · refine ⟨(Guardian.init kp ⟨n, quorum⟩).exportPrivate, ?_, rfl⟩
          have : (Guardian.init kp ⟨n, quorum⟩).shareKey.ownerId = user := hkpid
          rw [this, dget_dset, if_pos rfl]
        · exact (hrest x hx).mono (.refl d) hle (fun u hu => h.joinUser (List.mem_cons_of_mem _ hx) hu)
  | saved k =>
    have hle := d.le_apply (.key k)
    have hk : k.ownerId ∈ d.joined := h.joinUser List.mem_cons_self rfl
    have hnodup : (k.ownerId :: (ps.filterMap KCProc.joinUser ++ d.keys.map (fun k => k.ownerId))).Nodup := by
      have := h.owners
      rw [List.filterMap_cons_some (f := KCProc.joinUser) (b := k.ownerId) rfl, List.cons_append] at this
      obtain ⟨l, hl, hs⟩ := this
      exact hl.nodup_iff.1 (hnd.sublist hs)
    have hperm : (ps.filterMap KCProc.joinUser ++ (d.apply (.key k)).keys.map (fun k => k.ownerId)).Perm
        ((KCProc.saved k :: ps).filterMap KCProc.joinUser ++ d.keys.map (fun k => k.ownerId)) := by
      rw [List.filterMap_cons_some (f := KCProc.joinUser) (b := k.ownerId) rfl]
      show (_ ++ (d.keys ++ [k]).map (fun k => k.ownerId)).Perm _
      rw [List.map_append, ← List.append_assoc]
      exact (List.perm_append_comm (l₂ := [k.ownerId]))
    show RaceInv E loads (d.apply (.key k)) files ps
    refine ⟨fun u r hr => (h.fresh u r hr).mono hle, ?_, ?_, fun u hu => ?_, ?_,
      fun p hp => (hrest p hp).mono hle (.refl _) (fun u hu => h.joinUser (List.mem_cons_of_mem _ hp) hu),
      fun jk hjk => (h.joint jk hjk).mono hle (.refl _)⟩
    · exact hperm.subperm.trans h.owners
    · intro hq u hu
      exact hperm.symm.subset (h.all hq u hu)
    · have := h.owned u hu
      rw [List.filterMap_cons_some (f := KCProc.savedUser) (b := k.ownerId) rfl] at this
      show u ∈ _ ++ (d.keys ++ [k]).map (fun k => k.ownerId)
      simp only [List.map_append, List.map_cons, List.map_nil, List.mem_append, List.mem_cons, List.cons_append,
        List.not_mem_nil, or_false] at this ⊢
      tauto
    · exact h.good.key k hk (h.calls _ List.mem_cons_self)
        (fun hx => (List.nodup_cons.1 hnodup).1 (List.mem_append_right _ hx))
  | running user st read =>
    obtain ⟨hr1, hr2⟩ := h.calls _ List.mem_cons_self
    simp only [KCProc.advance]
    cases hc : st.compute E loads read user (dget files user) nonces with
    | error e => exact hdrop rfl
    | ok us =>
      have := hdrop rfl
      refine ⟨h.fresh, h.owners, h.all, h.owned, h.good, fun x hx => ?_, h.joint⟩
      rcases List.mem_cons.1 hx with rfl | hx
      · exact fun u hu => (compute_good hr2 h.fresh (fun hx => hnamed (hr1.joined.subset hx)) hc u hu).mono hr1 (.refl _)
      · exact hrest x hx
  | writing us =>
    cases us with
    | nil => exact hdrop rfl
    | cons u us =>
      have hw := h.calls _ List.mem_cons_self
      have := (hdrop rfl).write (hw u List.mem_cons_self)
      refine ⟨this.fresh, this.owners, this.all, this.owned, this.good, fun x hx => ?_, this.joint⟩
      rcases List.mem_cons.1 hx with rfl | hx
      · exact fun x hx => (hw x (List.mem_cons_of_mem _ hx)).mono (d.le_apply u) (.refl _)
      · exact this.calls x hx

theorem RaceInv.event {s : KCSystem} (h : RaceInv E loads s.doc s.files s.procs) (hnd : s.doc.joined.Nodup)
    (hnamed : "" ∉ s.doc.joined) (ev : KCEvent) :
    RaceInv E loads (s.event E loads ev).doc (s.event E loads ev).files (s.event E loads ev).procs := by
  cases ev with
  | join user =>
    have hle := s.doc.le_apply (.joined user)
    refine RaceInv.perm (List.perm_append_comm (l₁ := [KCProc.joining user])) ?_
    refine ⟨fun u r hr => (h.fresh u r hr).mono hle, ?_, ?_, ?_, h.good.joined user, fun p hp => ?_,
      fun jk hjk => (h.joint jk hjk).mono hle (.refl _)⟩
    · show List.Subperm (([KCProc.joining user] ++ s.procs).filterMap KCProc.joinUser ++ _) (s.doc.joined ++ [user])
      rw [List.singleton_append, List.filterMap_cons_some (f := KCProc.joinUser) (b := user) rfl, List.cons_append]
      exact (((List.subperm_cons user).2 h.owners).trans (List.perm_append_comm (l₁ := [user])).subperm)
    · intro hq u hu
      show u ∈ ([KCProc.joining user] ++ s.procs).filterMap KCProc.joinUser ++ _
      rw [List.singleton_append, List.filterMap_cons_some (f := KCProc.joinUser) (b := user) rfl, List.cons_append]
      rcases List.mem_append.1 hu with hu | hu
      · exact List.mem_cons_of_mem _ (h.all hq u hu)
      · rw [List.mem_singleton.1 hu]
        exact List.mem_cons_self
    · exact h.owned
    · rcases List.mem_cons.1 hp with rfl | hp
      · trivial
      · exact (h.calls p hp).mono hle (.refl _) (fun u hu => h.joinUser hp hu)
  | poll user isAdmin =>
    unfold KCSystem.event
    simp only
    split
    · exact h
    · rename_i st hst
      refine RaceInv.perm (List.perm_append_comm (l₁ := [KCProc.running user st s.doc])) ?_
      refine ⟨h.fresh, h.owners, h.all, h.owned, h.good, fun p hp => ?_, h.joint⟩
      rcases List.mem_cons.1 hp with rfl | hp
      · exact ⟨.refl _, h.good⟩
      · exact h.calls p hp
  | step i rands nonces =>
    unfold KCSystem.event
    simp only
    cases hp : s.procs[i]? with
    | none => exact h
    | some p =>
      simp only
      obtain ⟨hi, hpi⟩ := List.getElem?_eq_some_iff.1 hp
      have h1 : RaceInv E loads s.doc s.files (p :: s.procs.eraseIdx i) :=
        h.perm (by rw [← hpi]; exact (List.getElem_cons_eraseIdx_perm hi).symm)
      exact (h1.advance hnd hnamed rands nonces).perm List.perm_append_comm

theorem event_le (s : KCSystem) (ev : KCEvent) : s.doc.Le (s.event E loads ev).doc := by
  have hproc : ∀ (p : KCProc) rands nonces, s.doc.Le (p.advance E loads s.doc s.files rands nonces).1 := by
    intro p rands nonces
    unfold KCProc.advance
    split
    · split <;> exact .refl _
    · split <;> exact .refl _
    · rename_i key
      exact KCDoc.le_apply s.doc (.key key)
    · split <;> exact .refl _
    · exact .refl _
    · rename_i u us
      exact KCDoc.le_apply s.doc u
  cases ev with
  | join user => exact s.doc.le_apply (.joined user)
  | poll user isAdmin =>
    unfold KCSystem.event
    simp only
    split <;> exact .refl _
  | step i rands nonces =>
    unfold KCSystem.event
    simp only
    split
    · exact .refl _
    · exact hproc _ _ _

theorem event_joined (s : KCSystem) (ev : KCEvent) : s.doc.joined <+: (s.event E loads ev).doc.joined :=
  (event_le s ev).joined

theorem run_le (s : KCSystem) (evs : List KCEvent) : s.doc.Le (s.run E loads evs).doc := by
  unfold KCSystem.run
  induction evs generalizing s with
  | nil => exact .refl _
  | cons ev evs ih => exact (event_le s ev).trans (ih _)

/-- The invariant of all interleavings. -/
theorem race_run (n quorum : Int) (evs : List KCEvent)
    (hnd : ((KCSystem.init n quorum).run E loads evs).doc.joined.Nodup)
    (hnamed : "" ∉ ((KCSystem.init n quorum).run E loads evs).doc.joined) :
    RaceInv E loads ((KCSystem.init n quorum).run E loads evs).doc ((KCSystem.init n quorum).run E loads evs).files
      ((KCSystem.init n quorum).run E loads evs).procs := by
  induction evs using List.reverseRecOn with
  | nil =>
    have hm : ∀ {α : Type} {x : α} {p : Prop}, x ∈ ([] : List α) → p := fun h => by cases h
    refine ⟨fun u r hr => (by cases hr), ?_, fun _ u hu => hm hu, fun u hu => hm hu, ?_, fun p hp => hm hp,
      fun jk hjk => (by cases hjk)⟩
    · exact List.Subperm.refl _
    · exact ⟨fun _ h => hm h, fun _ h => hm h, List.nodup_nil, fun _ h => hm h, fun _ h => hm h, fun _ h => hm h, fun _ h => hm h⟩
  | append_singleton evs ev ih =>
    unfold KCSystem.run at *
    rw [List.foldl_append, List.foldl_cons, List.foldl_nil] at *
    have hp := event_joined (E := E) (loads := loads) (evs.foldl (KCSystem.event E loads) (KCSystem.init n quorum)) ev
    have h1 := hnd.sublist hp.sublist
    have h2 := fun hx => hnamed (hp.subset hx)
    exact (ih h1 h2).event h1 h2 ev

end EG
