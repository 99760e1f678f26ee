import Verif.Lemmas.Names
import Verif.Spec.GuiElection
import Verif.Props.GuiKeyCeremony
import Verif.Props.GuiDecryptionLive
import Verif.Props.ElectionBuilder

/-!
# C72: elections created by the GUI, and the whole election in the GUI
-/

namespace EG

variable {E : Env}

theorem buildElection_eq {n quorum : Int} {m : Manifest} {key h : Nat} {url : Option String} (hm : m.isValid = true) :
    buildElection E n quorum m key h url = (mkInternalManifest E m).map (fun im =>
      (im, makeContext E n quorum key h (m.cryptoHash E), url.map (fun u => [("verification_url", u)]))) := by
  unfold buildElection ElectionBuilder.new
  simp only [bind, Except.bind, pure, Except.pure]
  cases mkInternalManifest E m with
  | error e => rfl
  | ok im =>
    cases url with
    | none =>
      simp [ElectionBuilder.setPublicKey, ElectionBuilder.setCommitmentHash, ElectionBuilder.build, hm, getOptional, Except.map,
        bind, Except.bind, pure, Except.pure]
    | some u =>
      simp [ElectionBuilder.setPublicKey, ElectionBuilder.setCommitmentHash, ElectionBuilder.build, hm, getOptional, Except.map,
        ElectionBuilder.addExtendedDataField, dset, bind, Except.bind, pure, Except.pure]

/-- The guardian records of an election. -/
theorem fromPublicKey_publish (n quorum : Int) (k : ElectionPublicKey) :
    (Guardian.fromPublicKey n quorum k).publish = ⟨k.ownerId, k.sequenceOrder, k.key, [], []⟩ := rfl

theorem computeElection_ok {parseManifest : List Char → Option Manifest} {kcId name : String} {kc : KCDoc} {raw : List Char}
    {url : Option String} {e : GuiElection} {pkg : EncryptionPackage} :
    computeElection E parseManifest kcId kc name raw url = .ok (e, pkg) ↔
      ∃ m jk im, parseManifest raw = some m ∧ (m.isValid = true ∧ m.Named) ∧ kc.jointKey = some jk ∧ mkInternalManifest E m = .ok im ∧
        e = ⟨name, kcId, kc.guardianCount, kc.quorum, url, m,
          makeContext E kc.guardianCount kc.quorum jk.jointPublicKey jk.commitmentHash (m.cryptoHash E),
          url.map (fun u => [("verification_url", u)]),
          kc.keys.map (fun k => ⟨k.ownerId, k.sequenceOrder, k.key, [], []⟩), kcId⟩ ∧
        pkg = outputSetupFiles e.context e.extendedData m e.guardianRecords := by
  unfold computeElection getManifestRaw KCDoc.getJointKey
  simp only [bind, Except.bind, pure, Except.pure]
  cases h1 : parseManifest raw with
  | none => simp
  | some m =>
    simp only
    by_cases h2 : m.isValid = true
    · rw [if_pos h2]
      by_cases hN : m.Named
      swap
      · rw [getName_of_not_named hN]
        constructor
        · intro h; cases h
        · rintro ⟨m', jk', im', e1, e2, -⟩
          cases e1
          exact absurd e2.2 hN
      obtain ⟨nm, hnm⟩ := getName_of_named hN
      rw [hnm]
      cases h3 : kc.jointKey with
      | none => simp
      | some jk =>
        simp only [buildElection_eq h2]
        cases h4 : mkInternalManifest E m with
        | error er =>
          simp only [Except.map]
          constructor
          · intro h; cases h
          · rintro ⟨m', jk', im', e1, -, -, e2, -⟩
            cases e1
            rw [h4] at e2
            cases e2
        | ok im =>
          simp only [Except.map, List.map_map]
          constructor
          · intro h
            simp only [Except.ok.injEq, Prod.mk.injEq] at h
            obtain ⟨rfl, rfl⟩ := h
            exact ⟨m, jk, im, rfl, ⟨h2, hN⟩, rfl, h4, rfl, rfl⟩
          · rintro ⟨m', jk', im', e1, -, e3, -, rfl, rfl⟩
            cases e1
            cases e3
            rfl
    · rw [if_neg h2]
      constructor
      · intro h; cases h
      · rintro ⟨m', jk', im', e1, e2, -⟩
        cases e1
        exact absurd e2.1 h2

/-- C72 When the administrator gets an election: if and only if no election has this name, the key ceremony exists and has a joint
key, and the manifest can be read, is well formed, is not given an empty list of names, and has an internal manifest. -/
theorem C72_created_iff (parseManifest : List Char → Option Manifest) (w : SetupWorld) (newId kcId name : String)
    (raw : List Char) (url : Option String) :
    (∃ id, (w.createElection E parseManifest newId kcId name raw url).1 = .ok id) ↔
      (∀ e ∈ w.elections, e.2.name ≠ name) ∧ ∃ kc jk m im, dget w.ceremonies kcId = some kc ∧ kc.jointKey = some jk ∧
        parseManifest raw = some m ∧ (ManifestOk m ∧ m.Named) ∧ mkInternalManifest E m = .ok im := by
  unfold SetupWorld.createElection
  by_cases h : w.elections.any (fun e => e.2.name == name) = true
  · rw [if_pos h]
    constructor
    · rintro ⟨id, hid⟩; cases hid
    · rintro ⟨h1, -⟩
      obtain ⟨e, he, hn⟩ := List.any_eq_true.1 h
      exact absurd (by simpa using hn) (h1 e he)
  · rw [if_neg h]
    have hname : ∀ e ∈ w.elections, e.2.name ≠ name := by
      intro e he hn
      exact h (List.any_eq_true.2 ⟨e, he, by simpa using hn⟩)
    cases hk : dget w.ceremonies kcId with
    | none => simp
    | some kc =>
      simp only
      cases hc : computeElection E parseManifest kcId kc name raw url with
      | error er =>
        simp only
        constructor
        · rintro ⟨id, hid⟩; cases hid
        · rintro ⟨-, kc', jk, m, im, e1, e2, e3, e4, e5⟩
          cases e1
          have := (computeElection_ok (E := E) (kcId := kcId) (name := name) (url := url)).2
            ⟨m, jk, im, e3, ⟨(C41_iff_partial m).2 e4.1, e4.2⟩, e2, e5, rfl, rfl⟩
          rw [hc] at this
          cases this
      | ok x =>
        obtain ⟨e, pkg⟩ := x
        obtain ⟨m, jk, im, e1, e2, e3, e4, -⟩ := computeElection_ok.1 hc
        exact ⟨fun _ => ⟨hname, kc, jk, m, im, rfl, e3, e1, ⟨(C41_iff_partial m).1 e2.1, e2.2⟩, e4⟩, fun _ => ⟨newId, rfl⟩⟩

/-- What a successful call does. -/
theorem createElection_ok {parseManifest : List Char → Option Manifest} {w w' : SetupWorld} {newId kcId name id : String}
    {raw : List Char} {url : Option String}
    (h : w.createElection E parseManifest newId kcId name raw url = (.ok id, w')) :
    id = newId ∧ (∀ e ∈ w.elections, e.2.name ≠ name) ∧ ∃ kc e pkg, dget w.ceremonies kcId = some kc ∧
      computeElection E parseManifest kcId kc name raw url = .ok (e, pkg) ∧ w'.ceremonies = w.ceremonies ∧
      w'.elections = w.elections ++ [(newId, e)] ∧ w'.packages = dset w.packages e.packageFile pkg := by
  unfold SetupWorld.createElection at h
  by_cases hn : w.elections.any (fun e => e.2.name == name) = true
  · rw [if_pos hn] at h; cases h
  · rw [if_neg hn] at h
    cases hk : dget w.ceremonies kcId with
    | none => rw [hk] at h; cases h
    | some kc =>
      rw [hk] at h
      simp only at h
      cases hc : computeElection E parseManifest kcId kc name raw url with
      | error er => rw [hc] at h; cases h
      | ok x =>
        rw [hc] at h
        obtain ⟨e, pkg⟩ := x
        cases h
        refine ⟨rfl, ?_, kc, e, pkg, rfl, hc, rfl, rfl, rfl⟩
        intro e he hn'
        exact hn (List.any_eq_true.2 ⟨e, he, by simpa using hn'⟩)

/-- C72 A refused call changes nothing. -/
theorem C72_refused_changes_nothing (parseManifest : List Char → Option Manifest) (w w' : SetupWorld) (newId kcId name : String)
    (raw : List Char) (url : Option String) (er : Err)
    (h : w.createElection E parseManifest newId kcId name raw url = (.error er, w')) : w' = w := by
  unfold SetupWorld.createElection at h
  split at h
  · cases h; rfl
  · split at h
    · cases h; rfl
    · split at h
      · cases h; rfl
      · cases h

theorem packageOf_output {e : GuiElection} : PackageOf e (outputSetupFiles e.context e.extendedData e.manifest e.guardianRecords) := by
  have key : ∀ (l : List GuardianRecord) (d : List (String × GuardianRecord)),
      (∀ x, x ∈ dkeys (l.foldl (fun d r => dset d r.guardianId r) d) ↔ x ∈ dkeys d ∨ ∃ r ∈ l, r.guardianId = x) := by
    intro l
    induction l with
    | nil => intro d x; simp
    | cons a l ih =>
      intro d x
      rw [List.foldl_cons, ih, mem_dkeys_dset]
      simp only [List.mem_cons, exists_eq_or_imp]
      constructor
      · rintro ((h | h) | h)
        · exact .inr (.inl h.symm)
        · exact .inl h
        · exact .inr (.inr h)
      · rintro (h | h | h)
        · exact .inl (.inr h)
        · exact .inl (.inl h.symm)
        · exact .inr h
  refine ⟨rfl, rfl, rfl, ?_, ?_⟩
  · intro id r h
    rcases (foldl_dset_get (fun r : GuardianRecord => r.guardianId) (fun r => r) e.guardianRecords []).2 id r h with h | ⟨r', h1, h2, h3⟩
    · cases h
    · subst h3; exact ⟨h1, h2⟩
  · intro r hr
    exact (key _ _ _).2 (.inr ⟨r, hr, rfl⟩)

/-- C72 The election that a successful call adds: it goes with the key ceremony, the joint key and the manifest; the other elections
stay as they are, and the encryption package at its path is its own. -/
theorem C72_created (parseManifest : List Char → Option Manifest) (w w' : SetupWorld) (newId kcId name id : String)
    (raw : List Char) (url : Option String) (h : w.createElection E parseManifest newId kcId name raw url = (.ok id, w')) :
    ∃ kc jk m e p, dget w.ceremonies kcId = some kc ∧ kc.jointKey = some jk ∧ parseManifest raw = some m ∧
      MadeFrom E kc jk m url e ∧ e.name = name ∧ e.keyCeremonyId = kcId ∧ w'.ceremonies = w.ceremonies ∧
      w'.elections = w.elections ++ [(id, e)] ∧ dget w'.packages e.packageFile = some p ∧ PackageOf e p := by
  obtain ⟨rfl, -, kc, e, pkg, h1, h2, h3, h4, h5⟩ := createElection_ok h
  obtain ⟨m, jk, im, e1, e2, e3, e4, he, hp⟩ := computeElection_ok.1 h2
  refine ⟨kc, jk, m, e, pkg, h1, e3, e1, ?_, by rw [he], by rw [he], h3, h4, by rw [h5, dget_dset, if_pos rfl], ?_⟩
  · subst he
    refine ⟨rfl, rfl, rfl, rfl, rfl, rfl, rfl, rfl, rfl, rfl, ⟨rfl, ?_⟩, ?_⟩
    · cases url <;> rfl
    · rw [List.map_map]; rfl
  · have hm : m = e.manifest := by rw [he]
    rw [hp, hm]
    exact packageOf_output

theorem create_cases (parseManifest : List Char → Option Manifest) (w : SetupWorld) (c : CreateCall) :
    w.step E parseManifest c = w ∨ ∃ e pkg, (∀ x ∈ w.elections, x.2.name ≠ c.name) ∧ e.name = c.name ∧ e.packageFile = c.kcId ∧
      (w.step E parseManifest c).elections = w.elections ++ [(c.newId, e)] ∧
      (w.step E parseManifest c).packages = dset w.packages c.kcId pkg := by
  unfold SetupWorld.step
  cases h : w.createElection E parseManifest c.newId c.kcId c.name c.manifest c.url with
  | mk r w' =>
    cases r with
    | error er => exact .inl (C72_refused_changes_nothing parseManifest w w' c.newId c.kcId c.name c.manifest c.url er h)
    | ok id =>
      obtain ⟨-, h1, kc, e, pkg, -, h2, -, h4, h5⟩ := createElection_ok h
      obtain ⟨m, jk, im, -, -, -, -, he, -⟩ := computeElection_ok.1 h2
      have hp : e.packageFile = c.kcId := by rw [he]
      exact .inr ⟨e, pkg, h1, by rw [he], hp, h4, by rw [← hp]; exact h5⟩

/-- C72 Elections are only added, whatever calls are made. -/
theorem C72_elections_kept (parseManifest : List Char → Option Manifest) (w : SetupWorld) (cs : List CreateCall) :
    w.elections <+: (w.run E parseManifest cs).elections := by
  induction cs using List.reverseRecOn with
  | nil => exact List.prefix_refl _
  | append_singleton cs c ih =>
    unfold SetupWorld.run at *
    rw [List.foldl_append, List.foldl_cons, List.foldl_nil]
    rcases create_cases (E := E) parseManifest (cs.foldl (SetupWorld.step E parseManifest) w) c with h | ⟨e, pkg, -, -, -, h, -⟩
    · rw [h]; exact ih
    · rw [h]; exact ih.trans (List.prefix_append _ _)

/-- C72 No two elections get the same name, whatever calls are made one after another. -/
theorem C72_names_unique (parseManifest : List Char → Option Manifest) (w : SetupWorld)
    (hw : (w.elections.map (fun e => e.2.name)).Nodup) (cs : List CreateCall) :
    ((w.run E parseManifest cs).elections.map (fun e => e.2.name)).Nodup := by
  induction cs using List.reverseRecOn with
  | nil => exact hw
  | append_singleton cs c ih =>
    unfold SetupWorld.run at *
    rw [List.foldl_append, List.foldl_cons, List.foldl_nil]
    rcases create_cases (E := E) parseManifest (cs.foldl (SetupWorld.step E parseManifest) w) c with h | ⟨e, pkg, h1, h2, -, h, -⟩
    · rw [h]; exact ih
    · rw [h, List.map_append, List.map_cons, List.map_nil, List.nodup_append]
      refine ⟨ih, List.nodup_singleton _, ?_⟩
      intro a ha b hb
      obtain ⟨x, hx, rfl⟩ := List.mem_map.1 ha
      rw [List.mem_singleton.1 hb, h2]
      exact h1 x hx

/-- C72 Exporting the encryption package of an election gives its own context, manifest and guardian records, whatever calls are made
after the election was created.  Partial: none of the later calls is about the same key ceremony (see
`C72_package_overwritten_fails`). -/
theorem C72_package_partial (parseManifest : List Char → Option Manifest) (w w' : SetupWorld) (newId kcId name id : String)
    (raw : List Char) (url : Option String) (h : w.createElection E parseManifest newId kcId name raw url = (.ok id, w'))
    (hfresh : newId ∉ dkeys w.elections) (cs : List CreateCall) (hcs : ∀ c ∈ cs, c.kcId ≠ kcId) :
    ∃ e p, dget (w'.run E parseManifest cs).elections id = some e ∧ e.name = name ∧
      (w'.run E parseManifest cs).exportPackage id = .ok p ∧ PackageOf e p := by
  obtain ⟨kc, jk, m, e, p, -, -, -, -, h1, h2, -, h4, h5, h6⟩ := C72_created parseManifest w w' newId kcId name id raw url h
  obtain ⟨hid, -, kc', e', pkg', -, hc, -, h4', -⟩ := createElection_ok h
  have hee : e' = e := by
    rw [h4'] at h4
    have := List.append_cancel_left h4
    simp only [List.cons.injEq, Prod.mk.injEq, and_true] at this
    exact this.2
  subst hee
  have hpath : e'.packageFile = kcId := by
    obtain ⟨m, jk, im, -, -, -, -, he, -⟩ := computeElection_ok.1 hc
    rw [he]
  have hget : dget w'.elections id = some e' := by
    rw [h4, hid, dget_append, (dget_eq_none_iff _ _).2 hfresh]
    simp [dget]
  have hkeep : ∀ cs : List CreateCall, (∀ c ∈ cs, c.kcId ≠ kcId) →
      dget (w'.run E parseManifest cs).elections id = some e' ∧ dget (w'.run E parseManifest cs).packages kcId = some p := by
    intro cs
    induction cs using List.reverseRecOn with
    | nil => exact fun _ => ⟨hget, by rw [← hpath]; exact h5⟩
    | append_singleton cs c ih =>
      intro hcs
      obtain ⟨g1, g2⟩ := ih (fun c hc => hcs c (List.mem_append_left _ hc))
      unfold SetupWorld.run at *
      rw [List.foldl_append, List.foldl_cons, List.foldl_nil]
      rcases create_cases (E := E) parseManifest (cs.foldl (SetupWorld.step E parseManifest) w') c with h | ⟨e, pkg, -, -, -, h, h'⟩
      · rw [h]; exact ⟨g1, g2⟩
      · rw [h, h', dget_append, g1, dget_dset, if_neg (hcs c (by simp))]
        exact ⟨rfl, g2⟩
  obtain ⟨g1, g2⟩ := hkeep cs hcs
  refine ⟨e', p, g1, h1, ?_, h6⟩
  unfold SetupWorld.exportPackage
  rw [g1]
  simp only [hpath, g2]

/-- C72 The guardian records of an election that the GUI created, in the database as in the encryption package, never have a
coefficient commitment or a proof: nobody can check from them that the guardians know their secrets, or recompute the commitment
hash of the context. -/
theorem C72_records_without_commitments_fails (parseManifest : List Char → Option Manifest) (w w' : SetupWorld)
    (newId kcId name id : String) (raw : List Char) (url : Option String)
    (h : w.createElection E parseManifest newId kcId name raw url = (.ok id, w')) (hfresh : newId ∉ dkeys w.elections) :
    ∃ e p, dget w'.elections id = some e ∧ w'.exportPackage id = .ok p ∧
      (∀ r ∈ e.guardianRecords, r.commitments = [] ∧ r.proofs = []) ∧
      ∀ i r, dget p.guardians i = some r → r.commitments = [] ∧ r.proofs = [] := by
  obtain ⟨e, p, h1, -, h2, h3⟩ := C72_package_partial parseManifest w w' newId kcId name id raw url h hfresh [] (by simp)
  obtain ⟨hid, -, kc', e', pkg', -, hc, -, h4', -⟩ := createElection_ok h
  have he : e = e' := by
    have : dget w'.elections id = some e' := by
      rw [h4', hid, dget_append, (dget_eq_none_iff _ _).2 hfresh]
      simp [dget]
    have h1' : dget w'.elections id = some e := h1
    rw [h1'] at this
    exact Option.some.inj this
  have hrec : ∀ r ∈ e.guardianRecords, r.commitments = [] ∧ r.proofs = [] := by
    obtain ⟨m, jk, im, -, -, -, -, he', -⟩ := computeElection_ok.1 hc
    rw [he, he']
    intro r hr
    obtain ⟨k, -, rfl⟩ := List.mem_map.1 hr
    exact ⟨rfl, rfl⟩
  exact ⟨e, p, h1, h2, hrec, fun i r hr => hrec r (h3.guardians i r hr).1⟩

/-- C72 The guardians of a key ceremony are the guardians of an election created from it: for every interleaving of the ceremony, the
guardian records, the key and the number of guardians of the election are those of the guardians that the private files hold, also
later when more has happened.  Partial: nobody joined twice, and nobody else joined (see `C72_late_joiner_fails`). -/
theorem C72_team_partial {loads : Bytes → R (List Char)} (hv : E.P.Valid) (hlen : HmacLen E) (hl : ReadsCoordinate loads)
    (hq : E.P.q ≤ 256 ^ 246) (n quorum : Int) (evs evs' : List KCEvent) (s s' : KCSystem)
    (hs : s = (KCSystem.init n quorum).run E loads evs) (hs' : s' = s.run E loads evs')
    (hnd : s'.doc.joined.Nodup) (hnamed : "" ∉ s'.doc.joined) (hall : (s'.doc.joined.length : Int) = n)
    (parseManifest : List Char → Option Manifest) (kcId name : String) (raw : List Char) (url : Option String) (e : GuiElection)
    (pkg : EncryptionPackage) (he : computeElection E parseManifest kcId s.doc name raw url = .ok (e, pkg)) :
    ∃ team, ElectionTeam E.P e.doc team ∧ (team.length : Int) = n ∧
      OwnFiles (loadFromDecryption s'.files e.guardians e.quorum) team ∧
      (team.map (fun g => g.id)).Perm s'.doc.joined ∧
      (∀ g ∈ team, loadFromDecryption s'.files e.guardians e.quorum g.id = some g) ∧
      (∀ g ∈ team, g.electionKeys.sequenceOrder = (s'.doc.joined.idxOf g.id : Int) + 1) ∧
      e.guardianRecords.map (fun r => (r.guardianId, r.sequenceOrder, r.publicKey))
        = team.map (fun g => (g.id, g.electionKeys.sequenceOrder, g.electionKeys.keyPair.pub)) := by
  obtain ⟨m, jk, im, -, -, hjk, -, hee, -⟩ := computeElection_ok.1 he
  have hle : s.doc.Le s'.doc := by rw [hs']; exact run_le s evs'
  have hnd0 : s.doc.joined.Nodup := hnd.sublist hle.joined.sublist
  have hnamed0 : "" ∉ s.doc.joined := fun h => hnamed (hle.joined.subset h)
  have hcount : s.doc.guardianCount = n := by
    have : (KCDoc.create n quorum).Le s.doc := by rw [hs]; exact run_le (KCSystem.init n quorum) evs
    exact this.count.symm
  obtain ⟨kps, hk⟩ := C71_published_sound_partial hv hlen hl hq n quorum evs s hs hnd0 hnamed0 jk hjk
  have hinv0 := race_run (E := E) (loads := loads) n quorum evs (by rw [← hs]; exact hnd0) (by rw [← hs]; exact hnamed0)
  rw [← hs] at hinv0
  have hrun : s' = (KCSystem.init n quorum).run E loads (evs ++ evs') := by
    rw [hs', hs]; unfold KCSystem.run; rw [List.foldl_append]
  have hinv := race_run (E := E) (loads := loads) n quorum (evs ++ evs') (by rw [← hrun]; exact hnd) (by rw [← hrun]; exact hnamed)
  rw [← hrun] at hinv
  -- everybody had joined when the election was created
  have hkn : (kps.length : Int) = n := hk.count.trans hcount
  have hjl : s.doc.joined.length = kps.length := by
    have h1 := congrArg List.length hk.ids
    rw [List.length_map, List.length_take] at h1
    have h2 := hle.joined.length_le
    omega
  have hjoined : s'.doc.joined = s.doc.joined := (hle.joined.eq_of_length (by omega)).symm
  have hids : kps.map (fun kp => kp.ownerId) = s.doc.joined := by rw [hk.ids, ← hjl, List.take_length]
  have hsub : (s.doc.keys.map (fun k => k.ownerId)).Subperm s.doc.joined :=
    (List.sublist_append_right _ _).subperm.trans hinv0.owners
  have hknd : (s.doc.keys.map (fun k => k.ownerId)).Nodup := by
    obtain ⟨l, h1, h2⟩ := hsub
    exact h1.nodup_iff.1 (hnd0.sublist h2)
  have hperm : (kps.map (fun kp => kp.share)).Perm s.doc.keys := by
    have h1 : (kps.map (fun kp => kp.share)).Nodup := by
      refine List.Nodup.of_map (fun k => k.ownerId) ?_
      rw [List.map_map]
      show (kps.map (fun kp => kp.ownerId)).Nodup
      rw [hids]
      exact hnd0
    have h2 : (kps.map (fun kp => kp.share)).Subperm s.doc.keys := by
      refine List.subperm_of_subset h1 ?_
      intro k hk'
      obtain ⟨kp, hkp, rfl⟩ := List.mem_map.1 hk'
      exact (findKey_ok (hk.published kp hkp)).1
    refine h2.perm_of_length_le ?_
    have := hsub.length_le
    rw [List.length_map] at this ⊢
    omega
  have hpermIds : (s.doc.keys.map (fun k => k.ownerId)).Perm s'.doc.joined := by
    rw [hjoined, ← hids]
    refine (hperm.map (fun k => k.ownerId)).symm.trans ?_
    rw [List.map_map]
    exact List.Perm.refl _
  -- the private file of each
  have hfile : ∀ k ∈ s.doc.keys, ∃ r, dget s'.files k.ownerId = some r ∧ r.electionKeys.share = k :=
    fun k hk' => hinv.good.keysFile k (hle.keys.subset hk')
  have : Nonempty PrivateGuardianRecord := ⟨⟨"", ⟨"", 0, ⟨0, 0⟩, []⟩, [], [], [], []⟩⟩
  choose! rec hrec hshare using hfile
  have hfresh : ∀ k ∈ s.doc.keys, FreshRecord E s'.doc k.ownerId (rec k) := fun k hk' => hinv.fresh _ _ (hrec k hk')
  have heg : e.guardians = n := by rw [hee]; exact hcount
  set quo := e.quorum with hquo
  set team := s.doc.keys.map (fun k => Guardian.fromPrivateRecord (rec k) e.guardians quo) with hteam
  have hid : ∀ k ∈ s.doc.keys, (Guardian.fromPrivateRecord (rec k) e.guardians quo).id = k.ownerId := fun k hk' => (hfresh k hk').id
  have hteamIds : team.map (fun g => g.id) = s.doc.keys.map (fun k => k.ownerId) := by
    rw [hteam, List.map_map]
    exact List.map_congr_left hid
  have hpub : ∀ k ∈ s.doc.keys, (rec k).electionKeys.keyPair.pub = k.key := fun k hk' => by
    have := congrArg ElectionPublicKey.key (hshare k hk')
    exact this
  have hload : ∀ k ∈ s.doc.keys, loadFromDecryption s'.files e.guardians quo k.ownerId
      = some (Guardian.fromPrivateRecord (rec k) e.guardians quo) := fun k hk' => by
    unfold loadFromDecryption
    rw [hrec k hk']
    rfl
  refine ⟨team, ⟨?_, ?_, ?_, ?_, ?_, ?_⟩, ?_, ?_, ?_, ?_, ?_, ?_⟩
  · rw [hteamIds]; exact hknd
  · intro g hg
    obtain ⟨k, hk', rfl⟩ := List.mem_map.1 hg
    obtain ⟨rands, -, hgen⟩ := (hfresh k hk').generated
    exact (C47_key_pair hgen).2.2.2.2
  · rw [hee]
    show (s.doc.keys.map _).map _ = team.map _
    rw [hteam, List.map_map, List.map_map]
    refine List.map_congr_left (fun k hk' => ?_)
    have h2 := congrArg ElectionPublicKey.sequenceOrder (hshare k hk')
    show (k.ownerId, k.sequenceOrder) = (_, (rec k).electionKeys.sequenceOrder)
    rw [hid k hk', ← h2]
    rfl
  · have hkey : e.doc.context.elgamalPublicKey = jk.jointPublicKey := by rw [hee]; rfl
    rw [hkey, hk.joint, combinePublicKeys_prod hv.one_lt_p]
    congr 1
    have h1 : kps.map (fun kp => E.P.g ^ kp.keyPair.secret % E.P.p) = (kps.map (fun kp => kp.share)).map (fun k => k.key) := by
      rw [List.map_map]
      exact List.map_congr_left (fun kp hkp => (hk.shares kp hkp).1.symm)
    have h2 : team.map (fun g => g.electionKeys.keyPair.pub) = s.doc.keys.map (fun k => k.key) := by
      rw [hteam, List.map_map]
      exact List.map_congr_left hpub
    rw [h1, h2]
    exact (hperm.map _).prod_eq
  · have : e.doc.context.numberOfGuardians = n := by rw [hee]; exact hcount
    rw [this, hteam, List.length_map, ← hkn, ← hperm.length_eq, List.length_map]
  · rw [hee]
    exact hashElems_lt hv.q_pos _
  · rw [hteam, List.length_map, ← hkn, ← hperm.length_eq, List.length_map]
  · intro user g hg
    unfold loadFromDecryption at hg
    obtain ⟨r, hr, rfl⟩ := Option.map_eq_some_iff.1 hg
    have hfr := hinv.fresh user r hr
    have hu : user ∈ s.doc.keys.map (fun k => k.ownerId) := hpermIds.mem_iff.2 hfr.order.1
    obtain ⟨k, hk', rfl⟩ := List.mem_map.1 hu
    rw [hrec k hk'] at hr
    cases hr
    exact ⟨List.mem_map.2 ⟨k, hk', rfl⟩, hfr.id⟩
  · rw [hteamIds]; exact hpermIds
  · intro g hg
    obtain ⟨k, hk', rfl⟩ := List.mem_map.1 hg
    rw [hid k hk']
    exact hload k hk'
  · intro g hg
    obtain ⟨k, hk', rfl⟩ := List.mem_map.1 hg
    rw [hid k hk']
    exact (hfresh k hk').order.2
  · rw [hee]
    show (s.doc.keys.map _).map _ = team.map _
    rw [hteam, List.map_map, List.map_map]
    refine List.map_congr_left (fun k hk' => ?_)
    have h2 := congrArg ElectionPublicKey.sequenceOrder (hshare k hk')
    show (k.ownerId, k.sequenceOrder, k.key) = (_, (rec k).electionKeys.sequenceOrder, (rec k).electionKeys.keyPair.pub)
    rw [hid k hk', ← h2, hpub k hk']
    rfl

theorem internal_hash {m : Manifest} {im : InternalManifest} (h : mkInternalManifest E m = .ok im) :
    im.manifestHash = m.cryptoHash E := by
  unfold mkInternalManifest at h
  simp only [bind, Except.bind] at h
  cases hg : generateContestsWithPlaceholders m with
  | error e => rw [hg] at h; cases h
  | ok cs => rw [hg] at h; cases h; rfl

/-- The guardians of a key ceremony, as the decryption of an election created from it needs them. -/
theorem gui_team {loads : Bytes → R (List Char)} (hv : E.P.Valid)
    (hlen : HmacLen E) (hl : ReadsCoordinate loads) (hq : E.P.q ≤ 256 ^ 246) (n quorum : Int) (hn : 0 < n) (hqn : quorum ≤ n)
    (hnq : n.toNat < E.P.q) (evs evs' : List KCEvent) (s s' : KCSystem) (hs : s = (KCSystem.init n quorum).run E loads evs)
    (hs' : s' = s.run E loads evs') (hnd : s'.doc.joined.Nodup) (hnamed : "" ∉ s'.doc.joined)
    (hall : (s'.doc.joined.length : Int) = n) (parseManifest : List Char → Option Manifest) (kcId name : String) (raw : List Char)
    (url : Option String) (e : GuiElection) (pkg : EncryptionPackage)
    (he : computeElection E parseManifest kcId s.doc name raw url = .ok (e, pkg)) :
    ∃ team, ElectionTeam E.P e.doc team ∧ e.guardians = team.length ∧ team ≠ [] ∧
      (∀ g ∈ team, 0 ≤ g.electionKeys.sequenceOrder) ∧
      (team.map (fun g => (g.electionKeys.sequenceOrder : ZMod E.P.q))).Nodup ∧ e.context.quorum ≤ team.length ∧
      OwnFiles (loadFromDecryption s'.files e.guardians e.quorum) team ∧
      (∀ id ∈ s'.doc.joined, (loadFromDecryption s'.files e.guardians e.quorum id).isSome) ∧ (∀ g ∈ team, g.id ∈ s'.doc.joined) ∧
      e.guardianRecords.map (fun r => (r.guardianId, r.sequenceOrder, r.publicKey))
        = team.map (fun g => (g.id, g.electionKeys.sequenceOrder, g.electionKeys.keyPair.pub)) := by
  obtain ⟨team, ht, hlenT, hf, hperm, hload, hord, hrecs⟩ := C72_team_partial hv hlen hl hq n quorum evs evs' s s' hs hs' hnd hnamed hall
    parseManifest kcId name raw url e pkg he
  obtain ⟨m, jk, im', -, -, -, him, hee, -⟩ := computeElection_ok.1 he
  have hcount : s.doc.guardianCount = n ∧ s.doc.quorum = quorum := by
    have : (KCDoc.create n quorum).Le s.doc := by rw [hs]; exact run_le (KCSystem.init n quorum) evs
    exact ⟨this.count.symm, this.quorum.symm⟩
  have hg : e.guardians = team.length := by rw [hlenT, hee]; exact hcount.1
  have horder : ∀ g ∈ team, 1 ≤ g.electionKeys.sequenceOrder ∧ g.electionKeys.sequenceOrder ≤ n := by
    intro g hg'
    have hmem : g.id ∈ s'.doc.joined := hperm.mem_iff.1 (List.mem_map.2 ⟨g, hg', rfl⟩)
    have := List.idxOf_lt_length_iff.2 hmem
    rw [hord g hg']
    omega
  have hdistinct : (team.map (fun g => (g.electionKeys.sequenceOrder : ZMod E.P.q))).Nodup := by
    refine (ht.ids.of_map (f := fun g => g.id)).map_on ?_
    intro a ha b hb hab
    obtain ⟨a1, a2⟩ := horder a ha
    obtain ⟨b1, b2⟩ := horder b hb
    have hmod := (ZMod.intCast_eq_intCast_iff _ _ _).1 hab
    unfold Int.ModEq at hmod
    rw [Int.emod_eq_of_lt (by omega) (by omega), Int.emod_eq_of_lt (by omega) (by omega), hord a ha, hord b hb] at hmod
    have hidx : s'.doc.joined.idxOf a.id = s'.doc.joined.idxOf b.id := by omega
    have hmem : a.id ∈ s'.doc.joined := hperm.mem_iff.1 (List.mem_map.2 ⟨a, ha, rfl⟩)
    have hid : a.id = b.id := (List.idxOf_inj hmem).1 hidx
    exact List.inj_on_of_nodup_map ht.ids ha hb hid
  refine ⟨team, ht, hg, ?_, fun g hg' => (by have := (horder g hg').1; omega), hdistinct, ?_, hf, ?_, ?_, hrecs⟩
  · rintro rfl
    simp at hlenT
    omega
  · have h1 : e.context.quorum = quorum := by rw [hee]; exact hcount.2
    rw [h1, hlenT]
    exact hqn
  · intro id h1
    obtain ⟨g, hg', hid⟩ := List.mem_map.1 (hperm.mem_iff.2 h1)
    rw [← hid, hload g hg']
    rfl
  · intro g hg'
    exact hperm.mem_iff.1 (List.mem_map.2 ⟨g, hg', rfl⟩)

/-- The context of an election that was created. -/
theorem created_context {parseManifest : List Char → Option Manifest} {kcId name : String} {kc : KCDoc} {raw : List Char}
    {url : Option String} {e : GuiElection} {pkg : EncryptionPackage}
    (he : computeElection E parseManifest kcId kc name raw url = .ok (e, pkg)) :
    e.context = makeContext E e.guardians e.context.quorum e.context.elgamalPublicKey e.context.commitmentHash
      (e.manifest.cryptoHash E) := by
  obtain ⟨m, jk, im', -, -, -, -, hee, -⟩ := computeElection_ok.1 he
  rw [hee]
  rfl

/-- What the guardians of a key ceremony can do with an election created from it. -/
theorem gui_election_core {loads : Bytes → R (List Char)} (hv : E.P.Valid) (hpq : (E.P.q - 1) * (E.P.q - 1) < E.P.p)
    (hlen : HmacLen E) (hl : ReadsCoordinate loads) (hq : E.P.q ≤ 256 ^ 246) (n quorum : Int) (hn : 0 < n) (hqn : quorum ≤ n)
    (hnq : n.toNat < E.P.q) (evs evs' : List KCEvent) (s s' : KCSystem) (hs : s = (KCSystem.init n quorum).run E loads evs)
    (hs' : s' = s.run E loads evs') (hnd : s'.doc.joined.Nodup) (hnamed : "" ∉ s'.doc.joined)
    (hall : (s'.doc.joined.length : Int) = n) (parseManifest : List Char → Option Manifest) (kcId name : String) (raw : List Char)
    (url : Option String) (e : GuiElection) (pkg : EncryptionPackage)
    (he : computeElection E parseManifest kcId s.doc name raw url = .ok (e, pkg)) (maxE : Nat) (hmax1 : 1 ≤ maxE)
    (json : ContestData → Bytes) (im : InternalManifest) (hem : ElectionReady E e.manifest im)
    (parse : List Char → Option SBallot) (db : GuiDb) (eid : String) (hdb : dget db.elections eid = some e.doc)
    (hempty : db.docsOf eid = []) (ops : List UploadOp)
    (hend : ∀ d ∈ (db.run parse ops).docsOf eid, d.contents.getLast? = some '}') (vs : List VotedBallot)
    (hvs : ∀ v ∈ vs, v.Encrypted E json im e.context ∧ ∃ d, im.StyleHas v.plain.styleId d)
    (hops : uploadedTo parse im.manifestHash eid ops = vs.map (fun v => submitBallot E v.enc v.state))
    (hsmall : (counted vs).length < E.P.q) (hmax : (counted vs).length ≤ maxE)
    (joins : List (String × (Nat → Nat → Bool) × JoinSeeds))
    (hjoins : ∀ j ∈ joins, j.1 ∈ s'.doc.joined ∧ ∀ n, ∃ k < 3, j.2.1 n k = true)
    (heach : ∀ id ∈ s'.doc.joined, ∃ j ∈ joins, j.1 = id) (net : Nat → Nat → Bool) (hnet : ∀ n, ∃ k < 3, net n k = true) :
    ∃ d d' r, joinAll E parse (db.run parse ops) (loadFromDecryption s'.files e.guardians e.quorum) joins
        (GuiDecryption.create eid e.guardians) = .ok d ∧
      tryRunStage2 E maxE parse net (db.run parse ops) d true = (.ok true, d') ∧
      d'.completed = some r ∧ d'.status = .complete ∧
      (∀ cid sid n, r.tally.Reports cid sid n ↔ ∃ c ∈ im.contests, c.objectId = cid ∧
        sid ∈ c.ballotSelections.map SelectionDescription.objectId ∧ n = electionResult im vs c sid) ∧
      (∀ i, i ∈ dkeys r.ballots ↔ ∃ v ∈ firsts vs, v.state = .spoiled ∧ v.plain.objectId = i) ∧
      (∀ v ∈ firsts vs, v.state = .spoiled → ∃ pt, dget r.ballots v.plain.objectId = some pt ∧
        ∀ cid sid n, pt.Reports cid sid n ↔ ∃ c ∈ im.contests, c.objectId = cid ∧
          im.onStyle v.plain.styleId c = true ∧ sid ∈ c.ballotSelections.map SelectionDescription.objectId ∧
          n = v.plain.votesFor im c sid) := by
  obtain ⟨team, ht, hg, hne, hord, hdistinct, hquo, hf, hload, hids, -⟩ := gui_team hv hlen hl hq n quorum hn hqn hnq evs evs' s s' hs
    hs' hnd hnamed hall parseManifest kcId name raw url e pkg he
  have hcreate : GuiDecryption.create eid e.guardians = GuiDecryption.create eid team.length := by rw [hg]
  rw [hcreate]
  refine C70_decryption_completes_partial hv hpq maxE hmax1 json e.manifest im hem parse db eid e.doc hdb rfl ?_ team ht hne
    hord hdistinct hquo _ hf hempty ops hend vs hvs hops hsmall hmax joins (fun j hj => ⟨hload _ (hjoins j hj).1, (hjoins j hj).2⟩)
    (fun g hg' => heach _ (hids g hg')) net hnet
  have h1 : e.doc.context.manifestHash = e.manifest.cryptoHash E := by
    rw [show e.doc.context = e.context from rfl, created_context he]
    rfl
  rw [h1]
  exact (internal_hash hem.internal).symm

/-- C72 The whole election in the GUI: the guardians join a key ceremony in whatever interleaving, the browsers of the guardians and
the administrator look at it until the joint key is published, the administrator creates an election from it, ballots are uploaded,
every guardian joins the decryption and the administrator opens it.  Then the ceremony is on offer, the election is created, and the
decryption reports the election result of the uploaded ballots and the votes of every spoiled ballot.
Partial: the restrictions of `C71_completes_partial` and `C70_decryption_completes_partial`. -/
theorem C72_gui_election_partial {loads : Bytes → R (List Char)} (hv : E.P.Valid) (hpq : (E.P.q - 1) * (E.P.q - 1) < E.P.p)
    (hlen : HmacLen E) (hl : ReadsCoordinate loads) (hq : E.P.q ≤ 256 ^ 246)
    -- the key ceremony
    (n quorum : Int) (hquorum : 0 < quorum) (nameExists : Bool) (kc : KCDoc)
    (hkc : createKeyCeremony n quorum nameExists = some kc) (hnq : n.toNat < E.P.q)
    (hpow : n.toNat ^ quorum.toNat < E.P.p) (evs : List KCEvent) (s : KCSystem) (hs : s = KCSystem.run E loads ⟨kc, [], []⟩ evs)
    (hrest : s.procs = []) (hall : (s.doc.joined.length : Int) = n) (hnd : s.doc.joined.Nodup) (hnamed : "" ∉ s.doc.joined)
    (hstart : s.doc.otherKeys = [] ∧ s.doc.backups = [] ∧ s.doc.sharedBackups = [] ∧ s.doc.verifications = [] ∧
      s.doc.jointKey = none)
    (adm1 adm2 adm3 : String) (n1 n2 n3 : Nat → Nat) (a b c d : List (String × Bool × (Nat → Nat)))
    (hb : EveryoneLooks s.doc.joined b) (hc : EveryoneLooks s.doc.joined c) (s' : KCSystem)
    (hs' : s' = s.run E loads
      ((a ++ (adm1, true, n1) :: b ++ (adm2, true, n2) :: c ++ (adm3, true, n3) :: d).flatMap KCEvent.whole))
    -- the election
    (w : SetupWorld) (kcId : String) (hw : dget w.ceremonies kcId = some s'.doc) (name : String)
    (hname : ∀ e ∈ w.elections, e.2.name ≠ name) (newId : String) (parseManifest : List Char → Option Manifest) (raw : List Char)
    (m : Manifest) (hm : parseManifest raw = some m) (im : InternalManifest) (hem : ElectionReady E m im) (hmn : m.Named)
    (url : Option String) :
    kcId ∈ w.getKeys ∧ ∃ w' jk e, w.createElection E parseManifest newId kcId name raw url = (.ok newId, w') ∧
      w'.elections = w.elections ++ [(newId, e)] ∧ s'.doc.jointKey = some jk ∧ MadeFrom E s'.doc jk m url e ∧
      -- the uploads
      ∀ (maxE : Nat) (_ : 1 ≤ maxE) (json : ContestData → Bytes) (parse : List Char → Option SBallot) (db : GuiDb) (eid : String)
        (_ : dget db.elections eid = some e.doc) (_ : db.docsOf eid = []) (ops : List UploadOp)
        (_ : ∀ d ∈ (db.run parse ops).docsOf eid, d.contents.getLast? = some '}') (vs : List VotedBallot)
        (_ : ∀ v ∈ vs, v.Encrypted E json im e.context ∧ ∃ d, im.StyleHas v.plain.styleId d)
        (_ : uploadedTo parse im.manifestHash eid ops = vs.map (fun v => submitBallot E v.enc v.state))
        (_ : (counted vs).length < E.P.q) (_ : (counted vs).length ≤ maxE)
        -- the decryption
        (joins : List (String × (Nat → Nat → Bool) × JoinSeeds))
        (_ : ∀ j ∈ joins, j.1 ∈ s'.doc.joined ∧ ∀ n, ∃ k < 3, j.2.1 n k = true)
        (_ : ∀ id ∈ s'.doc.joined, ∃ j ∈ joins, j.1 = id) (net : Nat → Nat → Bool) (_ : ∀ n, ∃ k < 3, net n k = true),
        ∃ d d' r, joinAll E parse (db.run parse ops) (loadFromDecryption s'.files e.guardians e.quorum) joins
            (GuiDecryption.create eid e.guardians) = .ok d ∧
          tryRunStage2 E maxE parse net (db.run parse ops) d true = (.ok true, d') ∧
          d'.completed = some r ∧ d'.status = .complete ∧
          (∀ cid sid n, r.tally.Reports cid sid n ↔ ∃ c ∈ im.contests, c.objectId = cid ∧
            sid ∈ c.ballotSelections.map SelectionDescription.objectId ∧ n = electionResult im vs c sid) ∧
          (∀ i, i ∈ dkeys r.ballots ↔ ∃ v ∈ firsts vs, v.state = .spoiled ∧ v.plain.objectId = i) ∧
          (∀ v ∈ firsts vs, v.state = .spoiled → ∃ pt, dget r.ballots v.plain.objectId = some pt ∧
            ∀ cid sid n, pt.Reports cid sid n ↔ ∃ c ∈ im.contests, c.objectId = cid ∧
              im.onStyle v.plain.styleId c = true ∧ sid ∈ c.ballotSelections.map SelectionDescription.objectId ∧
              n = v.plain.votesFor im c sid) := by
  have hkc' : quorum ≤ n ∧ kc = KCDoc.create n quorum := by
    unfold createKeyCeremony at hkc
    split at hkc
    · cases hkc
    · split at hkc
      · cases hkc
      · cases hkc
        exact ⟨by omega, rfl⟩
  obtain ⟨hqn, rfl⟩ := hkc'
  have hn : 0 < n := by omega
  obtain ⟨h1, h2, h3, jk, kps, h4, h5⟩ := C71_completes_partial hv hlen hl hq n quorum hn hquorum hnq hpow evs s hs hrest hall hnd
    hnamed hstart adm1 adm2 adm3 n1 n2 n3 a b c d hb hc s' hs'
  have hcomp : ∃ e pkg, computeElection E parseManifest kcId s'.doc name raw url = .ok (e, pkg) :=
    ⟨_, _, computeElection_ok.2 ⟨m, jk, im, hm, ⟨(C41_iff_partial m).2 hem.manifest.ok, hmn⟩, h4, hem.internal, rfl, rfl⟩⟩
  obtain ⟨e, pkg, hcomp⟩ := hcomp
  have hcr : w.createElection E parseManifest newId kcId name raw url = (.ok newId, { w with
      elections := w.elections ++ [(newId, e)], packages := dset w.packages e.packageFile pkg }) := by
    unfold SetupWorld.createElection
    rw [if_neg (by
      intro h
      obtain ⟨x, hx, hx'⟩ := List.any_eq_true.1 h
      exact hname x hx (by simpa using hx')), hw]
    simp only [hcomp]
  refine ⟨?_, _, jk, e, hcr, rfl, h4, ?_, ?_⟩
  · unfold SetupWorld.getKeys
    exact List.mem_map.2 ⟨(kcId, s'.doc), List.mem_filter.2 ⟨mem_of_dget hw, h1⟩, rfl⟩
  · obtain ⟨kc', jk', m', e', p, g1, g2, g3, g4, -, -, -, g5, -⟩ := C72_created parseManifest w _ newId kcId name newId raw url hcr
    rw [hw] at g1
    cases g1
    rw [h4] at g2
    cases g2
    rw [hm] at g3
    cases g3
    have : e = e' := by
      have := List.append_cancel_left g5
      simp only [List.cons.injEq, Prod.mk.injEq, true_and, and_true] at this
      exact this
    rw [this]
    exact g4
  · have hem' : ElectionReady E e.manifest im := by
      obtain ⟨m', jk', im', g1, -, -, -, g2, -⟩ := computeElection_ok.1 hcomp
      rw [hm] at g1
      cases g1
      rw [g2]
      exact hem
    intro maxE hmax1 json parse db eid hdb hempty ops hend vs hvs hops hsmall hmax joins hjoins heach net hnet
    exact gui_election_core hv hpq hlen hl hq n quorum hn hqn hnq (evs ++ _) [] s' s' (by
      rw [hs', hs]; unfold KCSystem.run; rw [List.foldl_append]; rfl) rfl (by rw [h2]; exact hnd) (by rw [h2]; exact hnamed)
      (by rw [h2]; exact hall) parseManifest kcId name raw url e pkg hcomp maxE hmax1 json im hem' parse db eid hdb hempty ops hend
      vs hvs hops hsmall hmax joins hjoins heach net hnet

/-- C72 Soundness of the whole: whatever interleaving of the key ceremony led to the joint key of the election, and whatever
interleaving of uploads, joins and announcements follows, a decryption that is stored as completed reports the numbers that are
encrypted in the tally of stored ballots, and for every spoiled ballot the encrypted votes; and every guardian that joined the
ceremony made a share of just these ciphertexts.
Partial: nobody joined the ceremony twice, and nobody else joined it (see `C72_late_joiner_fails`); the tally and the ballots are
`Decryptable`, and there is no collision among the texts hashed for the proofs of the tally shares. -/
theorem C72_gui_sound_partial {loads : Bytes → R (List Char)} (hv : E.P.Valid) (hlen : HmacLen E) (hl : ReadsCoordinate loads)
    (hq : E.P.q ≤ 256 ^ 246) (n quorum : Int) (evs evs' : List KCEvent) (s s' : KCSystem)
    (hs : s = (KCSystem.init n quorum).run E loads evs) (hs' : s' = s.run E loads evs')
    (hnd : s'.doc.joined.Nodup) (hnamed : "" ∉ s'.doc.joined) (hall : (s'.doc.joined.length : Int) = n)
    (parseManifest : List Char → Option Manifest) (w w' : SetupWorld) (newId kcId name id : String) (raw : List Char)
    (url : Option String) (hw : dget w.ceremonies kcId = some s.doc)
    (h : w.createElection E parseManifest newId kcId name raw url = (.ok id, w')) :
    ∃ e, w'.elections = w.elections ++ [(id, e)] ∧
      ∀ (maxE : Nat) (parse : List Char → Option SBallot) (db : GuiDb) (eid : String) (_ : dget db.elections eid = some e.doc)
        (_ : db.DistinctBallots) (_ : ∀ d ∈ db.ballots, db.Holds parse d) (gevs : List GuiEvent) (gw : GuiWorld)
        (_ : gw = (GuiWorld.start db eid e.guardians).run E maxE parse (loadFromDecryption s'.files e.guardians e.quorum) gevs)
        (r : GuiResult) (_ : gw.dec.completed = some r),
        (∃ bs, gw.db.Stores parse eid bs ∧ getTally E e.manifest e.context bs false = .ok r.ciphertextTally) ∧
        (Decryptable E.P maxE e.context.elgamalPublicKey e.manifest r.ciphertextTally.toCts →
          (r.tally.Correct E.P e.context.elgamalPublicKey e.manifest r.ciphertextTally.toCts ∧
            ∀ user ∈ s'.doc.joined, ∃ x ∈ gw.made, x.1.guardianId = user ∧
              ∀ c ∈ r.ciphertextTally.toCts, ∀ s ∈ c.selections, Describes e.manifest c.objectId s.objectId →
                ∃ s' ∈ ctSelections x.2.toCts, s'.objectId = s.objectId ∧ s'.ciphertext = s.ciphertext) ∨
            CollisionIn E (joinTexts E e.context.cryptoExtendedBaseHash gw.made r.ciphertextTally)) ∧
        ∀ x ∈ r.ballots, ∃ d ∈ gw.db.docsOf eid, ∃ b, parse d.contents = some b ∧ b.objectId = x.1 ∧ b.state = .spoiled ∧
          (Decryptable E.P maxE e.context.elgamalPublicKey e.manifest b.toCts →
            x.2.Correct E.P e.context.elgamalPublicKey e.manifest b.toCts) := by
  obtain ⟨rfl, -, kc, e, pkg, h1, h2, -, h4, -⟩ := createElection_ok h
  rw [hw] at h1
  cases h1
  refine ⟨e, h4, ?_⟩
  intro maxE parse db eid hdb hdist hholds gevs gw hgw r hr
  obtain ⟨team, ht, -, hf, hperm, -, -, -⟩ := C72_team_partial hv hlen hl hq n quorum evs evs' s s' hs hs' hnd hnamed hall
    parseManifest kcId name raw url e pkg h2
  obtain ⟨g1, g2, g3⟩ := C70_completed_sound_partial hv maxE parse db eid e.guardians e.doc hdb team ht _ hf hdist hholds gevs gw
    hgw r hr
  refine ⟨g1, fun hd => ?_, g3⟩
  rcases g2 hd with ⟨k1, k2⟩ | k
  · refine .inl ⟨k1, fun user hu => ?_⟩
    obtain ⟨g, hg, rfl⟩ := List.mem_map.1 (hperm.mem_iff.2 hu)
    exact k2 g hg
  · exact .inr k

end EG
