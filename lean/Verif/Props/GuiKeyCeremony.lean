import Verif.Lemmas.GuiKeyCeremonyPhases

/-!
# C71: the key ceremony in the GUI, for all interleavings
-/

namespace EG

variable {E : Env} {loads : Bytes → R (List Char)}

theorem verifyBackup_names {rid : String} {b : Backup} {k : ElectionPublicKey} {kp : ElectionKeyPair} {v : Verification}
    (h : verifyBackup E loads rid b k kp = .ok v) : v.ownerId = b.ownerId ∧ v.designatedId = b.designatedId ∧ v.verifierId = rid := by
  simp only [verifyBackup, bind, Except.bind, pure, Except.pure] at h
  split at h
  · cases h
  · split at h
    · cases h
    · split at h
      · cases h
      · split at h
        · cases h
        · cases h
          exact ⟨rfl, rfl, rfl⟩

/-- The sequence order that a backup was made for is in range. -/
theorem generateBackup_order {sid : String} {poly : Polynomial'} {k : ElectionPublicKey} {n : Nat} {b : Backup}
    (h : generateBackup E sid poly k n = .ok b) : ∃ x : Nat, k.sequenceOrder = x ∧ x < E.P.q := by
  simp only [generateBackup, computeCoordinate, bind, Except.bind, pure, Except.pure] at h
  cases hm : mkQ E.P k.sequenceOrder with
  | error e => rw [hm] at h; cases h
  | ok x => exact ⟨x, (mkQ_ok hm).2.symm, (mkQ_ok hm).1⟩

theorem coefficients_generate {id : String} {order : Int} {rands : List (Nat × Nat)} {kp : ElectionKeyPair}
    (h : generateElectionKeyPair E id order rands = .ok kp) : kp.coefficients = rands.map Prod.fst := by
  unfold ElectionKeyPair.coefficients
  rw [(generateElectionKeyPair_ok h).2.2.1]
  unfold generatePolynomial
  rw [List.map_map]
  rfl

theorem idxOf_prefix {l l' : List String} (h : l <+: l') {x : String} (hx : x ∈ l) : l'.idxOf x = l.idxOf x := by
  obtain ⟨t, rfl⟩ := h
  rw [List.idxOf_append_of_mem hx]

theorem map_idxOf_nodup {l : List String} (h : l.Nodup) :
    l.map (fun x => ((l.idxOf x : Nat) : Int) + 1) = (List.range l.length).map (fun i : Nat => (i : Int) + 1) := by
  refine List.ext_getElem (by simp) (fun i h1 h2 => ?_)
  simp only [List.getElem_map, List.getElem_range]
  rw [h.idxOf_getElem]

/-- What a published joint key says about the guardians. -/
theorem publish_holders (hv : E.P.Valid) (hlen : HmacLen E) (hl : ReadsCoordinate loads) (hq : E.P.q ≤ 256 ^ 246)
    {read doc : KCDoc} {files : List (String × PrivateGuardianRecord)} {jk : ElectionJointKey} (hle : read.Le doc)
    (hgood : GoodDoc E loads read files) (hdoc : GoodDoc E loads doc files)
    (hfresh : ∀ u r, dget files u = some r → FreshRecord E doc u r) (hnd : doc.joined.Nodup)
    (h : read.publish E = .ok jk) : ∃ kps, KeyHolders E loads doc files jk kps := by
  classical
  unfold KCDoc.publish at h
  cases hm : read.announceGuardians with
  | error e => rw [hm] at h; cases h
  | ok m =>
    rw [hm] at h
    simp only [bind, Except.bind, pure, Except.pure] at h
    obtain ⟨ks, hks, hmks⟩ := announceGuardians_ok (E := E) hm
    obtain ⟨-, hdet, hmb, hmv, -⟩ := announceGuardians_keys hm
    have hnd' : read.joined.Nodup := hnd.sublist hle.joined.sublist
    -- the announced keys
    have hksid : ks.map (fun k => k.ownerId) = read.joined := by
      clear hmks
      generalize read.joined = l at hks
      induction hks with
      | nil => rfl
      | cons h1 _ ih => rw [List.map_cons, ih, (findKey_ok h1).2]
    have hkeys : m.keys = ks.map (fun k => (k.ownerId, k)) := by
      rw [hmks, foldl_announce]
      show ks.foldl (fun d k => dset d k.ownerId k) [] = _
      rw [foldl_dset_fresh (fun k : ElectionPublicKey => k.ownerId) ks [] (by rw [hksid]; exact hnd') (by simp [dkeys])]
      rfl
    set m2 := m.receiveBackups read.backups with hm2
    set m3 := m2.receiveVerifications read.verifications with hm3
    cases hp : m3.publishJointKey E with
    | none => rw [hp] at h; cases h
    | some jk' =>
      rw [hp] at h
      cases h
      obtain ⟨hver, hjk⟩ := (publishJointKey_eq_some E _ _).1 hp
      obtain ⟨h1, h2, h3, h4⟩ := (allBackupsVerified_iff _).1 hver
      obtain ⟨-, e2, e3, -⟩ := receiveBackups_fields m read.backups
      obtain ⟨-, f2, f3, f4⟩ := receiveVerifications_fields m2 read.verifications
      have hk3 : m3.keys = ks.map (fun k => (k.ownerId, k)) := by rw [hm3, f3, hm2, e3, hkeys]
      have hd3 : m3.details = ⟨read.guardianCount, read.quorum⟩ := by rw [hm3, f2, hm2, e2, hdet]
      rw [hk3, hd3] at h1
      rw [hd3] at h3
      simp only [List.length_map] at h1 h3
      have hklen : ks.length = read.joined.length := by rw [← hksid, List.length_map]
      -- the private file of each
      have hfile : ∀ id ∈ read.joined, ∃ r, dget files id = some r ∧ read.findKey id = .ok r.electionKeys.share ∧
          r.electionKeys.share ∈ read.keys := by
        intro id hid
        obtain ⟨k, -, hk⟩ := forall₂_mem_left hks hid
        obtain ⟨hk1, hk2⟩ := findKey_ok hk
        obtain ⟨r, hr, hsh⟩ := hgood.keysFile k hk1
        exact ⟨r, by rw [← hk2]; exact hr, by rw [hsh]; exact hk, by rw [hsh]; exact hk1⟩
      have : Nonempty PrivateGuardianRecord := ⟨⟨"", ⟨"", 0, ⟨0, 0⟩, []⟩, [], [], [], []⟩⟩
      choose! rec hrec1 hrec2 hrec3 using hfile
      have hfr : ∀ id ∈ read.joined, FreshRecord E doc id (rec id) := fun id hid => hfresh id _ (hrec1 id hid)
      have hksrec : ks = read.joined.map (fun id => (rec id).electionKeys.share) := by
        clear hkeys hmks hksid h1 hk3 hklen hm hdet hmb hmv hm2 hm3
        have : ∀ id ∈ read.joined, read.findKey id = .ok (rec id).electionKeys.share := fun id hid => hrec2 id hid
        generalize read.joined = l at hks this
        induction hks with
        | nil => rfl
        | cons hx _ ih =>
          rw [List.map_cons, ← ih (fun id hid => this id (List.mem_cons_of_mem _ hid))]
          have h' := this _ List.mem_cons_self
          rw [hx] at h'
          cases h'
          rfl
      -- keys of the document
      have hdocKey : ∀ id ∈ read.joined, ∀ k ∈ doc.keys, k.ownerId = id → k = (rec id).electionKeys.share := by
        intro id hid k hk hkid
        obtain ⟨r, hr, hsh⟩ := hdoc.keysFile k hk
        rw [hkid, hrec1 id hid] at hr
        cases hr
        exact hsh.symm
      -- the verified pairs
      have hvm : ∀ e ∈ m3.verifications, e.2 ∈ read.verifications ∧ e.1 = (e.2.ownerId, e.2.designatedId) ∧
          e.2.ownerId ≠ e.2.designatedId := by
        have hb : m2.verifications = [] := by
          rw [hm2]
          unfold KCM.receiveBackups
          split
          · exact hmv
          · rw [(foldl_receiveBackup_fields _ _).2.2.2]; exact hmv
        intro e he
        rw [hm3] at he
        unfold KCM.receiveVerifications at he
        split at he
        · rw [hb] at he; cases he
        · rcases (verifications_foldl read.verifications m2 (by rw [hb]; exact List.nodup_nil)).2 e he with h | h
          · rw [hb] at h; cases h
          · exact h
      have hvnd : (dkeys m3.verifications).Nodup := by
        have hb : m2.verifications = [] := by
          rw [hm2]
          unfold KCM.receiveBackups
          split
          · exact hmv
          · rw [(foldl_receiveBackup_fields _ _).2.2.2]; exact hmv
        rw [hm3]
        unfold KCM.receiveVerifications
        split
        · rw [hb]; exact List.nodup_nil
        · exact (verifications_foldl read.verifications m2 (by rw [hb]; exact List.nodup_nil)).1
      have hbn : ∀ b ∈ read.backups, ∃ k ∈ read.keys, k.ownerId = b.designatedId ∧ b.ownerId ∈ read.joined ∧
          k.ownerId ∈ read.joined := by
        intro b hb
        obtain ⟨hb0, r, -, k, hk, n, hgen⟩ := hgood.backups b hb
        exact ⟨k, hk, (generateBackup_ids hgen).2.symm, hb0, hgood.keysJoined k hk⟩
      have hpair : ∀ x ∈ read.joined, ∀ y ∈ read.joined, x ≠ y → ∃ v ∈ read.verifications, v.ownerId = x ∧
          v.designatedId = y ∧ v.verified = true := by
        intro x hx y hy hxy
        have := all_pairs hnd' hvnd (fun p hp' => by
          obtain ⟨e, he, rfl⟩ := List.mem_map.1 hp'
          obtain ⟨a1, a2, a3⟩ := hvm e he
          obtain ⟨b, hb, r, hr, k, hk, hko, hver⟩ := hgood.verifications _ a1
          obtain ⟨n1, n2, n3⟩ := verifyBackup_names hver
          obtain ⟨k', -, hk1, hk2, hk3⟩ := hbn b hb
          rw [a2]
          refine ⟨?_, ?_, a3⟩
          · show e.2.ownerId ∈ _
            rw [n1]; exact hk2
          · show e.2.designatedId ∈ _
            rw [n2, ← hk1]; exact hk3) (by
          have hx : (dkeys m3.verifications).length = m3.verifications.length := List.length_map _
          rw [hx, h3, ← h1, hklen]) x y hx hy hxy
        obtain ⟨e, he, hex⟩ := List.mem_map.1 this
        obtain ⟨a1, a2, a3⟩ := hvm e he
        rw [a2] at hex
        exact ⟨e.2, a1, congrArg Prod.fst hex, congrArg Prod.snd hex, h4 e he⟩
      have hgens : ∀ id ∈ read.joined, ∃ rands : List (Nat × Nat), rands.length = doc.quorum.toNat ∧
          generateElectionKeyPair E id (rec id).electionKeys.sequenceOrder rands = .ok (rec id).electionKeys :=
        fun id hid => (hfr id hid).generated
      refine ⟨read.joined.map (fun id => (rec id).electionKeys), ?_, ?_, ?_, ?_, ?_, ?_, ?_, ?_, ?_, ?_, ?_⟩
      · rw [List.length_map, ← hklen, h1, hle.count]
      · rw [List.map_map, List.length_map]
        have : read.joined.map ((fun kp : ElectionKeyPair => kp.ownerId) ∘ fun id => (rec id).electionKeys)
            = read.joined.map _root_.id := List.map_congr_left (fun id hid => (hfr id hid).id)
        rw [this, List.map_id]
        exact (List.prefix_iff_eq_take.1 hle.joined)
      · rw [List.map_map, List.length_map, ← map_idxOf_nodup hnd']
        refine List.map_congr_left (fun id hid => ?_)
        show (rec id).electionKeys.sequenceOrder = _
        rw [(hfr id hid).order.2, idxOf_prefix hle.joined hid]
      · intro kp hkp
        obtain ⟨id, hid, rfl⟩ := List.mem_map.1 hkp
        obtain ⟨rands, hr1, hr2⟩ := hgens id hid
        rw [coefficients_generate hr2, List.length_map, hr1]
      · intro kp hkp
        obtain ⟨id, hid, rfl⟩ := List.mem_map.1 hkp
        obtain ⟨rands, hr1, hr2⟩ := hgens id hid
        rw [coefficients_generate hr2]
        exact (generateElectionKeyPair_ok hr2).2.2.2.2
      · intro kp hkp
        obtain ⟨id, hid, rfl⟩ := List.mem_map.1 hkp
        obtain ⟨rands, hr1, hr2⟩ := hgens id hid
        obtain ⟨-, -, c1, -, c2⟩ := C47_key_pair hr2
        exact ⟨c2, by rw [c1, coefficients_generate hr2]⟩
      · intro kp hkp
        obtain ⟨id, hid, rfl⟩ := List.mem_map.1 hkp
        exact ⟨rec id, by rw [(hfr id hid).id]; exact hrec1 id hid, rfl⟩
      · intro kp hkp
        obtain ⟨id, hid, rfl⟩ := List.mem_map.1 hkp
        rw [(hfr id hid).id]
        obtain ⟨k, hk⟩ : ∃ k, doc.findKey id = .ok k := by
          unfold KCDoc.findKey
          cases hf : doc.keys.find? (fun k => k.ownerId == id) with
          | some k => exact ⟨k, rfl⟩
          | none =>
            have := List.find?_eq_none.1 hf _ (hle.keys.subset (hrec3 id hid))
            have hid' : (rec id).electionKeys.share.ownerId = id := (hfr id hid).id
            simp [hid'] at this
        rw [hk, hdocKey id hid k (findKey_ok hk).1 (findKey_ok hk).2]
      · intro kp hkp kp' hkp' hne
        obtain ⟨x, hx, rfl⟩ := List.mem_map.1 hkp
        obtain ⟨y, hy, rfl⟩ := List.mem_map.1 hkp'
        rw [(hfr x hx).id, (hfr y hy).id] at hne ⊢
        obtain ⟨v, hv1, hv2, hv3, hv4⟩ := hpair x hx y hy hne
        obtain ⟨b, hb, r, hr, k, hk, hko, hver⟩ := hgood.verifications v hv1
        obtain ⟨n1, n2, n3⟩ := verifyBackup_names hver
        have hbo : b.ownerId = x := by rw [← n1, hv2]
        have hbd : b.designatedId = y := by rw [← n2, hv3]
        rw [hbd] at hr hver n3
        rw [hrec1 y hy] at hr
        cases hr
        have hkx := hdocKey x hx k (hle.keys.subset hk) (hko.trans hbo)
        subst hkx
        have hveq : v = ⟨x, y, y, true⟩ := by
          cases v
          simp only at hv2 hv3 hv4 n3
          rw [hv2, hv3, hv4, n3]
        rw [hveq] at hver hv1
        refine ⟨hle.verifications.subset hv1, b, hle.backups.subset hb, hbo, hbd, hver, ?_⟩
        obtain ⟨-, r', hr', k', hk', n, hgen⟩ := hgood.backups b hb
        rw [hbo, hrec1 x hx] at hr'
        cases hr'
        have hky := hdocKey y hy k' (hle.keys.subset hk') (by rw [← hbd]; exact (generateBackup_ids hgen).2.symm)
        subst hky
        rw [hbo] at hgen
        obtain ⟨z, hz, hzq⟩ := generateBackup_order hgen
        have hz' : (rec y).electionKeys.sequenceOrder = z := hz
        obtain ⟨rx, -, hgx⟩ := hgens x hx
        obtain ⟨ry, -, hgy⟩ := hgens y hy
        rw [hz'] at hgy
        obtain ⟨b', hb', -, -, -, hdec⟩ := C47_backup_decrypts hv hlen loads hl hq _ _ _ _ hzq _ _ _ _ n hgx hgy
        rw [hgen] at hb'
        cases hb'
        rw [hdec, hz', coefficients_generate hgx]
        rfl
      · rw [hjk, hk3]
        show combinePublicKeys E.P _ = _
        rw [combinePublicKeys_prod hv.one_lt_p]
        congr 2
        have hmm : ((ks.map (fun k => (k.ownerId, k))).map (·.2)).map (·.key) = ks.map (fun k => k.key) := by
          rw [List.map_map, List.map_map]; rfl
        rw [hmm, hksrec, List.map_map, List.map_map]
        refine List.map_congr_left (fun id hid => ?_)
        obtain ⟨rands, -, hr2⟩ := hgens id hid
        exact (C47_key_pair hr2).2.2.2.2
      · rw [hjk, hk3]
        show hashElems E _ = _
        have hmm : (ks.map (fun k => (k.ownerId, k))).map (·.2) = ks := by
          rw [List.map_map]; exact List.map_id _
        rw [hmm, hksrec, List.flatMap_map, List.flatMap_map]
        congr 4
        refine List.flatMap_congr (fun id hid => ?_)
        obtain ⟨rands, -, hr2⟩ := hgens id hid
        rw [(C47_key_pair hr2).2.2.1, coefficients_generate hr2]

/-- C71 Whatever interleaving of joins and stages by guardians and administrators happened, each of them with any stale copy of
the document: if the document shows a joint key, then guardians as many as the ceremony is for hold it.
Partial: no user joined twice (see `C71_rejoined_fails`), and user ids that are not empty. -/
theorem C71_published_sound_partial (hv : E.P.Valid) (hlen : HmacLen E) (hl : ReadsCoordinate loads)
    (hq : E.P.q ≤ 256 ^ 246) (n quorum : Int) (evs : List KCEvent) (s : KCSystem)
    (hs : s = (KCSystem.init n quorum).run E loads evs) (hnd : s.doc.joined.Nodup) (hnamed : "" ∉ s.doc.joined)
    (jk : ElectionJointKey) (hjk : s.doc.jointKey = some jk) :
    ∃ kps, KeyHolders E loads s.doc s.files jk kps := by
  subst hs
  have h := race_run n quorum evs hnd hnamed
  obtain ⟨read, h1, h2, h3⟩ := h.joint jk hjk
  exact publish_holders hv hlen hl hq h1 h2 h.good h.fresh hnd h3

/-- C71 The joint key that the document shows never changes.
Partial: no user joined twice, and user ids that are not empty. -/
theorem C71_joint_key_stable_partial (hv : E.P.Valid) (hlen : HmacLen E) (hl : ReadsCoordinate loads)
    (hq : E.P.q ≤ 256 ^ 246) (n quorum : Int) (evs evs' : List KCEvent) (s s' : KCSystem)
    (hs : s = (KCSystem.init n quorum).run E loads evs) (hs' : s' = s.run E loads evs') (hnd : s'.doc.joined.Nodup)
    (hnamed : "" ∉ s'.doc.joined) (jk jk' : ElectionJointKey) (hjk : s.doc.jointKey = some jk)
    (hjk' : s'.doc.jointKey = some jk') : jk' = jk := by
  have hle : s.doc.Le s'.doc := by rw [hs']; exact run_le s evs'
  obtain ⟨kps, h⟩ := C71_published_sound_partial hv hlen hl hq n quorum evs s hs (hnd.sublist hle.joined.sublist)
    (fun h => hnamed (hle.joined.subset h)) jk hjk
  obtain ⟨kps', h'⟩ := C71_published_sound_partial hv hlen hl hq n quorum (evs ++ evs') s'
    (by rw [hs', hs]; unfold KCSystem.run; rw [List.foldl_append]) hnd hnamed jk' hjk'
  have hlen' : kps.length = kps'.length := by
    have := h.count.trans (hle.count.trans h'.count.symm)
    exact_mod_cast this
  have hids : kps.map (fun kp => kp.ownerId) = kps'.map (fun kp => kp.ownerId) := by
    rw [h.ids, h'.ids, ← hlen']
    obtain ⟨t, ht⟩ := hle.joined
    rw [← ht, List.take_append_of_le_length]
    have := congrArg List.length h.ids
    rw [List.length_map, List.length_take] at this
    omega
  have hfind : ∀ id k, s.doc.findKey id = .ok k → s'.doc.findKey id = .ok k := by
    intro id k hk
    unfold KCDoc.findKey at hk ⊢
    obtain ⟨t, ht⟩ := hle.keys
    rw [← ht, List.find?_append]
    cases hf : s.doc.keys.find? (fun k => k.ownerId == id) with
    | none => rw [hf] at hk; cases hk
    | some x => rw [hf] at hk; exact hk
  have hshares : kps.map (fun kp => kp.share) = kps'.map (fun kp => kp.share) := by
    have h1 : ∀ kp ∈ kps, s'.doc.findKey kp.ownerId = .ok kp.share := fun kp hkp => hfind _ _ (h.published kp hkp)
    have h2 := h'.published
    clear h h' hfind
    induction kps generalizing kps' with
    | nil =>
      cases kps' with
      | nil => rfl
      | cons _ _ => cases hlen'
    | cons kp kps ih =>
      cases kps' with
      | nil => cases hlen'
      | cons kp' kps' =>
        rw [List.map_cons, List.map_cons, List.cons.injEq] at hids
        rw [List.map_cons, List.map_cons, ih kps' (by simpa using hlen') hids.2 (fun x hx => h1 x (List.mem_cons_of_mem _ hx))
          (fun x hx => h2 x (List.mem_cons_of_mem _ hx))]
        have e1 := h1 kp List.mem_cons_self
        have e2 := h2 kp' List.mem_cons_self
        rw [hids.1, e2, Except.ok.injEq] at e1
        rw [e1]
  have hprod : ∀ {l : List ElectionKeyPair} {jk : ElectionJointKey} {d f}, KeyHolders E loads d f jk l →
      jk = ⟨((l.map (fun kp => kp.share)).map (fun k => k.key)).prod % E.P.p,
        hashElems E [.list (((l.map (fun kp => kp.share)).flatMap (fun k => k.commitments)).map HArg.elem)]⟩ := by
    intro l jk d f hk
    obtain ⟨a, b⟩ := jk
    have e1 := hk.joint
    have e2 := hk.commitmentHash
    simp only at e1 e2
    rw [e1, e2, List.map_map, List.flatMap_map]
    congr 3
    · exact List.map_congr_left (fun kp hkp => (hk.shares kp hkp).1.symm)
    · congr 2
      exact List.flatMap_congr (fun kp hkp => (hk.shares kp hkp).2.symm)
  rw [hprod h, hprod h', hshares]

/-- C71 The private files never get a backup or a key of another guardian: what a guardian received during the ceremony is in the
database only. -/
theorem C71_files_hold_own_key_only (n quorum : Int) (evs : List KCEvent) (s : KCSystem)
    (hs : s = (KCSystem.init n quorum).run E loads evs) (user : String) (r : PrivateGuardianRecord)
    (hr : dget s.files user = some r) :
    r.guardianBackups = [] ∧ r.backupsToShare = [] ∧ r.guardianVerifications = [] ∧
      r.guardianKeys = [(user, r.electionKeys.share)] := by
  subst hs
  suffices h : ∀ e ∈ ((KCSystem.init n quorum).run E loads evs).files, e.2.guardianBackups = [] ∧ e.2.backupsToShare = [] ∧
      e.2.guardianVerifications = [] ∧ e.2.guardianKeys = [(e.1, e.2.electionKeys.share)] from h _ (mem_of_dget hr)
  clear hr
  induction evs using List.reverseRecOn with
  | nil => intro e he; cases he
  | append_singleton evs ev ih =>
    unfold KCSystem.run at *
    rw [List.foldl_append, List.foldl_cons, List.foldl_nil]
    generalize evs.foldl (KCSystem.event E loads) (KCSystem.init n quorum) = s at ih ⊢
    cases ev with
    | join user => exact ih
    | poll user isAdmin =>
      unfold KCSystem.event
      simp only
      split <;> exact ih
    | step i rands nonces =>
      unfold KCSystem.event
      simp only
      split
      · exact ih
      · rename_i p _
        show ∀ e ∈ (p.advance E loads s.doc s.files rands nonces).2.1, _
        unfold KCProc.advance
        split
        · split <;> exact ih
        · split
          · exact ih
          · rename_i g hg
            obtain ⟨kp, -, rfl⟩ := makeGuardian_ok hg
            intro e he
            rcases mem_dset he with rfl | he
            · exact ⟨rfl, rfl, rfl, rfl⟩
            · exact ih e he
        · exact ih
        · split <;> exact ih
        · exact ih
        · exact ih

/-- The guardians of a ceremony at rest. -/
theorem atRest_team {n quorum : Int} {d : KCDoc} {files : List (String × PrivateGuardianRecord)}
    (h : RaceInv E loads d files []) (hcount : d.guardianCount = n) (hquorum' : d.quorum = quorum) (hquorum : 0 < quorum)
    (hnq : n.toNat < E.P.q) (hpow : n.toNat ^ quorum.toNat < E.P.p)
    (hall : (d.joined.length : Int) = n) (hnd : d.joined.Nodup) (hnamed : "" ∉ d.joined) :
    ∃ rands kps, Team E quorum.toNat rands kps ∧ AllIn d files kps := by
  have hfile : ∀ id ∈ d.joined, ∃ r, dget files id = some r ∧ r.electionKeys.share ∈ d.keys := by
    intro id hid
    have := h.all (by rw [hquorum']; exact hquorum) id hid
    simp only [List.filterMap_nil, List.nil_append] at this
    obtain ⟨k, hk, rfl⟩ := List.mem_map.1 this
    obtain ⟨r, hr, hsh⟩ := h.good.keysFile k hk
    exact ⟨r, hr, by rw [hsh]; exact hk⟩
  have : Nonempty PrivateGuardianRecord := ⟨⟨"", ⟨"", 0, ⟨0, 0⟩, []⟩, [], [], [], []⟩⟩
  choose! rec hrec1 hrec2 using hfile
  have hfr : ∀ id ∈ d.joined, FreshRecord E d id (rec id) := fun id hid => h.fresh id _ (hrec1 id hid)
  have hgen : ∀ id ∈ d.joined, ∃ rands : List (Nat × Nat), rands.length = d.quorum.toNat ∧
      generateElectionKeyPair E id (rec id).electionKeys.sequenceOrder rands = .ok (rec id).electionKeys :=
    fun id hid => (hfr id hid).generated
  choose! rands hr1 hr2 using hgen
  refine ⟨rands, d.joined.map (fun id => (rec id).electionKeys), ⟨?_, ?_, ?_, ?_, ?_⟩, ⟨?_, ?_, ?_, ?_⟩⟩
  · rw [List.map_map]
    have : d.joined.map ((fun kp : ElectionKeyPair => kp.ownerId) ∘ fun id => (rec id).electionKeys)
        = d.joined.map _root_.id := List.map_congr_left (fun id hid => (hfr id hid).id)
    rw [this, List.map_id]
    exact hnd
  · intro kp hkp
    obtain ⟨id, hid, rfl⟩ := List.mem_map.1 hkp
    rw [(hfr id hid).id]
    exact fun h => hnamed (h ▸ hid)
  · intro kp hkp
    obtain ⟨id, hid, rfl⟩ := List.mem_map.1 hkp
    rw [(hfr id hid).id]
    exact hr2 id hid
  · intro kp hkp
    obtain ⟨id, hid, rfl⟩ := List.mem_map.1 hkp
    rw [(hfr id hid).id, hr1 id hid, hquorum']
  · intro kp hkp
    obtain ⟨id, hid, rfl⟩ := List.mem_map.1 hkp
    rw [(hfr id hid).order.2]
    have hidx := List.idxOf_lt_length_of_mem hid
    have hto : ((d.joined.idxOf id : Int) + 1).toNat = d.joined.idxOf id + 1 := by omega
    rw [hto]
    have hle : d.joined.idxOf id + 1 ≤ n.toNat := by omega
    refine ⟨by omega, by omega, fun i hi => ?_⟩
    calc (d.joined.idxOf id + 1) ^ i ≤ n.toNat ^ i := Nat.pow_le_pow_left hle i
      _ ≤ n.toNat ^ quorum.toNat := Nat.pow_le_pow_right (by omega) hi.le
      _ < E.P.p := hpow
  · rw [List.length_map, hall, hcount]
  · rw [List.map_map]
    have : d.joined.map ((fun kp : ElectionKeyPair => kp.ownerId) ∘ fun id => (rec id).electionKeys)
        = d.joined.map _root_.id := List.map_congr_left (fun id hid => (hfr id hid).id)
    rw [this, List.map_id]
  · intro kp hkp
    obtain ⟨id, hid, rfl⟩ := List.mem_map.1 hkp
    have hsid : (rec id).electionKeys.share.ownerId = (rec id).electionKeys.ownerId := rfl
    unfold KCDoc.findKey
    cases hf : d.keys.find? (fun k => k.ownerId == (rec id).electionKeys.ownerId) with
    | none =>
      have := List.find?_eq_none.1 hf _ (hrec2 id hid)
      simp [hsid] at this
    | some k =>
      have hk := List.mem_of_find?_eq_some hf
      have hko := beq_iff_eq.1 (List.find?_some (p := fun k : ElectionPublicKey => k.ownerId == (rec id).electionKeys.ownerId) hf)
      obtain ⟨r, hr, hsh⟩ := h.good.keysFile k hk
      rw [hko, (hfr id hid).id, hrec1 id hid] at hr
      cases hr
      rw [hsh]
  · intro kp hkp
    obtain ⟨id, hid, rfl⟩ := List.mem_map.1 hkp
    refine ⟨rec id, by rw [(hfr id hid).id]; exact hrec1 id hid, rfl, (hfr id hid).shared, ?_, (hfr id hid).received⟩
    rw [(hfr id hid).keys, (hfr id hid).id]

/-- C71 A ceremony comes to its end: when the guardians have joined, in whatever interleaving, as many as the ceremony is for, and
then the browsers of guardians and administrators (and strangers) look at the document one after another so that the administrator
looks, then every guardian, then the administrator, every guardian and the administrator once more, with anybody else in between,
then the joint key is published and the guardians hold it.
Partial: no user joins twice, the calls of the browsers do not overlap from the announcement on (see `C71_two_sessions_fails`), and
orders whose powers are below `p` (C10). -/
theorem C71_completes_partial (hv : E.P.Valid) (hlen : HmacLen E) (hl : ReadsCoordinate loads) (hq : E.P.q ≤ 256 ^ 246)
    (n quorum : Int) (hn : 0 < n) (hquorum : 0 < quorum) (hnq : n.toNat < E.P.q) (hpow : n.toNat ^ quorum.toNat < E.P.p)
    (evs : List KCEvent) (s : KCSystem) (hs : s = (KCSystem.init n quorum).run E loads evs) (hrest : s.procs = [])
    (hall : (s.doc.joined.length : Int) = n) (hnd : s.doc.joined.Nodup) (hnamed : "" ∉ s.doc.joined)
    (hstart : s.doc.otherKeys = [] ∧ s.doc.backups = [] ∧ s.doc.sharedBackups = [] ∧ s.doc.verifications = [] ∧
      s.doc.jointKey = none)
    (adm1 adm2 adm3 : String) (n1 n2 n3 : Nat → Nat) (a b c d : List (String × Bool × (Nat → Nat)))
    (hb : EveryoneLooks s.doc.joined b) (hc : EveryoneLooks s.doc.joined c) (s' : KCSystem)
    (hs' : s' = s.run E loads
      ((a ++ (adm1, true, n1) :: b ++ (adm2, true, n2) :: c ++ (adm3, true, n3) :: d).flatMap KCEvent.whole)) :
    s'.doc.completed = true ∧ s'.doc.joined = s.doc.joined ∧ s'.procs = [] ∧
      ∃ jk kps, s'.doc.jointKey = some jk ∧ KeyHolders E loads s'.doc s'.files jk kps := by
  have hinv := race_run (E := E) (loads := loads) n quorum evs (by rw [← hs]; exact hnd) (by rw [← hs]; exact hnamed)
  rw [← hs, hrest] at hinv
  have hle : (KCDoc.create n quorum).Le s.doc := by rw [hs]; exact run_le (KCSystem.init n quorum) evs
  obtain ⟨rands, kps, ht, hin⟩ := atRest_team hinv hle.count.symm hle.quorum.symm hquorum hnq hpow hall hnd hnamed
  have hne : kps ≠ [] := by
    rintro rfl
    have := hin.joined
    simp only [List.map_nil] at this
    rw [this] at hall
    simp at hall
    omega
  have hphase : AtPhase E kps s.doc s.files .joined := ⟨hin, hstart⟩
  obtain ⟨d', h1, h2⟩ := phases_run hv hlen hl hq ht hne
    (a ++ (adm1, true, n1) :: b ++ (adm2, true, n2) :: c ++ (adm3, true, n3) :: d) hphase
  rw [← hin.joined, KCPhase.after_complete (by rw [hin.joined]; simpa using hne) hnd hb hc] at h2
  have hsm : s = ⟨s.doc, s.files, []⟩ := by rw [← hrest]
  rw [← hsm] at h1
  rw [h1] at hs'
  obtain ⟨g1, g2, g3, jk, g4, -⟩ := h2
  have hj : s'.doc.joined = s.doc.joined := by rw [hs']; exact g1.joined.trans hin.joined.symm
  refine ⟨by rw [hs']; exact g3, hj, by rw [hs'], jk, ?_⟩
  obtain ⟨kps', hk⟩ := C71_published_sound_partial hv hlen hl hq n quorum
    (evs ++ (a ++ (adm1, true, n1) :: b ++ (adm2, true, n2) :: c ++ (adm3, true, n3) :: d).flatMap KCEvent.whole) s'
    (by
      unfold KCSystem.run at hs h1 ⊢
      rw [List.foldl_append, ← hs, h1, hs'])
    (by rw [hj]; exact hnd) (by rw [hj]; exact hnamed) jk (by rw [hs']; exact g4)
  exact ⟨kps', by rw [hs']; exact g4, hk⟩

end EG
