import Verif.Lemmas.GuiKeyCeremonyLive

/-!
# Lemmas: what a browser does to a key ceremony that everybody joined
-/

namespace EG

variable {E : Env} {loads : Bytes → R (List Char)}

/-- The stage that a browser runs, by the state of the document. -/
theorem stage_eq (d : KCDoc) (user : String) (isAdmin : Bool) :
    d.stage user isAdmin = match d.state with
      | .pendingGuardiansJoin => none
      | .pendingAdminAnnounce => if isAdmin then some .announce else none
      | .pendingGuardianBackups => if isAdmin then none else if 0 < d.backupCount user then none else some .makeBackups
      | .pendingAdminToShareBackups => if isAdmin then some .shareBackups else none
      | .pendingGuardiansVerifyBackups =>
        if isAdmin then none else if 0 < d.verificationCount user then none else some .verifyBackups
      | .pendingAdminToPublishJointKey => if isAdmin then some .publish else none
      | .complete => none := by
  unfold KCDoc.stage
  cases hs : d.state <;> cases isAdmin <;> simp [List.find?, KCStage.shouldRun, hs]
  all_goals (split <;> simp_all)

theorem AllIn.state {d : KCDoc} {files : List (String × PrivateGuardianRecord)} {kps : List ElectionKeyPair}
    (h : AllIn d files kps) :
    d.state = if d.otherKeys = [] then .pendingAdminAnnounce
      else if d.backups.length < kps.length * kps.length then .pendingGuardianBackups
      else if d.sharedBackups = [] then .pendingAdminToShareBackups
      else if d.verifications.length < (kps.length - 1) * kps.length then .pendingGuardiansVerifyBackups
      else if d.jointKey = none then .pendingAdminToPublishJointKey
      else .complete := by
  unfold KCDoc.state ceremonyState KCDoc.counts
  have h1 : (d.joined.length : Int) = d.guardianCount := by rw [h.joined, h.count, List.length_map]
  have h2 : ((d.backups.length : Int) < d.guardianCount ^ 2) ↔ d.backups.length < kps.length * kps.length := by
    rw [h.count, pow_two]
    exact_mod_cast Iff.rfl
  have h3 : ((d.verifications.length : Int) < d.guardianCount ^ 2 - d.guardianCount) ↔
      d.verifications.length < (kps.length - 1) * kps.length := by
    rw [h.count, Nat.sub_mul, one_mul]
    have : kps.length ≤ kps.length * kps.length := Nat.le_mul_self _
    have h4 : ((kps.length : Int)) ^ 2 = ((kps.length * kps.length : Nat) : Int) := by push_cast; ring
    rw [h4]
    omega
  simp only [h1, lt_irrefl, if_false, List.length_eq_zero_iff, h2, h3, Option.isSome_eq_false_iff, Option.isNone_iff_eq_none]

theorem backupCount_pos {kps : List ElectionKeyPair} {made : List String} {d : KCDoc} (hb : BackupsBy E kps made d.backups)
    (hne : kps ≠ []) (user : String) : 0 < d.backupCount user ↔ user ∈ made := by
  unfold KCDoc.backupCount
  rw [List.length_pos_iff_exists_mem]
  constructor
  · rintro ⟨b, hb'⟩
    obtain ⟨h1, h2⟩ := List.mem_filter.1 hb'
    obtain ⟨kp, -, _, -, hm, _, hgen⟩ := hb.good b h1
    rw [← (generateBackup_ids hgen).1, beq_iff_eq.1 h2] at hm
    exact hm
  · intro h
    obtain ⟨kp, hkp⟩ := List.exists_mem_of_ne_nil _ hne
    obtain ⟨b, h1, h2, -⟩ := hb.all user h kp hkp
    exact ⟨b, List.mem_filter.2 ⟨h1, by rw [h2]; exact beq_self_eq_true _⟩⟩

theorem verificationCount_pos {kps : List ElectionKeyPair} {done : List String} {d : KCDoc}
    (hb : VerifiedBy kps done d.verifications) (hn : (kps.map (fun kp => kp.ownerId)).Nodup) (hne : 1 < kps.length)
    (user : String) : 0 < d.verificationCount user ↔ user ∈ done := by
  unfold KCDoc.verificationCount
  rw [List.length_pos_iff_exists_mem]
  constructor
  · rintro ⟨b, hb'⟩
    obtain ⟨h1, h2⟩ := List.mem_filter.1 hb'
    have := (hb.good b h1).2.1
    rw [beq_iff_eq.1 h2] at this
    exact this
  · intro h
    have : ∃ kp ∈ kps, kp.ownerId ≠ user := by
      match kps, hne, hn with
      | a :: b :: l, _, hn =>
        by_cases ha : a.ownerId = user
        · refine ⟨b, by simp, fun hb => ?_⟩
          simp [ha, hb] at hn
        · exact ⟨a, by simp, ha⟩
    obtain ⟨kp, hkp, hk⟩ := this
    obtain ⟨v, h1, h2, h3⟩ := hb.all user h kp hkp hk
    exact ⟨v, List.mem_filter.2 ⟨h1, by rw [h3]; exact beq_self_eq_true _⟩⟩

theorem otherKeys_stranger {kps : List ElectionKeyPair} {d : KCDoc} (ho : d.otherKeys = sharedKeys kps) {user : String}
    (hu : user ∉ kps.map (fun kp => kp.ownerId)) : d.otherKeysFor user = .error .value := by
  unfold KCDoc.otherKeysFor
  have : d.otherKeys.find? (fun e => e.1 == user) = none := by
    rw [List.find?_eq_none, ho]
    intro e he
    obtain ⟨kp, hkp, rfl⟩ := List.mem_map.1 he
    simp only [beq_iff_eq]
    exact fun h => hu (h ▸ List.mem_map_of_mem hkp)
  rw [this]

theorem makeBackups_stranger {kps : List ElectionKeyPair} {d : KCDoc} (ho : d.otherKeys = sharedKeys kps) {user : String}
    (hu : user ∉ kps.map (fun kp => kp.ownerId)) (file : Option PrivateGuardianRecord) (nonces : Nat → Nat) :
    d.makeBackups E user file nonces = .error .value := by
  unfold KCDoc.makeBackups KCDoc.loadOtherKeys
  rw [otherKeys_stranger ho hu]
  cases file <;> rfl

theorem verifyBackups_stranger {kps : List ElectionKeyPair} {d : KCDoc} (ho : d.otherKeys = sharedKeys kps) {user : String}
    (hu : user ∉ kps.map (fun kp => kp.ownerId)) (file : Option PrivateGuardianRecord) :
    ∃ e, d.verifyBackups E loads user file = .error e := by
  unfold KCDoc.verifyBackups KCDoc.loadOtherKeys
  rw [otherKeys_stranger ho hu]
  cases d.sharedBackupsFor user <;> cases file <;> exact ⟨_, rfl⟩

/-- The phases follow the specification. -/
theorem phase_step (hv : E.P.Valid) (hlen : HmacLen E) (hl : ReadsCoordinate loads) (hq : E.P.q ≤ 256 ^ 246)
    {quorum : Nat} {rands : String → List (Nat × Nat)} {kps : List ElectionKeyPair} (ht : Team E quorum rands kps)
    (hne : kps ≠ []) {d : KCDoc} {files : List (String × PrivateGuardianRecord)} {ph : KCPhase}
    (h : AtPhase E kps d files ph) (user : String) (isAdmin : Bool) (nonces : Nat → Nat) :
    AtPhase E kps (KCWorld.onChanged E loads ⟨d, files⟩ user isAdmin nonces).2.doc files
      (ph.next (kps.map (fun kp => kp.ownerId)) user isAdmin) := by
  have hpos : 0 < kps.length := List.length_pos_iff.2 hne
  have hsk : sharedKeys kps ≠ [] := by
    intro hc
    exact hne (List.map_eq_nil_iff.1 hc)
  cases ph with
  | joined =>
    obtain ⟨h1, h2, h3, h4, h5, h6⟩ := h
    have hst : d.state = .pendingAdminAnnounce := by rw [h1.state, if_pos h2]
    unfold KCWorld.onChanged
    rw [stage_eq, hst]
    cases isAdmin with
    | false => exact ⟨h1, h2, h3, h4, h5, h6⟩
    | true =>
      simp only [if_true, KCStage.compute, h1.announce ht.ids, bind, Except.bind, pure, Except.pure, List.foldl_cons,
        List.foldl_nil, KCPhase.next]
      refine ⟨h1.congr rfl rfl rfl, ?_, ?_, h4, h5, h6⟩
      · simp [KCDoc.apply, h2]
      · show BackupsBy E kps [] d.backups
        rw [h3]
        exact ⟨List.nodup_nil, by simp, by simp, by simp, by simp⟩
  | backups made =>
    obtain ⟨h1, h2, h3, h4, h5, h6⟩ := h
    have hle : made.length ≤ kps.length := by
      have := (h3.nodup.subperm h3.ids).length_le
      rwa [List.length_map] at this
    unfold KCWorld.onChanged
    rw [stage_eq, h1.state, if_neg (by rw [h2]; exact hsk), h3.length]
    by_cases hfull : made.length = kps.length
    · rw [if_neg (by rw [hfull]; exact lt_irrefl _), if_pos h4]
      cases isAdmin with
      | false =>
        have hin : ¬ (user ∈ kps.map (fun kp => kp.ownerId) ∧ user ∉ made) := fun hc =>
          hc.2 (full_mem h3.nodup h3.ids (by rw [hfull, List.length_map]) user hc.1)
        simp only [KCPhase.next, Bool.false_eq_true, if_false, if_neg hin]
        exact ⟨h1, h2, h3, h4, h5, h6⟩
      | true =>
        obtain ⟨sh, hsh1, hsh2⟩ := h1.shareBackups ht hfull h3
        simp only [if_true, KCStage.compute, hsh1, bind, Except.bind, pure, Except.pure, List.foldl_cons, List.foldl_nil,
          KCPhase.next, List.length_map, hfull]
        refine ⟨h1.congr rfl rfl rfl, h2, ⟨made, hfull, h3⟩, ?_, ?_, h6⟩
        · show SharedWith kps d.backups (d.sharedBackups ++ sh)
          rw [h4]
          exact hsh2
        · show VerifiedBy kps [] d.verifications
          rw [h5]
          exact ⟨List.nodup_nil, by simp, by simp, by simp, by simp⟩
    · have hlt : kps.length * made.length < kps.length * kps.length :=
        Nat.mul_lt_mul_of_pos_left (by omega) hpos
      rw [if_pos hlt]
      cases isAdmin with
      | true =>
        simp only [if_true, KCPhase.next, List.length_map, if_neg (fun h : kps.length = made.length => hfull h.symm)]
        exact ⟨h1, h2, h3, h4, h5, h6⟩
      | false =>
        simp only [Bool.false_eq_true, if_false, KCPhase.next]
        by_cases hmade : user ∈ made
        · rw [if_pos ((backupCount_pos h3 hne user).2 hmade), if_neg (fun hc => hc.2 hmade)]
          exact ⟨h1, h2, h3, h4, h5, h6⟩
        · rw [if_neg (fun hc => hmade ((backupCount_pos h3 hne user).1 hc))]
          by_cases hin : user ∈ kps.map (fun kp => kp.ownerId)
          · rw [if_pos ⟨hin, hmade⟩]
            obtain ⟨kp, hkp, rfl⟩ := List.mem_map.1 hin
            obtain ⟨bs, hb1, hb2, hb3, hb4⟩ := h1.makeBackups hv hlen hl hq ht h2 hkp nonces
            simp only [KCStage.compute, hb1, bind, Except.bind, pure, Except.pure, List.foldl_cons, List.foldl_nil]
            refine ⟨h1.congr rfl rfl rfl, h2, ?_, h4, h5, h6⟩
            show BackupsBy E kps (made ++ [kp.ownerId]) (d.backups ++ bs)
            refine ⟨?_, ?_, ?_, ?_, ?_⟩
            · exact List.nodup_append.2 ⟨h3.nodup, List.nodup_singleton _, fun a ha b hb hab => by
                rw [List.mem_singleton] at hb
                exact hmade (hb ▸ hab ▸ ha)⟩
            · intro x hx
              rcases List.mem_append.1 hx with hx | hx
              · exact h3.ids x hx
              · rw [List.mem_singleton.1 hx]; exact hin
            · intro b hb
              rcases List.mem_append.1 hb with hb | hb
              · obtain ⟨k1, hk1, k2, hk2, hm, n, hn⟩ := h3.good b hb
                exact ⟨k1, hk1, k2, hk2, List.mem_append_left _ hm, n, hn⟩
              · obtain ⟨k2, hk2, n, hn⟩ := hb3 b hb
                exact ⟨kp, hkp, k2, hk2, by simp, n, hn⟩
            · intro x hx kp' hkp'
              rcases List.mem_append.1 hx with hx | hx
              · obtain ⟨b, hb, hb'⟩ := h3.all x hx kp' hkp'
                exact ⟨b, List.mem_append_left _ hb, hb'⟩
              · obtain ⟨b, hb, hb'⟩ := hb4 kp' hkp'
                rw [List.mem_singleton.1 hx]
                exact ⟨b, List.mem_append_right _ hb, hb'⟩
            · rw [List.length_append, List.length_append, hb2, h3.length, List.length_singleton, Nat.mul_add, Nat.mul_one]
          · rw [if_neg (fun hc => hin hc.1)]
            simp only [KCStage.compute, makeBackups_stranger h2 hin, bind, Except.bind]
            exact ⟨h1, h2, h3, h4, h5, h6⟩
  | verifying done =>
    obtain ⟨h1, h2, ⟨made, hm, h3⟩, h4, h5, h6⟩ := h
    have hle : done.length ≤ kps.length := by
      have := (h5.nodup.subperm h5.ids).length_le
      rwa [List.length_map] at this
    have hsh : d.sharedBackups ≠ [] := by
      intro hc
      have := h4.ids
      rw [hc] at this
      exact hne (List.map_eq_nil_iff.1 this.symm)
    unfold KCWorld.onChanged
    rw [stage_eq, h1.state, if_neg (by rw [h2]; exact hsk), h3.length, hm, if_neg (lt_irrefl _), if_neg hsh, h5.length]
    by_cases hfull : done.length = kps.length ∨ kps.length = 1
    · have hnlt : ¬ (kps.length - 1) * done.length < (kps.length - 1) * kps.length := by
        rcases hfull with h | h
        · rw [h]; exact lt_irrefl _
        · rw [h]; simp
      rw [if_neg hnlt, if_pos h6]
      cases isAdmin with
      | false =>
        have hin : ¬ (user ∈ kps.map (fun kp => kp.ownerId) ∧ user ∉ done ∧ (kps.map (fun kp => kp.ownerId)).length ≠ 1) := by
          rintro ⟨a, b, c⟩
          rw [List.length_map] at c
          rcases hfull with h | h
          · exact b (full_mem h5.nodup h5.ids (by rw [h, List.length_map]) user a)
          · exact c h
        simp only [KCPhase.next, Bool.false_eq_true, if_false, if_neg hin]
        exact ⟨h1, h2, ⟨made, hm, h3⟩, h4, h5, h6⟩
      | true =>
        obtain ⟨jk, hj1, hj2⟩ := h1.publish hv.one_lt_p ht hm h3 hfull h5
        have hfull' : (kps.map (fun kp => kp.ownerId)).length = done.length ∨ (kps.map (fun kp => kp.ownerId)).length = 1 := by
          rw [List.length_map]
          rcases hfull with h | h
          · exact .inl h.symm
          · exact .inr h
        simp only [if_true, KCStage.compute, hj1, bind, Except.bind, pure, Except.pure, List.foldl_cons, List.foldl_nil,
          KCPhase.next, if_pos hfull']
        refine ⟨h1.congr rfl rfl rfl, ?_, rfl, jk, rfl, hj2⟩
        have h1' : AllIn ((d.apply (.jointKey jk)).apply .complete) files kps := h1.congr rfl rfl rfl
        have a1 : ¬ ((d.apply (.jointKey jk)).apply .complete).otherKeys = [] := by
          show ¬ d.otherKeys = []
          rw [h2]; exact hsk
        have a2 : ¬ ((d.apply (.jointKey jk)).apply .complete).backups.length < kps.length * kps.length := by
          show ¬ d.backups.length < _
          rw [h3.length, hm]; exact lt_irrefl _
        have a3 : ¬ ((d.apply (.jointKey jk)).apply .complete).sharedBackups = [] := hsh
        have a4 : ¬ ((d.apply (.jointKey jk)).apply .complete).verifications.length < (kps.length - 1) * kps.length := by
          show ¬ d.verifications.length < _
          rw [h5.length]; exact hnlt
        have a5 : ¬ ((d.apply (.jointKey jk)).apply .complete).jointKey = none := by
          show ¬ some jk = none
          simp
        rw [h1'.state, if_neg a1, if_neg a2, if_neg a3, if_neg a4, if_neg a5]
    · have hlt : (kps.length - 1) * done.length < (kps.length - 1) * kps.length :=
        Nat.mul_lt_mul_of_pos_left (by omega) (by omega)
      rw [if_pos hlt]
      have hfull' : ¬ ((kps.map (fun kp => kp.ownerId)).length = done.length ∨ (kps.map (fun kp => kp.ownerId)).length = 1) := by
        rw [List.length_map]
        rintro (h | h)
        · exact hfull (.inl h.symm)
        · exact hfull (.inr h)
      cases isAdmin with
      | true =>
        simp only [if_true, KCPhase.next, if_neg hfull']
        exact ⟨h1, h2, ⟨made, hm, h3⟩, h4, h5, h6⟩
      | false =>
        simp only [Bool.false_eq_true, if_false, KCPhase.next]
        have hone : (kps.map (fun kp => kp.ownerId)).length ≠ 1 := fun h => hfull' (.inr h)
        by_cases hdone : user ∈ done
        · rw [if_pos ((verificationCount_pos h5 ht.ids (by omega) user).2 hdone), if_neg (fun hc => hc.2.1 hdone)]
          exact ⟨h1, h2, ⟨made, hm, h3⟩, h4, h5, h6⟩
        · rw [if_neg (fun hc => hdone ((verificationCount_pos h5 ht.ids (by omega) user).1 hc))]
          by_cases hin : user ∈ kps.map (fun kp => kp.ownerId)
          · rw [if_pos ⟨hin, hdone, hone⟩]
            obtain ⟨kp, hkp, rfl⟩ := List.mem_map.1 hin
            have hvs := h1.verifyBackups hv hlen hl hq ht h2 h3 h4 hkp
            simp only [KCStage.compute, hvs, bind, Except.bind, pure, Except.pure, List.foldl_cons, List.foldl_nil]
            refine ⟨h1.congr rfl rfl rfl, h2, ⟨made, hm, h3⟩, h4, ?_, h6⟩
            show VerifiedBy kps (done ++ [kp.ownerId]) (d.verifications ++ _)
            refine ⟨?_, ?_, ?_, ?_, ?_⟩
            · exact List.nodup_append.2 ⟨h5.nodup, List.nodup_singleton _, fun a ha b hb hab => by
                rw [List.mem_singleton] at hb
                exact hdone (hb ▸ hab ▸ ha)⟩
            · intro x hx
              rcases List.mem_append.1 hx with hx | hx
              · exact h5.ids x hx
              · rw [List.mem_singleton.1 hx]; exact hin
            · intro v hv'
              rcases List.mem_append.1 hv' with hv' | hv'
              · obtain ⟨a, b, c⟩ := h5.good v hv'
                exact ⟨a, List.mem_append_left _ b, c⟩
              · obtain ⟨o, ho, rfl⟩ := List.mem_map.1 hv'
                exact ⟨(List.mem_filter.1 ho).1, by simp, rfl⟩
            · intro x hx kp' hkp' hne'
              rcases List.mem_append.1 hx with hx | hx
              · obtain ⟨b, hb, hb'⟩ := h5.all x hx kp' hkp' hne'
                exact ⟨b, List.mem_append_left _ hb, hb'⟩
              · rw [List.mem_singleton.1 hx] at hne' ⊢
                refine ⟨⟨kp'.ownerId, kp.ownerId, kp.ownerId, true⟩, List.mem_append_right _ (List.mem_map.2
                  ⟨kp'.ownerId, List.mem_filter.2 ⟨List.mem_map_of_mem hkp', ?_⟩, rfl⟩), rfl, rfl⟩
                simpa using fun h => hne' h.symm
            · rw [List.length_append, List.length_append, List.length_map, others_length ht.ids hkp, h5.length,
                List.length_singleton, Nat.mul_add, Nat.mul_one]
          · rw [if_neg (fun hc => hin hc.1)]
            obtain ⟨e, he⟩ := verifyBackups_stranger (E := E) (loads := loads) h2 hin (dget files user)
            simp only [KCStage.compute, he, bind, Except.bind]
            exact ⟨h1, h2, ⟨made, hm, h3⟩, h4, h5, h6⟩
  | complete =>
    obtain ⟨h0, h1, h2, h3⟩ := h
    unfold KCWorld.onChanged
    rw [stage_eq, h1]
    exact ⟨h0, h1, h2, h3⟩

end EG
