import Verif.Spec.KeyCeremonyRecord
import Verif.Lemmas.Record
import Verif.Props.KeyCeremonyMediator

/-!
# The mediator's reports are exact (C108)
-/

namespace EG

/-- `record_iff` for this mediator. -/
theorem kc_record_iff {α : Type} (P : Params) (me : String) (d : CeremonyDetails) (get : KCM → Option α)
    (puts : KCM → KCMOp → Option α → Prop) (h0 : get (KCM.init me d) = none)
    (hput : ∀ s op r, puts s op r → get (s.step P op) = r)
    (hkeep : ∀ s op, (∀ r, ¬ puts s op r) → get (s.step P op) = get s) (ops : List KCMOp) (a : α) :
    get (KCM.run P me d ops) = some a ↔ LastPut (KCM.run P me d) puts ops a :=
  record_iff (KCM.run P me d) (fun s op => s.step P op) (fun _ => True) (fun _ _ => run_concat ..) get puts h0 (fun _ => trivial)
    (fun s op r _ => hput s op r) (fun s op _ => hkeep s op) ops a

theorem receiveBackup_other (s : KCM) (b : Backup) (pair : String × String) (h : (b.ownerId, b.designatedId) ≠ pair) :
    dget (s.receiveBackup b).backups pair = dget s.backups pair := by
  unfold KCM.receiveBackup
  split
  · rfl
  · simp only; rw [dget_dset, if_neg h]

theorem receiveBackups_other (l : List Backup) (s : KCM) (pair : String × String)
    (h : ∀ x ∈ l, (x.ownerId, x.designatedId) ≠ pair) :
    dget (l.foldl KCM.receiveBackup s).backups pair = dget s.backups pair := by
  induction l generalizing s with
  | nil => rfl
  | cons a l ih =>
    rw [List.foldl_cons, ih _ (fun x hx => h x (List.mem_cons_of_mem _ hx)), receiveBackup_other _ _ _ (h a List.mem_cons_self)]

theorem receiveVerification_other (s : KCM) (b : Verification) (pair : String × String) (h : (b.ownerId, b.designatedId) ≠ pair) :
    dget (s.receiveVerification b).verifications pair = dget s.verifications pair := by
  unfold KCM.receiveVerification
  split
  · rfl
  · simp only; rw [dget_dset, if_neg h]

theorem receiveVerifications_other (l : List Verification) (s : KCM) (pair : String × String)
    (h : ∀ x ∈ l, (x.ownerId, x.designatedId) ≠ pair) :
    dget (l.foldl KCM.receiveVerification s).verifications pair = dget s.verifications pair := by
  induction l generalizing s with
  | nil => rfl
  | cons a l ih =>
    rw [List.foldl_cons, ih _ (fun x hx => h x (List.mem_cons_of_mem _ hx)), receiveVerification_other _ _ _ (h a List.mem_cons_self)]

/-- C108: after any calls the backup on record for a pair of different guardians is the one that was delivered last, since the last reset
and after all guardians had announced themselves. -/
theorem C108_backups (P : Params) (me : String) (d : CeremonyDetails) (ops : List KCMOp) (o x : String) (hne : o ≠ x) (b : Backup) :
    dget (KCM.run P me d ops).backups (o, x) = some b ↔ LastPut (KCM.run P me d) (fun s => PutsBackup s (o, x)) ops b := by
  refine kc_record_iff P me d (fun s => dget s.backups (o, x)) _ rfl ?_ ?_ ops b
  · rintro s op r (⟨d', rfl, rfl⟩ | ⟨b, l, l', rfl, rfl, ha, hb, hl⟩)
    · rfl
    · simp only [KCM.step, KCM.receiveBackups, ha, Bool.not_true, Bool.false_eq_true, if_false, List.foldl_append, List.foldl_cons]
      rw [receiveBackups_other _ _ _ hl]
      unfold KCM.receiveBackup
      have : b.ownerId ≠ b.designatedId := by
        rw [Prod.mk.injEq] at hb
        rw [hb.1, hb.2]; exact hne
      rw [if_neg this]
      simp only
      rw [hb, dget_dset, if_pos rfl]
  · intro s op h
    cases op with
    | announce k => rfl
    | receiveVerifications vs =>
      simp only [KCM.step, KCM.receiveVerifications]
      split
      · rfl
      · have : ∀ (l : List Verification) (s : KCM), (l.foldl KCM.receiveVerification s).backups = s.backups := by
          intro l
          induction l with
          | nil => intro s; rfl
          | cons a l ih =>
            intro s
            rw [List.foldl_cons, ih]
            unfold KCM.receiveVerification
            split <;> rfl
        rw [this]
    | verifyChallenge c =>
      simp only [KCM.step, KCM.verifyChallenge]
      cases verifyChallenge P s.id c with
      | error e => rfl
      | ok v =>
        simp only
        split
        · unfold KCM.receiveVerification; split <;> rfl
        · rfl
    | reset d' => exact absurd (Or.inl ⟨d', rfl, rfl⟩) (h none)
    | receiveBackups bs =>
      simp only [KCM.step, KCM.receiveBackups]
      cases ha : s.allAnnounced with
      | false => rfl
      | true =>
        simp only [Bool.not_true, Bool.false_eq_true, if_false]
        rcases last_split (fun b : Backup => (b.ownerId, b.designatedId)) (o, x) bs with hl | ⟨l, b, l', rfl, h1, h2⟩
        · exact receiveBackups_other _ _ _ hl
        · exact absurd (Or.inr ⟨b, l, l', rfl, rfl, ha, h1, h2⟩) (h (some b))

/-- C108: after any calls the verdict on record for a pair of different guardians is the last one: delivered after all backups had come, or
won by a challenge that was met, and in either case since the last reset. -/
theorem C108_verdicts (P : Params) (me : String) (d : CeremonyDetails) (ops : List KCMOp) (o x : String) (hne : o ≠ x)
    (v : Verification) :
    dget (KCM.run P me d ops).verifications (o, x) = some v ↔
      LastPut (KCM.run P me d) (fun s => PutsVerdict P s (o, x)) ops v := by
  have hpair : ∀ {a b : String}, (a, b) = (o, x) → a ≠ b := by
    intro a b h
    rw [Prod.mk.injEq] at h
    rw [h.1, h.2]; exact hne
  refine kc_record_iff P me d (fun s => dget s.verifications (o, x)) _ rfl ?_ ?_ ops v
  · rintro s op r (⟨d', rfl, rfl⟩ | ⟨b, l, l', rfl, rfl, ha, hb, hl⟩ | ⟨c, rfl, hc, hv, rfl⟩)
    · rfl
    · simp only [KCM.step, KCM.receiveVerifications, ha, Bool.not_true, Bool.false_eq_true, if_false, List.foldl_append, List.foldl_cons]
      rw [receiveVerifications_other _ _ _ hl]
      unfold KCM.receiveVerification
      rw [if_neg (hpair hb)]
      simp only
      rw [hb, dget_dset, if_pos rfl]
    · simp only [KCM.step, KCM.verifyChallenge, verifyChallenge, hv, bind, Except.bind, pure, Except.pure, if_true,
        KCM.receiveVerification, if_neg (hpair hc)]
      rw [hc, dget_dset, if_pos rfl]
  · intro s op h
    cases op with
    | announce k => rfl
    | receiveBackups bs =>
      simp only [KCM.step, KCM.receiveBackups]
      split
      · rfl
      · have : ∀ (l : List Backup) (s : KCM), (l.foldl KCM.receiveBackup s).verifications = s.verifications := by
          intro l
          induction l with
          | nil => intro s; rfl
          | cons a l ih =>
            intro s
            rw [List.foldl_cons, ih]
            unfold KCM.receiveBackup
            split <;> rfl
        rw [this]
    | verifyChallenge c =>
      simp only [KCM.step, KCM.verifyChallenge, verifyChallenge, bind, Except.bind]
      cases hv : verifyCoordinate P c.value c.designatedOrder c.commitments with
      | error e => rfl
      | ok ok =>
        cases ok with
        | false => rfl
        | true =>
          simp only [pure, Except.pure, if_true]
          by_cases hc : (c.ownerId, c.designatedId) = (o, x)
          · exact absurd (Or.inr (Or.inr ⟨c, rfl, hc, hv, rfl⟩)) (h _)
          · exact receiveVerification_other _ _ _ hc
    | reset d' => exact absurd (Or.inl ⟨d', rfl, rfl⟩) (h none)
    | receiveVerifications bs =>
      simp only [KCM.step, KCM.receiveVerifications]
      cases ha : s.allBackupsAvailable with
      | false => rfl
      | true =>
        simp only [Bool.not_true, Bool.false_eq_true, if_false]
        rcases last_split (fun b : Verification => (b.ownerId, b.designatedId)) (o, x) bs with hl | ⟨l, b, l', rfl, h1, h2⟩
        · exact receiveVerifications_other _ _ _ hl
        · exact absurd (Or.inr (Or.inl ⟨b, l, l', rfl, rfl, ha, h1, h2⟩)) (h (some b))

/-- C108: `get_verification_state` says that all was sent exactly when every guardian announced itself and there are as many backups and
verdicts on record as pairs of different guardians; the failures it lists are then exactly the pairs whose verdict on record is no, each
once; and it says that all was verified exactly when all was sent and there are no failures.  The joint key is published exactly then. -/
theorem C108_state (E : Env) (me : String) (d : CeremonyDetails) (ops : List KCMOp) :
    let s := KCM.run E.P me d ops
    let r := s.verificationState
    let n := (detailsAfter d ops).numberOfGuardians
    (r.allSent = true ↔ ((participants ops).length : Int) = n ∧ ((dkeys s.backups).length : Int) = (n - 1) * n ∧
      ((dkeys s.verifications).length : Int) = (n - 1) * n) ∧
    (∀ o x, (o, x) ∈ r.failed ↔ r.allSent = true ∧ ∃ v, dget s.verifications (o, x) = some v ∧ v.verified = false) ∧
    r.failed.Nodup ∧ (r.allVerified = true ↔ r.allSent = true ∧ r.failed = []) ∧
    ((s.publishJointKey E).isSome = true ↔ r.allVerified = true) := by
  intro s r n
  have hr := records_run E.P me d ops
  have hk := (keys_eq_participants E.P me d ops).1
  have hdet : s.details.numberOfGuardians = n := by rw [show s.details = _ from hr.details]
  have hlen : (participants ops).length = s.keys.length := by rw [← hk, List.length_map]
  have hsent : r.allSent = true ↔ s.allBackupsAvailable = true ∧ s.enoughVerifications = true := by
    show s.verificationState.allSent = true ↔ _
    unfold KCM.verificationState KCM.checkVerification
    cases s.allBackupsAvailable <;> cases s.enoughVerifications <;> simp
  have hsome : r.allSent = true → r.failed = (s.verifications.filter (fun e => !e.2.verified)).map (fun e => (e.2.ownerId, e.2.designatedId)) := by
    intro h
    obtain ⟨h1, h2⟩ := hsent.1 h
    show s.verificationState.failed = _
    unfold KCM.verificationState KCM.checkVerification
    simp [h1, h2]
  have hnone : r.allSent = false → r.failed = [] ∧ r.allVerified = false := by
    intro h
    have h' : ¬ (s.allBackupsAvailable = true ∧ s.enoughVerifications = true) := by
      rw [← hsent, h]; simp
    show s.verificationState.failed = [] ∧ s.verificationState.allVerified = false
    unfold KCM.verificationState
    rw [if_pos (by cases h1 : s.allBackupsAvailable <;> cases h2 : s.enoughVerifications <;> simp_all)]
    exact ⟨rfl, rfl⟩
  have hpairs : ∀ e ∈ s.verifications, (e.2.ownerId, e.2.designatedId) = e.1 := fun e he => (hr.verifications e he).2.1.symm
  have hnd : (dkeys s.verifications).Nodup := hr.verificationsNodup
  refine ⟨?_, ?_, ?_, ?_, ?_⟩
  · rw [hsent]
    unfold KCM.allBackupsAvailable KCM.allAnnounced KCM.enoughBackups KCM.enoughVerifications
    simp only [Bool.and_eq_true, beq_iff_eq, hdet, hlen, dkeys, List.length_map, and_assoc]
  · intro o x
    cases hs : r.allSent with
    | false => simp [(hnone hs).1]
    | true =>
      rw [hsome hs]
      simp only [List.mem_map, List.mem_filter, true_and]
      constructor
      · rintro ⟨e, ⟨he, hf⟩, h⟩
        rw [hpairs e he] at h
        refine ⟨e.2, ?_, by simpa using hf⟩
        rw [← h]
        exact dget_of_mem hnd he
      · rintro ⟨v, hv, hf⟩
        have he := mem_of_dget hv
        exact ⟨_, ⟨he, by simp [hf]⟩, hpairs _ he⟩
  · cases hs : r.allSent with
    | false => rw [(hnone hs).1]; exact List.nodup_nil
    | true =>
      rw [hsome hs]
      have : (s.verifications.filter (fun e => !e.2.verified)).map (fun e => (e.2.ownerId, e.2.designatedId))
          = (s.verifications.filter (fun e => !e.2.verified)).map (·.1) :=
        List.map_congr_left fun e he => hpairs e (List.mem_of_mem_filter he)
      rw [this]
      exact hnd.sublist (List.filter_sublist.map _)
  · cases hs : r.allSent with
    | false => simp [(hnone hs).2]
    | true =>
      obtain ⟨h1, h2⟩ := hsent.1 hs
      show s.verificationState.allVerified = true ↔ true = true ∧ s.verificationState.failed = []
      unfold KCM.verificationState KCM.checkVerification
      simp [h1, h2]
  · show (s.publishJointKey E).isSome = true ↔ s.verificationState.allVerified = true
    unfold KCM.publishJointKey KCM.allBackupsVerified
    cases s.verificationState.allVerified <;> simp

/-- C108: `share_announced` gives nothing before all guardians announced themselves, and then the keys announced last of all of them but
the one who asks. -/
theorem C108_announced (P : Params) (me : String) (d : CeremonyDetails) (ops : List KCMOp) (requesting : Option String) :
    (((participants ops).length : Int) ≠ (detailsAfter d ops).numberOfGuardians →
      (KCM.run P me d ops).shareAnnounced requesting = .ok none) ∧
    (((participants ops).length : Int) = (detailsAfter d ops).numberOfGuardians →
      (KCM.run P me d ops).shareAnnounced requesting
        = .ok (some ((participants ops).filter (fun k => decide (some k.ownerId ≠ requesting))))) := by
  have hr := records_run P me d ops
  have hk := (keys_eq_participants P me d ops).1
  rw [← hk, List.length_map, ← hr.details]
  generalize KCM.run P me d ops = s at hr
  unfold KCM.shareAnnounced KCM.allAnnounced
  constructor
  · intro h
    rw [if_pos (by simpa using h)]
  · intro h
    rw [if_neg (by simp [h])]
    have hm : ∀ l : List (String × ElectionPublicKey), (∀ e ∈ l, e ∈ s.keys) →
        ((dkeys l).filter (fun id => decide (some id ≠ requesting))).mapM (fun id => dgetR s.keys id)
          = .ok ((l.map (·.2)).filter (fun k => decide (some k.ownerId ≠ requesting))) := by
      intro l
      induction l with
      | nil => intro _; rfl
      | cons e l ih =>
        intro hl
        have he := hl e List.mem_cons_self
        have ih := ih (fun x hx => hl x (List.mem_cons_of_mem _ hx))
        have ho := hr.keysOwner e he
        have hg : dgetR s.keys e.1 = .ok e.2 := by
          unfold dgetR
          rw [dget_of_mem hr.keysNodup he]
        have h1 : dkeys (e :: l) = e.1 :: dkeys l := rfl
        rw [h1, List.map_cons]
        by_cases hreq : some e.1 ≠ requesting
        · rw [List.filter_cons_of_pos (by simpa using hreq), List.filter_cons_of_pos (by rw [← ho]; simpa using hreq), List.mapM_cons, hg, ih]
          rfl
        · rw [List.filter_cons_of_neg (by simpa using hreq), List.filter_cons_of_neg (by rw [← ho]; simpa using hreq), ih]
    show (((dkeys s.keys).filter (fun id => decide (some id ≠ requesting))).mapM (fun id => dgetR s.keys id) >>= fun l => pure (some l)) = _
    rw [hm s.keys (fun _ h => h)]
    rfl

/-- C108: `share_backups` exactly: nothing before all guardians announced themselves; asked for nobody or for the empty id, all backups on
record; asked for a guardian, the backups for it of all others who announced themselves, or an exception if one of these is missing. -/
theorem C108_shared (P : Params) (me : String) (d : CeremonyDetails) (ops : List KCMOp) :
    let s := KCM.run P me d ops
    let n := (detailsAfter d ops).numberOfGuardians
    (((participants ops).length : Int) ≠ n → ∀ r, s.shareBackups r = .ok none) ∧
    (((participants ops).length : Int) = n →
      (∀ r, r = none ∨ r = some "" → ∃ bs, s.shareBackups r = .ok (some bs) ∧ bs.Nodup ∧
        ∀ b, b ∈ bs ↔ dget s.backups (b.ownerId, b.designatedId) = some b) ∧
      ∀ id, id ≠ "" →
        (s.shareBackups (some id) = .error .key ↔ ∃ k ∈ participants ops, k.ownerId ≠ id ∧ dget s.backups (k.ownerId, id) = none) ∧
        ∀ bs, s.shareBackups (some id) = .ok (some bs) ↔
          bs.map some = ((participants ops).filter (fun k => decide (k.ownerId ≠ id))).map (fun k => dget s.backups (k.ownerId, id))) := by
  intro s n
  have hr := records_run P me d ops
  have hk := (keys_eq_participants P me d ops).1
  have hann : s.allAnnounced = decide (((participants ops).length : Int) = n) := by
    unfold KCM.allAnnounced
    rw [← hk, List.length_map]
    show _ = decide ((s.keys.length : Int) = (detailsAfter d ops).numberOfGuardians)
    rw [← hr.details]
    rfl
  have hto : ∀ id (l : List (String × ElectionPublicKey)), (∀ e ∈ l, e.1 = e.2.ownerId) →
      (((dkeys l).filter (fun other => decide (id ≠ other))).mapM (fun other => dgetR s.backups (other, id)) = .error .key ↔
        ∃ k ∈ l.map (·.2), k.ownerId ≠ id ∧ dget s.backups (k.ownerId, id) = none) ∧
      (∀ e, ((dkeys l).filter (fun other => decide (id ≠ other))).mapM (fun other => dgetR s.backups (other, id)) = .error e → e = .key) ∧
      ∀ bs, ((dkeys l).filter (fun other => decide (id ≠ other))).mapM (fun other => dgetR s.backups (other, id)) = .ok bs ↔
        bs.map some = ((l.map (·.2)).filter (fun k => decide (k.ownerId ≠ id))).map (fun k => dget s.backups (k.ownerId, id)) := by
    intro id l
    induction l with
    | nil =>
      intro _
      refine ⟨by simp [dkeys, pure, Except.pure], fun e h => by simp [dkeys, pure, Except.pure] at h, fun bs => ?_⟩
      cases bs <;> simp [dkeys, pure, Except.pure]
    | cons e l ih =>
      intro hl
      obtain ⟨ih1, ih2, ih3⟩ := ih (fun x hx => hl x (List.mem_cons_of_mem _ hx))
      have ho := hl e List.mem_cons_self
      have h1 : dkeys (e :: l) = e.1 :: dkeys l := rfl
      rw [h1, List.map_cons]
      by_cases hid : e.2.ownerId = id
      · rw [List.filter_cons_of_neg (by simp [ho, hid]), List.filter_cons_of_neg (by simp [hid])]
        refine ⟨?_, ih2, ih3⟩
        rw [ih1]
        simp [hid]
      · rw [List.filter_cons_of_pos (by simpa [ho] using fun h => hid h.symm), List.filter_cons_of_pos (by simpa using hid), List.mapM_cons]
        simp only [List.map_cons]
        cases hd : dget s.backups (e.2.ownerId, id) with
        | none =>
          have hg : dgetR s.backups (e.1, id) = .error .key := by unfold dgetR; rw [ho, hd]
          rw [hg]
          refine ⟨?_, ?_, ?_⟩
          · simp only [bind, Except.bind, true_iff]
            exact ⟨e.2, List.mem_cons_self, hid, hd⟩
          · intro x h; simp only [bind, Except.bind, Except.error.injEq] at h; exact h.symm
          · intro bs
            cases bs <;> simp [bind, Except.bind]
        | some b =>
          have hg : dgetR s.backups (e.1, id) = .ok b := by unfold dgetR; rw [ho, hd]
          rw [hg]
          simp only [bind, Except.bind]
          cases hrest : ((dkeys l).filter (fun other => decide (id ≠ other))).mapM (fun other => dgetR s.backups (other, id)) with
          | error x =>
            have hx := ih2 x hrest
            subst hx
            refine ⟨?_, ?_, ?_⟩
            · obtain ⟨k, hk1, hk2⟩ := ih1.1 hrest
              simp only [true_iff]
              exact ⟨k, List.mem_cons_of_mem _ hk1, hk2⟩
            · intro x h; simp only [Except.error.injEq] at h; exact h.symm
            · intro bs
              cases bs with
              | nil => simp
              | cons a bs =>
                simp only [reduceCtorEq, List.map_cons, List.cons.injEq, Option.some.injEq, false_iff, not_and]
                intro _ h
                have := (ih3 bs).2 h
                rw [hrest] at this; cases this
          | ok bs' =>
            have h3 := (ih3 bs').1 hrest
            refine ⟨?_, ?_, ?_⟩
            · simp only [pure, Except.pure, reduceCtorEq, false_iff, List.mem_cons, not_exists, not_and]
              rintro k (rfl | hk1) hk2 hk3
              · rw [hd] at hk3; cases hk3
              · have := ih1.2 ⟨k, hk1, hk2, hk3⟩
                rw [hrest] at this; cases this
            · intro x h; simp [pure, Except.pure] at h
            · intro bs
              rw [← h3]
              cases bs with
              | nil => simp [pure, Except.pure]
              | cons a bs =>
                simp only [pure, Except.pure, Except.ok.injEq, List.cons.injEq, List.map_cons, Option.some.injEq]
                rw [(List.map_injective_iff.2 (Option.some_injective _)).eq_iff]
                constructor
                · rintro ⟨rfl, rfl⟩; exact ⟨rfl, rfl⟩
                · rintro ⟨rfl, rfl⟩; exact ⟨rfl, rfl⟩
  constructor
  · intro h r
    unfold KCM.shareBackups
    rw [hann, decide_eq_false h]
    rfl
  · intro h
    have ha : s.allAnnounced = true := by rw [hann]; exact decide_eq_true h
    have hb : ∀ e ∈ s.backups, e.1 = (e.2.ownerId, e.2.designatedId) := fun e he => (hr.backups e he).2.1
    have hnd : (dkeys s.backups).Nodup := hr.backupsNodup
    refine ⟨fun r hr' => ⟨s.backups.map (·.2), ?_, ?_, fun b => ?_⟩, fun id hid => ?_⟩
    · unfold KCM.shareBackups
      rw [ha]
      rcases hr' with rfl | rfl <;> rfl
    · refine List.Nodup.of_map (fun b : Backup => (b.ownerId, b.designatedId)) ?_
      rw [List.map_map]
      have : s.backups.map ((fun b : Backup => (b.ownerId, b.designatedId)) ∘ (·.2)) = dkeys s.backups :=
        List.map_congr_left fun e he => (hb e he).symm
      rw [this]; exact hnd
    · rw [List.mem_map]
      constructor
      · rintro ⟨e, he, rfl⟩
        rw [← hb e he]
        exact dget_of_mem hnd he
      · intro h
        exact ⟨_, mem_of_dget h, rfl⟩
    · obtain ⟨t1, t2, t3⟩ := hto id s.keys (fun e he => hr.keysOwner e he)
      have e1 : s.shareBackups (some id) = (s.shareBackupsTo id).map some := by
        unfold KCM.shareBackups
        rw [ha]
        simp only [Bool.not_true, Bool.false_eq_true, if_false, if_neg hid]
      rw [← hk, e1]
      refine ⟨?_, fun bs => ?_⟩
      · rw [← t1]
        unfold KCM.shareBackupsTo
        cases ((dkeys s.keys).filter (fun other => decide (id ≠ other))).mapM (fun other => dgetR s.backups (other, id)) <;> simp [Except.map]
      · rw [← t3]
        unfold KCM.shareBackupsTo
        cases ((dkeys s.keys).filter (fun other => decide (id ≠ other))).mapM (fun other => dgetR s.backups (other, id)) <;> simp [Except.map]

/-- A guardian rejects the backup of another, who then meets the challenge. -/
def wChallenged : List KCMOp :=
  [.announce wKeyA, .announce wKeyB, .receiveBackups [wBackup "a" "b", wBackup "b" "a"],
    .receiveVerifications [⟨"a", "b", "b", false⟩, ⟨"b", "a", "a", true⟩]]

example : (KCM.run extraSmall "m" ⟨2, 2⟩ wChallenged).verificationState = ⟨true, false, [("a", "b")]⟩ ∧
    (KCM.run extraSmall "m" ⟨2, 2⟩ (wChallenged ++ [.verifyChallenge wChallenge])).verificationState = ⟨true, true, []⟩ := by
  decide +kernel

end EG
