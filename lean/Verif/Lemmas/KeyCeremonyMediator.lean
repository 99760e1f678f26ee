import Verif.Spec.KeyCeremony
import Verif.Lemmas.Dict
import Verif.Lemmas.Group
import Mathlib.Data.Finset.Card
import Mathlib.Data.Finset.Prod
import Mathlib.Tactic.Ring

/-!
# Lemmas for the key-ceremony mediator
-/

namespace EG

/-! ### Dictionaries built by repeated assignment -/

section
variable {κ α : Type} [DecidableEq κ]

theorem dset_fresh {d : List (κ × α)} {k : κ} (v : α) (h : k ∉ dkeys d) : dset d k v = d ++ [(k, v)] := by
  unfold dset
  rw [if_neg]
  intro hc
  obtain ⟨e, he, hk⟩ := List.any_eq_true.1 hc
  exact h (List.mem_map.2 ⟨e, he, by simpa using hk⟩)

theorem foldl_dset_fresh (f : α → κ) (l : List α) (d : List (κ × α)) (hn : (l.map f).Nodup)
    (hd : ∀ x ∈ l, f x ∉ dkeys d) :
    l.foldl (fun d x => dset d (f x) x) d = d ++ l.map (fun x => (f x, x)) := by
  induction l generalizing d with
  | nil => simp
  | cons a l ih =>
    simp only [List.map_cons, List.nodup_cons] at hn
    rw [List.foldl_cons, dset_fresh _ (hd a (List.mem_cons_self ..)), ih _ hn.2]
    · simp
    · intro x hx hc
      simp only [dkeys, List.map_append, List.map_cons, List.map_nil, List.mem_append, List.mem_singleton] at hc
      rcases hc with hc | hc
      · exact hd x (List.mem_cons_of_mem _ hx) hc
      · exact hn.1 (List.mem_map.2 ⟨x, hx, hc⟩)

theorem mem_dset {d : List (κ × α)} {k : κ} {v : α} {e : κ × α} (h : e ∈ dset d k v) : e = (k, v) ∨ e ∈ d := by
  unfold dset at h
  split at h
  · obtain ⟨e', he', rfl⟩ := List.mem_map.1 h
    by_cases hk : e'.1 = k
    · left; simp [hk]
    · right; simpa [hk] using he'
  · rcases List.mem_append.1 h with h | h
    · exact Or.inr h
    · left; simpa using h

end

/-! ### The calls since the last reset -/

theorem sinceReset_nil : sinceReset [] = [] := rfl

theorem sinceReset_concat (ops : List KCMOp) (op : KCMOp) :
    sinceReset (ops ++ [op]) = if op.isReset then [] else sinceReset ops ++ [op] := by
  unfold sinceReset
  rw [List.reverse_append, List.reverse_cons, List.reverse_nil, List.nil_append, List.singleton_append,
    List.takeWhile_cons]
  cases op.isReset <;> simp

theorem detailsAfter_concat (d : CeremonyDetails) (ops : List KCMOp) (op : KCMOp) :
    detailsAfter d (ops ++ [op]) = match op with | .reset d' => d' | _ => detailsAfter d ops := by
  induction ops generalizing d with
  | nil => cases op <;> rfl
  | cons o ops ih => cases o <;> simp only [List.cons_append, detailsAfter, ih]

theorem run_concat (P : Params) (id : String) (d : CeremonyDetails) (ops : List KCMOp) (op : KCMOp) :
    KCM.run P id d (ops ++ [op]) = (KCM.run P id d ops).step P op := by
  simp [KCM.run, List.foldl_append]

/-! ### Received messages -/

theorem receiveBackup_fields (s : KCM) (b : Backup) :
    (s.receiveBackup b).id = s.id ∧ (s.receiveBackup b).details = s.details ∧ (s.receiveBackup b).keys = s.keys ∧
      (s.receiveBackup b).verifications = s.verifications := by
  unfold KCM.receiveBackup; split <;> simp

theorem foldl_receiveBackup_fields (bs : List Backup) (s : KCM) :
    (bs.foldl KCM.receiveBackup s).id = s.id ∧ (bs.foldl KCM.receiveBackup s).details = s.details ∧
      (bs.foldl KCM.receiveBackup s).keys = s.keys ∧
      (bs.foldl KCM.receiveBackup s).verifications = s.verifications := by
  induction bs generalizing s with
  | nil => simp
  | cons b bs ih =>
    obtain ⟨h1, h2, h3, h4⟩ := ih (s.receiveBackup b)
    obtain ⟨g1, g2, g3, g4⟩ := receiveBackup_fields s b
    exact ⟨h1.trans g1, h2.trans g2, h3.trans g3, h4.trans g4⟩

theorem receiveVerification_fields (s : KCM) (v : Verification) :
    (s.receiveVerification v).id = s.id ∧ (s.receiveVerification v).details = s.details ∧
      (s.receiveVerification v).keys = s.keys ∧ (s.receiveVerification v).backups = s.backups := by
  unfold KCM.receiveVerification; split <;> simp

theorem foldl_receiveVerification_fields (vs : List Verification) (s : KCM) :
    (vs.foldl KCM.receiveVerification s).id = s.id ∧ (vs.foldl KCM.receiveVerification s).details = s.details ∧
      (vs.foldl KCM.receiveVerification s).keys = s.keys ∧
      (vs.foldl KCM.receiveVerification s).backups = s.backups := by
  induction vs generalizing s with
  | nil => simp
  | cons b bs ih =>
    obtain ⟨h1, h2, h3, h4⟩ := ih (s.receiveVerification b)
    obtain ⟨g1, g2, g3, g4⟩ := receiveVerification_fields s b
    exact ⟨h1.trans g1, h2.trans g2, h3.trans g3, h4.trans g4⟩

theorem receiveBackups_fields (s : KCM) (bs : List Backup) :
    (s.receiveBackups bs).id = s.id ∧ (s.receiveBackups bs).details = s.details ∧
      (s.receiveBackups bs).keys = s.keys ∧ (s.receiveBackups bs).verifications = s.verifications := by
  unfold KCM.receiveBackups
  split
  · simp
  · exact foldl_receiveBackup_fields bs s

theorem receiveVerifications_fields (s : KCM) (vs : List Verification) :
    (s.receiveVerifications vs).id = s.id ∧ (s.receiveVerifications vs).details = s.details ∧
      (s.receiveVerifications vs).keys = s.keys ∧ (s.receiveVerifications vs).backups = s.backups := by
  unfold KCM.receiveVerifications
  split
  · simp
  · exact foldl_receiveVerification_fields vs s

theorem verifyChallenge_fields (P : Params) (s : KCM) (c : BackupChallenge) :
    (s.verifyChallenge P c).2.id = s.id ∧ (s.verifyChallenge P c).2.details = s.details ∧
      (s.verifyChallenge P c).2.keys = s.keys ∧ (s.verifyChallenge P c).2.backups = s.backups := by
  unfold KCM.verifyChallenge
  cases verifyChallenge P s.id c with
  | error => simp
  | ok v =>
    simp only
    split
    · exact receiveVerification_fields s v
    · simp

/-! ### What a mediator state says about the calls -/

/-- Invariant of the recorded backups: one per pair, under the pair it names, sent since the last reset. -/
theorem backups_foldl (bs : List Backup) (s : KCM) (h1 : (dkeys s.backups).Nodup) :
    (dkeys (bs.foldl KCM.receiveBackup s).backups).Nodup ∧
    ∀ e ∈ (bs.foldl KCM.receiveBackup s).backups, e ∈ s.backups ∨
      (e.2 ∈ bs ∧ e.1 = (e.2.ownerId, e.2.designatedId) ∧ e.2.ownerId ≠ e.2.designatedId) := by
  induction bs generalizing s with
  | nil => exact ⟨h1, fun e he => Or.inl he⟩
  | cons b bs ih =>
    by_cases hb : b.ownerId = b.designatedId
    · have : s.receiveBackup b = s := by simp [KCM.receiveBackup, hb]
      rw [List.foldl_cons, this]
      obtain ⟨g1, g2⟩ := ih s h1
      refine ⟨g1, fun e he => ?_⟩
      rcases g2 e he with h | ⟨h, h'⟩
      · exact Or.inl h
      · exact Or.inr ⟨List.mem_cons_of_mem _ h, h'⟩
    · have hs : (s.receiveBackup b).backups = dset s.backups (b.ownerId, b.designatedId) b := by
        simp [KCM.receiveBackup, hb]
      rw [List.foldl_cons]
      obtain ⟨g1, g2⟩ := ih (s.receiveBackup b) (by rw [hs]; exact dset_nodup h1 _ _)
      refine ⟨g1, fun e he => ?_⟩
      rcases g2 e he with h | ⟨h, h'⟩
      · rw [hs] at h
        rcases mem_dset h with rfl | h
        · exact Or.inr ⟨List.mem_cons_self .., rfl, hb⟩
        · exact Or.inl h
      · exact Or.inr ⟨List.mem_cons_of_mem _ h, h'⟩

theorem verifications_foldl (vs : List Verification) (s : KCM) (h1 : (dkeys s.verifications).Nodup) :
    (dkeys (vs.foldl KCM.receiveVerification s).verifications).Nodup ∧
    ∀ e ∈ (vs.foldl KCM.receiveVerification s).verifications, e ∈ s.verifications ∨
      (e.2 ∈ vs ∧ e.1 = (e.2.ownerId, e.2.designatedId) ∧ e.2.ownerId ≠ e.2.designatedId) := by
  induction vs generalizing s with
  | nil => exact ⟨h1, fun e he => Or.inl he⟩
  | cons b bs ih =>
    by_cases hb : b.ownerId = b.designatedId
    · have : s.receiveVerification b = s := by simp [KCM.receiveVerification, hb]
      rw [List.foldl_cons, this]
      obtain ⟨g1, g2⟩ := ih s h1
      refine ⟨g1, fun e he => ?_⟩
      rcases g2 e he with h | ⟨h, h'⟩
      · exact Or.inl h
      · exact Or.inr ⟨List.mem_cons_of_mem _ h, h'⟩
    · have hs : (s.receiveVerification b).verifications
          = dset s.verifications (b.ownerId, b.designatedId) b := by
        simp [KCM.receiveVerification, hb]
      rw [List.foldl_cons]
      obtain ⟨g1, g2⟩ := ih (s.receiveVerification b) (by rw [hs]; exact dset_nodup h1 _ _)
      refine ⟨g1, fun e he => ?_⟩
      rcases g2 e he with h | ⟨h, h'⟩
      · rw [hs] at h
        rcases mem_dset h with rfl | h
        · exact Or.inr ⟨List.mem_cons_self .., rfl, hb⟩
        · exact Or.inl h
      · exact Or.inr ⟨List.mem_cons_of_mem _ h, h'⟩

/-- What the state of a mediator records. -/
structure KCM.Records (P : Params) (me : String) (d : CeremonyDetails) (ops : List KCMOp) (s : KCM) : Prop where
  id : s.id = me
  details : s.details = detailsAfter d ops
  keysNodup : (dkeys s.keys).Nodup
  keysOwner : ∀ e ∈ s.keys, e.1 = e.2.ownerId
  keys : ∀ i, dget s.keys i = announcedKey ops i
  backupsNodup : (dkeys s.backups).Nodup
  backups : ∀ e ∈ s.backups, e.2 ∈ sentBackups ops ∧ e.1 = (e.2.ownerId, e.2.designatedId) ∧
    e.2.ownerId ≠ e.2.designatedId
  verificationsNodup : (dkeys s.verifications).Nodup
  verifications : ∀ e ∈ s.verifications, e.2 ∈ sentVerifications P me ops ∧
    e.1 = (e.2.ownerId, e.2.designatedId) ∧ e.2.ownerId ≠ e.2.designatedId

theorem announced_concat (ops : List KCMOp) (op : KCMOp) :
    announced (ops ++ [op]) = match op with
      | .reset _ => [] | .announce k => announced ops ++ [k] | _ => announced ops := by
  unfold announced
  rw [sinceReset_concat]
  cases op <;> simp [KCMOp.isReset]

theorem sentBackups_concat (ops : List KCMOp) (op : KCMOp) :
    sentBackups (ops ++ [op]) = match op with
      | .reset _ => [] | .receiveBackups bs => sentBackups ops ++ bs | _ => sentBackups ops := by
  unfold sentBackups
  rw [sinceReset_concat]
  cases op <;> simp [KCMOp.isReset]

theorem sentVerifications_concat (P : Params) (me : String) (ops : List KCMOp) (op : KCMOp) :
    sentVerifications P me (ops ++ [op]) = match op with
      | .reset _ => []
      | .receiveVerifications vs => sentVerifications P me ops ++ vs
      | .verifyChallenge c => sentVerifications P me ops ++ (match verifyChallenge P me c with
        | .ok v => if v.verified then [v] else []
        | .error _ => [])
      | _ => sentVerifications P me ops := by
  unfold sentVerifications
  rw [sinceReset_concat]
  cases op with
  | verifyChallenge c => cases h : verifyChallenge P me c <;> simp [KCMOp.isReset, h]
  | _ => simp [KCMOp.isReset]

theorem announcedKey_concat (ops : List KCMOp) (op : KCMOp) (i : String) :
    announcedKey (ops ++ [op]) i = match op with
      | .reset _ => none
      | .announce k => if k.ownerId = i then some k else announcedKey ops i
      | _ => announcedKey ops i := by
  unfold announcedKey
  rw [announced_concat]
  cases op with
  | announce k => 
    simp only [List.reverse_append, List.reverse_cons, List.reverse_nil, List.nil_append, List.singleton_append,
      List.find?_cons]
    by_cases h : k.ownerId = i
    · simp [h]
    · have : (k.ownerId == i) = false := by simp [h]
      simp [h, this]
  | _ => simp

theorem records_run (P : Params) (me : String) (d : CeremonyDetails) (ops : List KCMOp) :
    (KCM.run P me d ops).Records P me d ops := by
  induction ops using List.reverseRecOn with
  | nil =>
    refine ⟨rfl, rfl, List.nodup_nil, ?_, ?_, List.nodup_nil, ?_, List.nodup_nil, ?_⟩ <;>
      simp [KCM.run, KCM.init, dget_nil, announcedKey, announced, sinceReset]
  | append_singleton ops op ih =>
    rw [run_concat]
    generalize KCM.run P me d ops = s at ih ⊢
    have hd := detailsAfter_concat d ops op
    have hk := announcedKey_concat ops op
    have hb := sentBackups_concat ops op
    have hvv := sentVerifications_concat P me ops op
    cases op with
    | announce k =>
      simp only at hd hk hb hvv
      refine ⟨ih.id, ih.details.trans hd.symm, dset_nodup ih.keysNodup _ _, ?_, ?_, ih.backupsNodup, ?_,
        ih.verificationsNodup, ?_⟩
      · intro e he
        rcases mem_dset he with rfl | he
        · rfl
        · exact ih.keysOwner e he
      · intro i
        rw [hk i]
        simp only [KCM.step, KCM.announce, dget_dset, ih.keys]
      · rw [hb]; exact ih.backups
      · rw [hvv]; exact ih.verifications
    | receiveBackups bs =>
      simp only at hd hk hb hvv
      obtain ⟨f1, f2, f3, f4⟩ := receiveBackups_fields s bs
      refine ⟨f1.trans ih.id, f2.trans (ih.details.trans hd.symm), ?_, ?_, ?_, ?_, ?_, ?_, ?_⟩
      · simp only [KCM.step, f3]; exact ih.keysNodup
      · simp only [KCM.step, f3]; exact ih.keysOwner
      · intro i; simp only [KCM.step, f3, hk]; exact ih.keys i
      · simp only [KCM.step, KCM.receiveBackups]
        split
        · exact ih.backupsNodup
        · exact (backups_foldl bs s ih.backupsNodup).1
      · simp only [KCM.step, KCM.receiveBackups, hb]
        split
        · intro e he
          exact ⟨List.mem_append_left _ (ih.backups e he).1, (ih.backups e he).2⟩
        · intro e he
          rcases (backups_foldl bs s ih.backupsNodup).2 e he with h | ⟨h, h'⟩
          · exact ⟨List.mem_append_left _ (ih.backups e h).1, (ih.backups e h).2⟩
          · exact ⟨List.mem_append_right _ h, h'⟩
      · simp only [KCM.step, f4]; exact ih.verificationsNodup
      · simp only [KCM.step, f4, hvv]; exact ih.verifications
    | receiveVerifications vs =>
      simp only at hd hk hb hvv
      obtain ⟨f1, f2, f3, f4⟩ := receiveVerifications_fields s vs
      refine ⟨f1.trans ih.id, f2.trans (ih.details.trans hd.symm), ?_, ?_, ?_, ?_, ?_, ?_, ?_⟩
      · simp only [KCM.step, f3]; exact ih.keysNodup
      · simp only [KCM.step, f3]; exact ih.keysOwner
      · intro i; simp only [KCM.step, f3, hk]; exact ih.keys i
      · simp only [KCM.step, f4]; exact ih.backupsNodup
      · simp only [KCM.step, f4, hb]; exact ih.backups
      · simp only [KCM.step, KCM.receiveVerifications]
        split
        · exact ih.verificationsNodup
        · exact (verifications_foldl vs s ih.verificationsNodup).1
      · simp only [KCM.step, KCM.receiveVerifications, hvv]
        split
        · intro e he
          exact ⟨List.mem_append_left _ (ih.verifications e he).1, (ih.verifications e he).2⟩
        · intro e he
          rcases (verifications_foldl vs s ih.verificationsNodup).2 e he with h | ⟨h, h'⟩
          · exact ⟨List.mem_append_left _ (ih.verifications e h).1, (ih.verifications e h).2⟩
          · exact ⟨List.mem_append_right _ h, h'⟩
    | verifyChallenge c =>
      simp only at hd hk hb hvv
      obtain ⟨f1, f2, f3, f4⟩ := verifyChallenge_fields P s c
      refine ⟨f1.trans ih.id, f2.trans (ih.details.trans hd.symm), ?_, ?_, ?_, ?_, ?_, ?_, ?_⟩
      · simp only [KCM.step, f3]; exact ih.keysNodup
      · simp only [KCM.step, f3]; exact ih.keysOwner
      · intro i; simp only [KCM.step, f3, hk]; exact ih.keys i
      · simp only [KCM.step, f4]; exact ih.backupsNodup
      · simp only [KCM.step, f4, hb]; exact ih.backups
      · simp only [KCM.step, KCM.verifyChallenge, ih.id]
        cases verifyChallenge P me c with
        | error => exact ih.verificationsNodup
        | ok v =>
          simp only
          split
          · exact (verifications_foldl [v] s ih.verificationsNodup).1
          · exact ih.verificationsNodup
      · simp only [KCM.step, KCM.verifyChallenge, ih.id, hvv]
        cases verifyChallenge P me c with
        | error =>
          intro e he
          exact ⟨List.mem_append_left _ (ih.verifications e he).1, (ih.verifications e he).2⟩
        | ok v =>
          simp only
          split
          · intro e he
            rcases (verifications_foldl [v] s ih.verificationsNodup).2 e he with h | ⟨h, h'⟩
            · exact ⟨List.mem_append_left _ (ih.verifications e h).1, (ih.verifications e h).2⟩
            · exact ⟨List.mem_append_right _ h, h'⟩
          · intro e he
            exact ⟨List.mem_append_left _ (ih.verifications e he).1, (ih.verifications e he).2⟩
    | reset d' =>
      simp only at hd hk hb hvv
      refine ⟨ih.id, hd.symm, List.nodup_nil, ?_, ?_, List.nodup_nil, ?_, List.nodup_nil, ?_⟩
      · intro e he; cases he
      · intro i; rw [hk]; rfl
      · intro e he; cases he
      · intro e he; cases he

/-! ### The conditions for publication -/

theorem allBackupsVerified_iff (s : KCM) :
    s.allBackupsVerified = true ↔ (s.keys.length : Int) = s.details.numberOfGuardians ∧
      (s.backups.length : Int) = (s.details.numberOfGuardians - 1) * s.details.numberOfGuardians ∧
      (s.verifications.length : Int) = (s.details.numberOfGuardians - 1) * s.details.numberOfGuardians ∧
      ∀ e ∈ s.verifications, e.2.verified = true := by
  unfold KCM.allBackupsVerified KCM.verificationState KCM.checkVerification KCM.allBackupsAvailable
  by_cases h1 : s.allAnnounced = true <;> by_cases h2 : s.enoughBackups = true <;>
    by_cases h3 : s.enoughVerifications = true
  all_goals
    simp only [KCM.allAnnounced, KCM.enoughBackups, KCM.enoughVerifications, beq_iff_eq] at h1 h2 h3
    simp [KCM.allAnnounced, KCM.enoughBackups, KCM.enoughVerifications, h1, h2, h3, List.filter_eq_nil_iff]

theorem publishJointKey_eq_some (E : Env) (s : KCM) (jk : ElectionJointKey) :
    s.publishJointKey E = some jk ↔
      s.allBackupsVerified = true ∧ jk = combineElectionKeys E (s.keys.map (·.2)) := by
  unfold KCM.publishJointKey
  cases s.allBackupsVerified <;> simp [eq_comm]

/-- The recorded keys are those of the participants. -/
theorem keys_eq_participants (P : Params) (me : String) (d : CeremonyDetails) (ops : List KCMOp) :
    (KCM.run P me d ops).keys.map (·.2) = participants ops ∧
      dkeys (KCM.run P me d ops).keys = ((announced ops).map (·.ownerId)).reverse.dedup.reverse := by
  have hr := records_run P me d ops
  have hk : dkeys (KCM.run P me d ops).keys = ((announced ops).map (·.ownerId)).reverse.dedup.reverse := by
    clear hr
    induction ops using List.reverseRecOn with
    | nil => rfl
    | append_singleton ops op ih =>
      rw [run_concat, announced_concat]
      cases op with
      | announce k =>
        simp only [KCM.step, KCM.announce, dkeys_dset, ih, List.map_append, List.map_cons, List.map_nil,
          List.reverse_append, List.reverse_cons, List.reverse_nil, List.nil_append, List.singleton_append]
        by_cases hm : k.ownerId ∈ (announced ops).map (·.ownerId)
        · rw [List.dedup_cons_of_mem (List.mem_reverse.2 hm), if_pos (by simpa using hm)]
        · rw [List.dedup_cons_of_notMem (mt List.mem_reverse.1 hm), if_neg (by simpa using hm)]
          simp
      | receiveBackups bs => simp only [KCM.step, (receiveBackups_fields _ bs).2.2.1, ih]
      | receiveVerifications bs => simp only [KCM.step, (receiveVerifications_fields _ bs).2.2.1, ih]
      | verifyChallenge c => simp only [KCM.step, (verifyChallenge_fields P _ c).2.2.1, ih]
      | reset d' => rfl
  refine ⟨?_, hk⟩
  unfold participants
  rw [← hk, dkeys, List.filterMap_map]
  have : ∀ e ∈ (KCM.run P me d ops).keys, (announcedKey ops ∘ fun x => x.1) e = some e.2 := by
    intro e he
    simp only [Function.comp]
    rw [← hr.keys]
    exact dget_of_mem hr.keysNodup he
  rw [List.filterMap_congr this]
  exact (congrFun (List.filterMap_eq_map (f := fun e : String × ElectionPublicKey => e.2)) _).symm

/-- A set of `n (n - 1)` ordered pairs of distinct elements of a set of `n` elements contains all of them. -/
theorem all_pairs {ids : List String} (hn : ids.Nodup) {pairs : List (String × String)} (hp : pairs.Nodup)
    (hin : ∀ p ∈ pairs, p.1 ∈ ids ∧ p.2 ∈ ids ∧ p.1 ≠ p.2)
    (hlen : (pairs.length : Int) = ((ids.length : Int) - 1) * ids.length) (a b : String) (ha : a ∈ ids)
    (hb : b ∈ ids) (hab : a ≠ b) : (a, b) ∈ pairs := by
  have hsub : pairs.toFinset ⊆ ids.toFinset.offDiag := by
    intro p hp'
    have := hin p (List.mem_toFinset.1 hp')
    rw [Finset.mem_offDiag]
    simpa using this
  have hcard : ids.toFinset.offDiag.card ≤ pairs.toFinset.card := by
    rw [Finset.offDiag_card, List.toFinset_card_of_nodup hn, List.toFinset_card_of_nodup hp]
    have : ((ids.length - 1 : Int)) * ids.length = ids.length * ids.length - ids.length := by ring
    rw [this] at hlen
    have h2 : ids.length ≤ ids.length * ids.length := Nat.le_mul_self _
    zify [h2]
    omega
  have heq := Finset.eq_of_subset_of_card_le hsub hcard
  have : (a, b) ∈ ids.toFinset.offDiag := by
    rw [Finset.mem_offDiag]; simp [ha, hb, hab]
  rw [← heq] at this
  exact List.mem_toFinset.1 this

end EG
