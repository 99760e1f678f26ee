import Verif.Lemmas.SerializeFields
import Verif.Lemmas.SerializeShares
import Verif.Lemmas.Typed
import Verif.Model.GuiText
import Verif.Lemmas.Orchestrator
import Verif.Spec.GuiKeyCeremonyText

/-!
# Lemmas for the key ceremony with its documents and files
-/

namespace EG

/-! ### Dictionaries -/

section
variable {P : Params}

theorem proofNumber_json (n : Nat) : proofNumber (elemJson n) = .ok n := by
  simp [proofNumber, bigOf_elem]

theorem listOf_map {α : Type} {enc : α → Json} {dec : Json → R α} {l : List α} (h : ∀ a ∈ l, dec (enc a) = .ok a) :
    listOf dec (listJson enc l) = .ok l := by
  have := mapM_map_ok dec enc (fun a => a) l h
  rwa [List.map_id'] at this

theorem SchnorrProof.dict (p : SchnorrProof) : SchnorrProof.ofDict p.toDict = .ok p := by
  simp [SchnorrProof.ofDict, SchnorrProof.toDict, asObj, need_cons, bind, Except.bind, pure, Except.pure, proofNumber_json]

theorem ElectionPublicKey.dict {k : ElectionPublicKey} (h1 : k.key < P.p) (h2 : ∀ c ∈ k.commitments, c < P.p) :
    ElectionPublicKey.ofDict P k.toDict = .ok k := by
  have h3 : listOf (elemPOf P) (listJson elemJson k.commitments) = .ok k.commitments := listOf_map (fun c hc => elemPOf_json (h2 c hc))
  have h4 : listOf SchnorrProof.ofDict (listJson SchnorrProof.toDict k.proofs) = .ok k.proofs := listOf_map (fun p _ => p.dict)
  simp [ElectionPublicKey.ofDict, ElectionPublicKey.toDict, asObj, need_cons, bind, Except.bind, pure, Except.pure, strOf, intOf, h3, h4,
    elemPOf_json h1]

theorem Backup.dict {b : Backup} (h : b.Typed P) : Backup.ofDict P b.toDict = .ok b := by
  simp [Backup.ofDict, Backup.toDict, asObj, need_cons, bind, Except.bind, pure, Except.pure, strOf, intOf, charsOf_json,
    elemPOf_json (P := P) h]

theorem Verification.dict (v : Verification) : Verification.ofDict v.toDict = .ok v := by
  simp [Verification.ofDict, Verification.toDict, asObj, need_cons, bind, Except.bind, pure, Except.pure, strOf, boolOf]

theorem ElectionJointKey.dict {k : ElectionJointKey} (h : k.Typed P) : ElectionJointKey.ofDict P k.toDict = .ok k := by
  obtain ⟨h1, h2⟩ := h
  simp [ElectionJointKey.ofDict, ElectionJointKey.toDict, asObj, need_cons, bind, Except.bind, pure, Except.pure, elemPOf_json h1,
    elemQOf_json h2]

/-! ### Typed documents -/

/-- Elements of a key that is announced. -/
def ElectionPublicKey.KeyTyped (P : Params) (k : ElectionPublicKey) : Prop := k.key < P.p ∧ ∀ c ∈ k.commitments, c < P.p

/-- Elements of a key ceremony. -/
structure KCDoc.Typed (P : Params) (d : KCDoc) : Prop where
  keys : ∀ k ∈ d.keys, k.KeyTyped P
  otherKeys : ∀ e ∈ d.otherKeys, ∀ k ∈ e.2, k.KeyTyped P
  backups : ∀ b ∈ d.backups, b.Typed P
  sharedBackups : ∀ e ∈ d.sharedBackups, ∀ b ∈ e.2, b.Typed P
  jointKey : ∀ k ∈ d.jointKey, k.Typed P

/-- Elements of an update. -/
def KCUpdate.Typed (P : Params) : KCUpdate → Prop
  | .key k => k.KeyTyped P
  | .otherKeys ks => ∀ e ∈ ks, ∀ k ∈ e.2, k.KeyTyped P
  | .backups bs => ∀ b ∈ bs, b.Typed P
  | .sharedBackups bs => ∀ e ∈ bs, ∀ b ∈ e.2, b.Typed P
  | .jointKey k => k.Typed P
  | _ => True

/-- Elements of a call. -/
def KCProc.Typed (P : Params) : KCProc → Prop
  | .saved k => k.KeyTyped P
  | .running _ _ d => d.Typed P
  | .writing us => ∀ u ∈ us, u.Typed P
  | _ => True

/-- Elements of the whole system. -/
structure KCSystem.Typed (P : Params) (s : KCSystem) : Prop where
  doc : s.doc.Typed P
  files : ∀ e ∈ s.files, e.2.Typed P
  procs : ∀ p ∈ s.procs, p.Typed P

theorem apply_typed {d : KCDoc} {u : KCUpdate} (hd : d.Typed P) (hu : u.Typed P) : (d.apply u).Typed P := by
  obtain ⟨h1, h2, h3, h4, h5⟩ := hd
  cases u <;> simp only [KCUpdate.Typed] at hu <;> refine ⟨?_, ?_, ?_, ?_, ?_⟩ <;> simp only [KCDoc.apply, List.mem_append, List.mem_singleton,
    Option.mem_def, Option.some.injEq] <;> first | assumption | skip
  · rintro k (hk | rfl)
    · exact h1 k hk
    · exact hu
  · rintro k (hk | hk)
    · exact h2 k hk
    · exact hu k hk
  · rintro k (hk | hk)
    · exact h3 k hk
    · exact hu k hk
  · rintro k (hk | hk)
    · exact h4 k hk
    · exact hu k hk
  · rintro k rfl
    exact hu

theorem apply_text (d : KCDoc) (u : KCUpdate) : (d.apply u).toText = d.toText.apply u.toText := by
  cases u <;> simp [KCDoc.apply, KCDoc.toText, KCTextDoc.apply, KCUpdate.toText]

theorem keys_read {l : List ElectionPublicKey} (h : ∀ k ∈ l, k.KeyTyped P) :
    (l.map ElectionPublicKey.toDict).mapM (ElectionPublicKey.ofDict P) = .ok l := by
  simpa using mapM_map_ok (ElectionPublicKey.ofDict P) ElectionPublicKey.toDict (fun k => k) l
    (fun k hk => ElectionPublicKey.dict (h k hk).1 (h k hk).2)

theorem backups_read {l : List Backup} (h : ∀ b ∈ l, b.Typed P) : (l.map Backup.toDict).mapM (Backup.ofDict P) = .ok l := by
  simpa using mapM_map_ok (Backup.ofDict P) Backup.toDict (fun b => b) l (fun b hb => Backup.dict (h b hb))

theorem verifications_read (l : List Verification) : (l.map Verification.toDict).mapM Verification.ofDict = .ok l := by
  simpa using mapM_map_ok Verification.ofDict Verification.toDict (fun v => v) l (fun v _ => v.dict)

theorem dto_text {d : KCDoc} (h : d.Typed P) : d.toText.dto P = .ok ⟨d.toText, d.keys⟩ := by
  simp [KCTextDoc.dto, KCDoc.toText, keys_read h.keys, bind, Except.bind, pure, Except.pure]

theorem state_text (d : KCDoc) : d.toText.state = d.state := by
  simp [KCTextDoc.state, KCDoc.toText, KCDoc.state, KCDoc.counts]

theorem countFor_map {α : Type} (field : String) (enc : α → Json) (f : α → String)
    (h : ∀ a, (do need (← asObj (enc a)) field strOf) = .ok (f a)) (l : List α) (user : String) :
    countFor field (l.map enc) user = .ok (l.filter (fun a => f a == user)).length := by
  simp only [countFor]
  rw [mapM_map_ok _ enc f l (fun a _ => h a)]
  simp [bind, Except.bind, pure, Except.pure, List.filter_map, Function.comp_def]

theorem stage_text (d : KCDoc) (user : String) (isAdmin : Bool) : d.toText.stage user isAdmin = .ok (d.stage user isAdmin) := by
  have h1 : countFor "owner_id" d.toText.backups user = .ok (d.backupCount user) :=
    countFor_map "owner_id" Backup.toDict (fun b => b.ownerId)
      (fun b => by simp [Backup.toDict, asObj, need_cons, bind, Except.bind, strOf]) d.backups user
  have h2 : countFor "designated_id" d.toText.verifications user = .ok (d.verificationCount user) :=
    countFor_map "designated_id" Verification.toDict (fun b => b.designatedId)
      (fun b => by simp [Verification.toDict, asObj, need_cons, bind, Except.bind, strOf]) d.verifications user
  simp only [KCTextDoc.stage, h1, h2, state_text, bind, Except.bind, pure, Except.pure, KCDoc.stage, List.find?_cons, KCStage.shouldRun,
    List.find?_nil]
  split
  · rename_i h; rw [h]
  · rename_i h
    rw [Bool.not_eq_true] at h
    rw [h]
    split
    · rename_i h; rw [h]
    · rename_i h
      rw [Bool.not_eq_true] at h
      rw [h]
      split
      · rename_i h; rw [h]
      · rename_i h
        rw [Bool.not_eq_true] at h
        rw [h]
        split
        · rename_i h; rw [h]
        · rename_i h
          rw [Bool.not_eq_true] at h
          rw [h]
          split
          · rename_i h; rw [h]
          · rename_i h
            rw [Bool.not_eq_true] at h
            rw [h]

theorem wrappedFor_map {α : Type} (field user : String) (enc : α → Json) (items : α → List Json) (owner : α → String)
    (h : ∀ a, (do
      let o ← asObj (enc a)
      let id ← need o "owner_id" strOf
      let js ← need o field (listOf .ok)
      return (id, js)) = (.ok (owner a, items a) : R (String × List Json))) (l : List α) :
    wrappedFor field user (l.map enc) = match l.find? (fun a => owner a == user) with
      | none => .error .value
      | some a => .ok (items a) := by
  induction l with
  | nil => rfl
  | cons a l ih =>
    have ha := h a
    simp only [bindOk, pureOk, Prod.mk.injEq] at ha
    obtain ⟨o, ho, id, hid, js, hjs, rfl, rfl⟩ := ha
    simp only [List.map_cons, wrappedFor, ho, hid, bind, Except.bind, List.find?_cons]
    cases hu : owner a == user with
    | true => simp only [if_true]; exact hjs
    | false => simp only [Bool.false_eq_true, if_false]; exact ih

theorem listOf_ok (l : List Json) : listOf Except.ok (.arr l) = .ok l := by
  simpa [listOf] using mapM_ok (fun j : Json => (Except.ok j : R Json)) (fun j => j) l (fun _ _ => rfl)

theorem otherKeys_text {d : KCDoc} (h : d.Typed P) (user : String) :
    (do (← wrappedFor "other_keys" user d.toText.otherKeys).mapM (ElectionPublicKey.ofDict P)) = d.otherKeysFor user := by
  have := wrappedFor_map "other_keys" user otherKeysDict (fun e => e.2.map ElectionPublicKey.toDict) (fun e => e.1)
    (fun e => by simp [otherKeysDict, asObj, need_cons, bind, Except.bind, pure, Except.pure, strOf, listJson, listOf_ok]) d.otherKeys
  simp only [KCDoc.toText, this, KCDoc.otherKeysFor]
  cases hf : d.otherKeys.find? (fun e => e.1 == user) with
  | none => rfl
  | some e => exact keys_read (h.otherKeys e (List.mem_of_find?_eq_some hf))

theorem sharedBackups_text {d : KCDoc} (h : d.Typed P) (user : String) :
    (do (← wrappedFor "backups" user d.toText.sharedBackups).mapM (Backup.ofDict P)) = d.sharedBackupsFor user := by
  have := wrappedFor_map "backups" user sharedBackupsDict (fun e => e.2.map Backup.toDict) (fun e => e.1)
    (fun e => by simp [sharedBackupsDict, asObj, need_cons, bind, Except.bind, pure, Except.pure, strOf, listJson, listOf_ok]) d.sharedBackups
  simp only [KCDoc.toText, this, KCDoc.sharedBackupsFor]
  cases hf : d.sharedBackups.find? (fun e => e.1 == user) with
  | none => rfl
  | some e => exact backups_read (h.sharedBackups e (List.mem_of_find?_eq_some hf))

/-! ### Stages -/

theorem loadGuardian_text (d : KCDoc) {file : Option PrivateGuardianRecord} (hf : ∀ r ∈ file, r.Typed P) :
    KCDto.loadGuardian P ⟨d.toText, d.keys⟩ (file.map (toRaw PrivateGuardianRecord.toJson)) = d.loadGuardian file := by
  cases file with
  | none => rfl
  | some r =>
    simp only [Option.map_some, KCDto.loadGuardian, raw_trip (PrivateGuardianRecord.trip (hf r rfl)), KCDoc.loadGuardian]
    rfl

theorem loadOtherKeys_text {d : KCDoc} (h : d.Typed P) (user : String) (g : Guardian) :
    KCDto.loadOtherKeys P ⟨d.toText, d.keys⟩ user g = d.loadOtherKeys user g := by
  have h' := otherKeys_text h user
  simp only [KCDto.loadOtherKeys, KCDoc.loadOtherKeys, ← h', bind, Except.bind]
  cases wrappedFor "other_keys" user d.toText.otherKeys <;> rfl

end

variable {E : Env}

theorem computeText_eq {d : KCDoc} (h : d.Typed E.P) (loads : Bytes → R (List Char)) (user : String) {file : Option PrivateGuardianRecord}
    (hf : ∀ r ∈ file, r.Typed E.P) (nonces : Nat → Nat) (st : KCStage) :
    st.computeText E loads ⟨d.toText, d.keys⟩ user (file.map (toRaw PrivateGuardianRecord.toJson)) nonces
      = (st.compute E loads d user file nonces).map (fun us => us.map KCUpdate.toText) := by
  cases st with
  | announce =>
    have : (KCDto.announced ⟨d.toText, d.keys⟩).announce = d.announce := rfl
    simp only [KCStage.computeText, KCStage.compute, this]
    cases d.announce <;> rfl
  | makeBackups =>
    have : KCDto.makeBackups E ⟨d.toText, d.keys⟩ user (file.map (toRaw PrivateGuardianRecord.toJson)) nonces
        = d.makeBackups E user file nonces := by
      simp only [KCDto.makeBackups, KCDoc.makeBackups, loadGuardian_text d hf, loadOtherKeys_text h]
    simp only [KCStage.computeText, KCStage.compute, this]
    cases d.makeBackups E user file nonces <;> rfl
  | shareBackups =>
    have : KCDto.shareBackups E.P ⟨d.toText, d.keys⟩ = d.shareBackups := by
      have h1 : (KCDto.announced ⟨d.toText, d.keys⟩).announceGuardians = d.announceGuardians := rfl
      have h2 := backups_read h.backups
      simp only [KCDto.shareBackups, KCDoc.shareBackups, h1]
      simp only [KCDoc.toText, h2]
      rfl
    simp only [KCStage.computeText, KCStage.compute, this]
    cases d.shareBackups <;> rfl
  | verifyBackups =>
    have : KCDto.verifyBackups E loads ⟨d.toText, d.keys⟩ user (file.map (toRaw PrivateGuardianRecord.toJson))
        = d.verifyBackups E loads user file := by
      have h' := sharedBackups_text h user
      simp only [KCDto.verifyBackups, KCDoc.verifyBackups, loadGuardian_text d hf, loadOtherKeys_text h, ← h', bind, Except.bind]
      cases wrappedFor "backups" user d.toText.sharedBackups <;> rfl
    simp only [KCStage.computeText, KCStage.compute, this]
    cases d.verifyBackups E loads user file <;> rfl
  | publish =>
    have : KCDto.publish E ⟨d.toText, d.keys⟩ = d.publish E := by
      have h1 : (KCDto.announced ⟨d.toText, d.keys⟩).announceGuardians = d.announceGuardians := rfl
      have h2 := backups_read h.backups
      simp only [KCDto.publish, KCDoc.publish, h1]
      simp only [KCDoc.toText, h2, verifications_read]
      rfl
    simp only [KCStage.computeText, KCStage.compute, this]
    cases d.publish E <;> rfl

/-! ### Everything stays typed -/

theorem mapM_all {α β : Type} {f : α → R β} {p : β → Prop} {l : List α} {r : List β} (hf : ∀ a ∈ l, ∀ b, f a = .ok b → p b)
    (h : l.mapM f = .ok r) : ∀ b ∈ r, p b := by
  induction l generalizing r with
  | nil => cases h; simp
  | cons a l ih =>
    simp only [List.mapM_cons, bindOk, pureOk] at h
    obtain ⟨b, hb, bs, hbs, rfl⟩ := h
    intro x hx
    rcases List.mem_cons.1 hx with rfl | hx
    · exact hf a List.mem_cons_self x hb
    · exact ih (fun a ha => hf a (List.mem_cons_of_mem _ ha)) hbs x hx

theorem announce_keys {P : Params} {d : KCDoc} (h : d.Typed P) {m : KCM} (hm : d.announceGuardians = .ok m) :
    (∀ e ∈ m.keys, e.2.KeyTyped P) ∧ m.backups = [] ∧ m.verifications = [] := by
  have aux : ∀ (l : List String) (m0 : KCM), ((∀ e ∈ m0.keys, e.2.KeyTyped P) ∧ m0.backups = [] ∧ m0.verifications = []) →
      l.foldlM (fun m id => do return m.announce (← d.findKey id)) m0 = .ok m →
      (∀ e ∈ m.keys, e.2.KeyTyped P) ∧ m.backups = [] ∧ m.verifications = [] := by
    intro l
    induction l with
    | nil => intro m0 h0 h; cases h; exact h0
    | cons id l ih =>
      intro m0 h0 h
      simp only [List.foldlM_cons, bindOk, pureOk] at h
      obtain ⟨m1, ⟨k, hk, rfl⟩, h2⟩ := h
      refine ih (m0.announce k) ⟨fun e he => ?_, h0.2⟩ h2
      rcases mem_dset he with rfl | he
      · simp only [KCDoc.findKey] at hk
        split at hk
        · cases hk
        · rename_i k' hf
          cases hk
          exact h.keys _ (List.mem_of_find?_eq_some hf)
      · exact h0.1 e he
  exact aux d.joined d.mediator ⟨by simp [KCDoc.mediator, KCM.init], rfl, rfl⟩ hm

theorem receiveBackups_typed {P : Params} {m : KCM} {bs : List Backup} (hm : ∀ e ∈ m.backups, e.2.Typed P) (hb : ∀ b ∈ bs, b.Typed P) :
    (∀ e ∈ (m.receiveBackups bs).backups, e.2.Typed P) ∧ (m.receiveBackups bs).keys = m.keys := by
  unfold KCM.receiveBackups
  split
  · exact ⟨hm, rfl⟩
  · induction bs generalizing m with
    | nil => exact ⟨hm, rfl⟩
    | cons b bs ih =>
      have h1 : (∀ e ∈ (m.receiveBackup b).backups, e.2.Typed P) ∧ (m.receiveBackup b).keys = m.keys := by
        unfold KCM.receiveBackup
        split
        · exact ⟨hm, rfl⟩
        · refine ⟨fun e he => ?_, rfl⟩
          rcases mem_dset he with rfl | he
          · exact hb b List.mem_cons_self
          · exact hm e he
      have h2 := ih h1.1 (fun b hb' => hb b (List.mem_cons_of_mem _ hb')) (by
        rename_i hall
        have hd : (m.receiveBackup b).details = m.details := by unfold KCM.receiveBackup; split <;> rfl
        rwa [KCM.allAnnounced, h1.2, hd])
      exact ⟨h2.1, h2.2.trans h1.2⟩

theorem dgetR_mem {κ α : Type} [DecidableEq κ] {d : List (κ × α)} {k : κ} {v : α} (h : dgetR d k = .ok v) : (k, v) ∈ d := by
  unfold dgetR at h
  split at h
  · rename_i w hw
    cases h
    exact mem_of_dget hw
  · cases h

theorem announced_typed {P : Params} {d : KCDoc} (h : d.Typed P) {r : List (String × List ElectionPublicKey)} (hr : d.announce = .ok r) :
    ∀ e ∈ r, ∀ k ∈ e.2, k.KeyTyped P := by
  simp only [KCDoc.announce, bindOk] at hr
  obtain ⟨m, hm, hr⟩ := hr
  refine mapM_all (fun id _ e he => ?_) hr
  simp only [bindOk, pureOk] at he
  obtain ⟨o, ho, ks, hks, rfl⟩ := he
  cases o with
  | none => cases hks
  | some ks' =>
    cases hks
    unfold KCM.shareAnnounced at ho
    split at ho
    · cases ho
    · simp only [bindOk, pureOk, Option.some.injEq] at ho
      obtain ⟨ks'', hks, rfl⟩ := ho
      exact mapM_all (fun id _ k hk => (announce_keys h hm).1 _ (dgetR_mem hk)) hks

theorem sharedBackups_typed {P : Params} {d : KCDoc} (h : d.Typed P) {r : List (String × List Backup)} (hr : d.shareBackups = .ok r) :
    ∀ e ∈ r, ∀ k ∈ e.2, k.Typed P := by
  simp only [KCDoc.shareBackups, bindOk] at hr
  obtain ⟨m, hm, hr⟩ := hr
  have hb := (receiveBackups_typed (m := m) (by rw [(announce_keys h hm).2.1]; simp) h.backups).1
  refine mapM_all (fun id _ e he => ?_) hr
  simp only [bindOk] at he
  obtain ⟨o, ho, he⟩ := he
  cases o with
  | none => cases he
  | some bs =>
    cases he
    unfold KCM.shareBackups at ho
    split at ho
    · cases ho
    · simp only at ho
      split at ho
      · cases ho
        intro b hb'
        obtain ⟨e, he, rfl⟩ := List.mem_map.1 hb'
        exact hb e he
      · cases hs : (m.receiveBackups d.backups).shareBackupsTo id with
        | error e => rw [hs] at ho; cases ho
        | ok bs' =>
          rw [hs] at ho
          cases ho
          exact mapM_all (fun id _ k hk => hb _ (dgetR_mem hk)) hs

theorem backupLoop_typed (hp : 0 < E.P.p) (nonces : Nat → Nat) (ks : List ElectionPublicKey) (i : Nat) {g g' : Guardian} {x : R Bool}
    (hg : ∀ e ∈ g.backupsToShare, e.2.Typed E.P) (h : g.backupLoop E nonces ks i = (x, g')) : ∀ e ∈ g'.backupsToShare, e.2.Typed E.P := by
  induction ks generalizing g i with
  | nil => cases h; exact hg
  | cons k ks ih =>
    simp only [Guardian.backupLoop] at h
    split at h
    · cases h; exact hg
    · rename_i b hb
      refine ih (i + 1) (fun e he => ?_) h
      rcases mem_dset he with rfl | he
      · simp only [generateBackup, bindOk, pureOk] at hb
        obtain ⟨_, _, _, _, c, hc, rfl⟩ := hb
        exact hashedEncrypt_typed hp hc
      · exact hg e he

theorem saveKeys_backups (ks : List ElectionPublicKey) (g : Guardian) : (ks.foldl Guardian.saveKey g).backupsToShare = g.backupsToShare := by
  induction ks generalizing g with
  | nil => rfl
  | cons k ks ih => exact ih _

theorem compute_typed (hv : E.P.Valid) {d : KCDoc} (h : d.Typed E.P) {loads : Bytes → R (List Char)} {user : String}
    {file : Option PrivateGuardianRecord} (hf : ∀ r ∈ file, r.Typed E.P) {nonces : Nat → Nat} {st : KCStage} {us : List KCUpdate}
    (hc : st.compute E loads d user file nonces = .ok us) : ∀ u ∈ us, u.Typed E.P := by
  cases st with
  | announce =>
    simp only [KCStage.compute, bindOk, pureOk] at hc
    obtain ⟨r, hr, rfl⟩ := hc
    simpa [KCUpdate.Typed] using announced_typed h hr
  | makeBackups =>
    simp only [KCStage.compute, bindOk, pureOk] at hc
    obtain ⟨r, hr, rfl⟩ := hc
    simp only [KCDoc.makeBackups, bindOk, pureOk, KCDoc.loadOtherKeys] at hr
    obtain ⟨g, hg, _, ⟨ks, -, rfl⟩, _, -, rfl⟩ := hr
    simp only [List.mem_singleton, forall_eq, KCUpdate.Typed, Guardian.shareBackups, List.mem_map]
    rintro b ⟨e, he, rfl⟩
    refine backupLoop_typed hv.p_pos nonces _ 0 (x := _) (fun e he => ?_) rfl e he
    rw [saveKeys_backups] at he
    cases file with
    | none => cases hg
    | some r =>
      cases hg
      exact (hf r rfl).2.1.2 e he
  | shareBackups =>
    simp only [KCStage.compute, bindOk, pureOk] at hc
    obtain ⟨r, hr, rfl⟩ := hc
    simpa [KCUpdate.Typed] using sharedBackups_typed h hr
  | verifyBackups =>
    simp only [KCStage.compute, bindOk, pureOk] at hc
    obtain ⟨r, hr, rfl⟩ := hc
    simp [KCUpdate.Typed]
  | publish =>
    simp only [KCStage.compute, bindOk, pureOk] at hc
    obtain ⟨r, hr, rfl⟩ := hc
    simp only [KCDoc.publish, bindOk] at hr
    obtain ⟨m, -, hr⟩ := hr
    have : r.Typed E.P := by
      split at hr
      · cases hr
      · rename_i k hk
        cases hr
        simp only [KCM.publishJointKey] at hk
        split at hk
        · cases hk
        · cases hk
          exact ⟨multPs_lt hv.one_lt_p _, hashElems_lt hv.q_pos _⟩
    simpa [KCUpdate.Typed] using this

theorem mkCoefficient_typed (hv : E.P.Valid) {v r : Nat} (h : v < E.P.q) : (mkCoefficient E v r).Typed E.P :=
  ⟨h, Nat.mod_lt _ hv.p_pos, Nat.mod_lt _ hv.p_pos, Nat.mod_lt _ hv.p_pos, hashElems_lt hv.q_pos _, Nat.mod_lt _ hv.q_pos⟩

theorem makeGuardian_typed (hv : E.P.Valid) {user : String} {number n quorum : Int} {rands : Nat → Nat × Nat}
    (hr : ∀ i, (rands i).1 < E.P.q) {g : Guardian} (hg : makeGuardian E user number n quorum rands = .ok g) :
    g.exportPrivate.Typed E.P ∧ g.shareKey.KeyTyped E.P := by
  simp only [makeGuardian, Guardian.fromRandom, bindOk, pureOk] at hg
  obtain ⟨kp, hkp, rfl⟩ := hg
  have hpoly : ∀ c ∈ generatePolynomial E ((List.range quorum.toNat).map rands), c.Typed E.P := by
    intro c hc
    simp only [generatePolynomial, List.map_map, List.mem_map] at hc
    obtain ⟨i, -, rfl⟩ := hc
    exact mkCoefficient_typed hv (hr i)
  unfold generateElectionKeyPair at hkp
  simp only at hkp
  split at hkp
  · cases hkp
  · rename_i c cs heq
    cases hkp
    have hc : c.Typed E.P := hpoly c (by rw [heq]; exact List.mem_cons_self)
    have hkey : (ElectionKeyPair.share ⟨user, number, ⟨c.value, c.commitment⟩,
        generatePolynomial E ((List.range quorum.toNat).map rands)⟩).Typed E.P := by
      refine ⟨hc.2.1, fun x hx => ?_, fun x hx => ?_⟩
      · obtain ⟨y, hy, rfl⟩ := List.mem_map.1 hx
        exact (hpoly y hy).2.1
      · obtain ⟨y, hy, rfl⟩ := List.mem_map.1 hx
        exact (hpoly y hy).2.2
    refine ⟨⟨⟨⟨hc.1, hc.2.1⟩, hpoly⟩, ⟨by simp [Keys, Guardian.exportPrivate, Guardian.init, Guardian.saveKey], ?_⟩, ⟨?_, ?_⟩, ⟨?_, ?_⟩, ?_⟩, hkey.1, hkey.2.1⟩
    · simp [Guardian.exportPrivate, Guardian.init, Guardian.saveKey]
    · exact dset_nodup (d := ([] : List (String × ElectionPublicKey))) List.nodup_nil _ _
    · intro e he
      rcases mem_dset (d := ([] : List (String × ElectionPublicKey))) he with rfl | he
      · exact hkey
      · cases he
    all_goals simp [Keys, Guardian.exportPrivate, Guardian.init, Guardian.saveKey]

/-! ### The refinement -/

theorem filesText_get (files : List (String × PrivateGuardianRecord)) (user : String) :
    dget (filesText files) user = (dget files user).map (toRaw PrivateGuardianRecord.toJson) := by
  exact dget_map_snd' _ _ _

theorem dset_map_snd {α β : Type} (f : α → β) (d : List (String × α)) (k : String) (v : α) :
    dset (d.map (fun e => (e.1, f e.2))) k (f v) = (dset d k v).map (fun e => (e.1, f e.2)) := by
  unfold dset
  have : (d.map (fun e => (e.1, f e.2))).any (fun e => e.1 == k) = d.any (fun e => e.1 == k) := by
    simp [List.any_map, Function.comp_def]
  simp only [this]
  split
  · simp only [List.map_map]
    refine List.map_congr_left fun e _ => ?_
    simp only [Function.comp]
    split <;> rfl
  · simp

theorem filesText_set (files : List (String × PrivateGuardianRecord)) (user : String) (r : PrivateGuardianRecord) :
    dset (filesText files) user (toRaw PrivateGuardianRecord.toJson r) = filesText (dset files user r) :=
  dset_map_snd _ files user r

theorem advance_text (hv : E.P.Valid) {loads : Bytes → R (List Char)} {s : KCSystem} (hs : s.Typed E.P) {rands : Nat → Nat × Nat}
    (hr : ∀ i, (rands i).1 < E.P.q) (nonces : Nat → Nat) {p : KCProc} (hp : p.Typed E.P) {doc : KCDoc}
    {files : List (String × PrivateGuardianRecord)} {p' : Option KCProc} (h : p.advance E loads s.doc s.files rands nonces = (doc, files, p')) :
    p.toText.advance E loads s.doc.toText (filesText s.files) rands nonces = (doc.toText, filesText files, p'.map KCProc.toText) ∧
    doc.Typed E.P ∧ (∀ e ∈ files, e.2.Typed E.P) ∧ ∀ x ∈ p', x.Typed E.P := by
  cases p with
  | joining user =>
    simp only [KCProc.advance] at h
    simp only [KCProc.toText, KCTextProc.advance, dto_text hs.doc]
    have : (KCDto.announced ⟨s.doc.toText, s.doc.keys⟩).guardianNumber user = s.doc.guardianNumber user := rfl
    rw [this]
    cases hn : s.doc.guardianNumber user <;> rw [hn] at h <;> cases h
    · exact ⟨rfl, hs.doc, hs.files, by simp⟩
    · exact ⟨rfl, hs.doc, hs.files, by simp [KCProc.Typed]⟩
  | numbered user number n quorum =>
    simp only [KCProc.advance] at h
    simp only [KCProc.toText, KCTextProc.advance]
    cases hg : makeGuardian E user number n quorum rands <;> rw [hg] at h <;> cases h
    · exact ⟨rfl, hs.doc, hs.files, by simp⟩
    · obtain ⟨h1, h2⟩ := makeGuardian_typed hv hr hg
      refine ⟨by simp only [filesText_set]; rfl, hs.doc, fun e he => ?_, ?_⟩
      · rcases mem_dset he with rfl | he
        · exact h1
        · exact hs.files e he
      · intro x hx
        cases hx
        exact h2
  | saved key =>
    cases h
    exact ⟨by simp only [KCProc.toText, KCTextProc.advance, apply_text]; rfl, apply_typed hs.doc hp, hs.files, by simp⟩
  | running user st read =>
    have hf : ∀ r ∈ dget s.files user, r.Typed E.P := fun r hr' => hs.files _ (mem_of_dget hr')
    simp only [KCProc.advance] at h
    simp only [KCProc.toText, KCTextProc.advance, filesText_get, computeText_eq hp loads user hf nonces st]
    cases hc : st.compute E loads read user (dget s.files user) nonces <;> rw [hc] at h <;> cases h
    · exact ⟨rfl, hs.doc, hs.files, by simp⟩
    · refine ⟨rfl, hs.doc, hs.files, ?_⟩
      intro x hx
      cases hx
      exact compute_typed hv hp hf hc
  | writing us =>
    cases us with
    | nil => cases h; exact ⟨rfl, hs.doc, hs.files, by simp⟩
    | cons u us =>
      cases h
      refine ⟨by simp only [KCProc.toText, List.map_cons, KCTextProc.advance, apply_text]; rfl, apply_typed hs.doc (hp u List.mem_cons_self),
        hs.files, ?_⟩
      intro x hx
      cases hx
      exact fun v hv' => hp v (List.mem_cons_of_mem _ hv')

theorem event_text (hv : E.P.Valid) {loads : Bytes → R (List Char)} {s : KCSystem} (hs : s.Typed E.P) {ev : KCEvent} (he : ev.InRange E.P) :
    s.toText.event E loads ev = (s.event E loads ev).toText ∧ (s.event E loads ev).Typed E.P := by
  cases ev with
  | join user =>
    refine ⟨?_, apply_typed (u := .joined user) hs.doc trivial, hs.files, ?_⟩
    · simp only [KCTextSystem.event, KCSystem.toText, KCSystem.event, apply_text, List.map_append]
      rfl
    · intro p hp
      rcases List.mem_append.1 hp with hp | hp
      · exact hs.procs p hp
      · rw [List.mem_singleton.1 hp]; trivial
  | poll user isAdmin =>
    simp only [KCTextSystem.event, KCSystem.toText, KCSystem.event, dto_text hs.doc, stage_text]
    cases hst : s.doc.stage user isAdmin with
    | none => exact ⟨rfl, hs⟩
    | some st =>
      refine ⟨by simp only [List.map_append]; rfl, hs.doc, hs.files, ?_⟩
      intro p hp
      rcases List.mem_append.1 hp with hp | hp
      · exact hs.procs p hp
      · rw [List.mem_singleton.1 hp]; exact hs.doc
  | step i rands nonces =>
    simp only [KCTextSystem.event, KCSystem.toText, KCSystem.event, List.getElem?_map]
    cases hp : s.procs[i]? with
    | none => exact ⟨rfl, hs⟩
    | some p =>
      have hpt := hs.procs p (List.mem_of_getElem? hp)
      rcases hadv : p.advance E loads s.doc s.files rands nonces with ⟨doc, files, p'⟩
      obtain ⟨h1, h2, h3, h4⟩ := advance_text hv hs (fun i => (he i).1) nonces hpt hadv
      simp only [Option.map_some, h1, hadv]
      refine ⟨?_, h2, h3, ?_⟩
      · cases p' <;> simp [List.eraseIdx_map]
      · intro x hx
        rcases List.mem_append.1 hx with hx | hx
        · exact hs.procs x (List.mem_of_mem_eraseIdx hx)
        · exact h4 x (by simpa using hx)

theorem ceremony_text (hv : E.P.Valid) {loads : Bytes → R (List Char)} (evs : List KCEvent) (he : ∀ ev ∈ evs, ev.InRange E.P) {s : KCSystem}
    (hs : s.Typed E.P) : s.toText.run E loads evs = (s.run E loads evs).toText ∧ (s.run E loads evs).Typed E.P := by
  induction evs generalizing s with
  | nil => exact ⟨rfl, hs⟩
  | cons ev evs ih =>
    obtain ⟨h1, h2⟩ := event_text hv (loads := loads) hs (he ev List.mem_cons_self)
    have := ih (fun e he' => he e (List.mem_cons_of_mem _ he')) h2
    refine ⟨?_, this.2⟩
    change (s.toText.event E loads ev).run E loads evs = _
    rw [h1]
    exact this.1

theorem init_typed (P : Params) (n quorum : Int) : (KCSystem.init n quorum).Typed P := by
  refine ⟨⟨?_, ?_, ?_, ?_, ?_⟩, ?_, ?_⟩ <;> simp [KCSystem.init, KCDoc.create]

/-! ### Elections and private files -/

theorem files_load {P : Params} {files : List (String × PrivateGuardianRecord)} (h : ∀ e ∈ files, e.2.Typed P) (guardians quorum : Int) :
    loadGuardianText P (dget (filesText files)) guardians quorum = loadFromDecryption files guardians quorum := by
  funext user
  simp only [loadGuardianText, loadFromDecryption, filesText_get]
  cases hf : dget files user with
  | none => rfl
  | some r => simp only [Option.map_some, raw_trip (PrivateGuardianRecord.trip (h _ (mem_of_dget hf)))]

theorem computeElection_text {d : KCDoc} (h : d.Typed E.P) (parse : List Char → Option Manifest) (kcId name : String) (raw : List Char)
    (url : Option String) : computeElectionText E parse kcId d.toText name raw url = computeElection E parse kcId d name raw url := by
  simp only [computeElectionText, dto_text h, computeElection, KCDoc.getJointKey]
  cases hk : d.jointKey with
  | none =>
    have h1 : d.toText.jointKey = none := by simp [KCDoc.toText, hk]
    rw [h1]; rfl
  | some k =>
    have h1 : d.toText.jointKey = some k.toDict := by simp [KCDoc.toText, hk]
    rw [h1]
    simp only [ElectionJointKey.dict (h.jointKey k hk)]
    rfl

end EG
