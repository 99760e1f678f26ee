import Verif.Model.GuiSession
import Verif.Props.GuiKeyCeremonyToy

/-!
# C99: roles in the key ceremony of the GUI
-/

namespace EG

variable {E : Env} {loads : Bytes → R (List Char)}

/-- Where an update may come from: `A` an administrator looked, `G u` the guardian `u` looked, `J u` the user `u` joined. -/
def KCUpdate.From (A : Prop) (G J : String → Prop) : KCUpdate → Prop
  | .joined u => J u
  | .key k => J k.ownerId
  | .otherKeys _ => A
  | .backups bs => ∀ b ∈ bs, G b.ownerId
  | .sharedBackups _ => A
  | .verifications vs => ∀ v ∈ vs, G v.verifierId
  | .jointKey _ => A
  | .complete => A

/-- Where a call may come from. -/
def KCProc.From (A : Prop) (G J : String → Prop) : KCProc → Prop
  | .joining u => J u
  | .numbered u _ _ _ => J u
  | .saved k => J k.ownerId
  | .running u st _ => match st with
    | .announce => A
    | .makeBackups => G u
    | .shareBackups => A
    | .verifyBackups => G u
    | .publish => A
  | .writing us => ∀ u ∈ us, u.From A G J

/-- Where an event comes from. -/
def KCEvent.From (A : Prop) (G J : String → Prop) : KCEvent → Prop
  | .join u => J u
  | .poll u isAdmin => if isAdmin then A else G u
  | .step _ _ _ => True

/-- Who contributed what to the document. -/
structure KCDoc.From (A : Prop) (G J : String → Prop) (d : KCDoc) : Prop where
  joined : ∀ u ∈ d.joined, J u
  keys : ∀ k ∈ d.keys, J k.ownerId
  otherKeys : d.otherKeys ≠ [] → A
  backups : ∀ b ∈ d.backups, G b.ownerId
  sharedBackups : d.sharedBackups ≠ [] → A
  verifications : ∀ v ∈ d.verifications, G v.verifierId
  jointKey : d.jointKey ≠ none → A
  completed : d.completed = true → A

/-- The same for the files and the calls. -/
structure KCSystem.From (A : Prop) (G J : String → Prop) (s : KCSystem) : Prop where
  doc : s.doc.From A G J
  files : ∀ e ∈ s.files, J e.1 ∧ e.2.electionKeys.ownerId = e.1 ∧ e.2.backupsToShare = []
  procs : ∀ p ∈ s.procs, p.From A G J

theorem apply_from {A : Prop} {G J : String → Prop} {d : KCDoc} (h : d.From A G J) {u : KCUpdate} (hu : u.From A G J) :
    (d.apply u).From A G J := by
  obtain ⟨h1, h2, h3, h4, h5, h6, h7, h8⟩ := h
  cases u with
  | joined id =>
    refine ⟨fun x hx => ?_, h2, h3, h4, h5, h6, h7, h8⟩
    rcases List.mem_append.1 hx with hx | hx
    · exact h1 x hx
    · rw [List.mem_singleton.1 hx]; exact hu
  | key k =>
    refine ⟨h1, fun x hx => ?_, h3, h4, h5, h6, h7, h8⟩
    rcases List.mem_append.1 hx with hx | hx
    · exact h2 x hx
    · rw [List.mem_singleton.1 hx]; exact hu
  | otherKeys ks => exact ⟨h1, h2, fun _ => hu, h4, h5, h6, h7, h8⟩
  | backups bs =>
    refine ⟨h1, h2, h3, fun x hx => ?_, h5, h6, h7, h8⟩
    rcases List.mem_append.1 hx with hx | hx
    · exact h4 x hx
    · exact hu x hx
  | sharedBackups bs => exact ⟨h1, h2, h3, h4, fun _ => hu, h6, h7, h8⟩
  | verifications vs =>
    refine ⟨h1, h2, h3, h4, h5, fun x hx => ?_, h7, h8⟩
    rcases List.mem_append.1 hx with hx | hx
    · exact h6 x hx
    · exact hu x hx
  | jointKey k => exact ⟨h1, h2, h3, h4, h5, h6, fun _ => hu, h8⟩
  | complete => exact ⟨h1, h2, h3, h4, h5, h6, h7, fun _ => hu⟩

theorem loaded_id {d : KCDoc} {user : String} {file : Option PrivateGuardianRecord} {g g' : Guardian}
    (hf : ∀ r, file = some r → r.electionKeys.ownerId = user ∧ r.backupsToShare = []) (h1 : d.loadGuardian file = .ok g)
    (h2 : d.loadOtherKeys user g = .ok g') : g'.id = user ∧ g'.backupsToShare = [] := by
  unfold KCDoc.loadGuardian at h1
  cases hr : file with
  | none => rw [hr] at h1; cases h1
  | some r =>
    rw [hr] at h1
    cases h1
    obtain ⟨e1, e2⟩ := hf r hr
    unfold KCDoc.loadOtherKeys KCDoc.otherKeysFor at h2
    cases hk : d.otherKeys.find? (fun e => e.1 == user) with
    | none => rw [hk] at h2; cases h2
    | some e =>
      rw [hk] at h2
      cases h2
      rw [saveKeys_eq]
      exact ⟨e1, e2⟩

theorem generateBackup_owner {sid : String} {poly : Polynomial'} {k : ElectionPublicKey} {n : Nat} {b : Backup}
    (h : generateBackup E sid poly k n = .ok b) : b.ownerId = sid := by
  simp only [generateBackup, bind, Except.bind, pure, Except.pure] at h
  repeat' split at h
  all_goals cases h
  all_goals rfl

theorem compute_from {A : Prop} {G J : String → Prop} {d : KCDoc} {user : String} {st : KCStage}
    {file : Option PrivateGuardianRecord} {nonces : Nat → Nat} {us : List KCUpdate}
    (hp : KCProc.From A G J (.running user st d))
    (hf : ∀ r, file = some r → r.electionKeys.ownerId = user ∧ r.backupsToShare = [])
    (h : st.compute E loads d user file nonces = .ok us) : ∀ u ∈ us, u.From A G J := by
  cases st with
  | announce =>
    simp only [KCStage.compute, bind, Except.bind, pure, Except.pure] at h
    split at h
    · cases h
    · cases h
      intro u hu
      rw [List.mem_singleton.1 hu]
      exact hp
  | makeBackups =>
    simp only [KCStage.compute, bind, Except.bind, pure, Except.pure] at h
    split at h
    · cases h
    · rename_i bs hbs
      cases h
      intro u hu
      rw [List.mem_singleton.1 hu]
      intro b hb
      unfold KCDoc.makeBackups at hbs
      simp only [bind, Except.bind, pure, Except.pure] at hbs
      cases h1 : d.loadGuardian file with
      | error e => rw [h1] at hbs; cases hbs
      | ok g =>
        rw [h1] at hbs
        simp only at hbs
        cases h2 : d.loadOtherKeys user g with
        | error e => rw [h2] at hbs; cases hbs
        | ok g' =>
          rw [h2] at hbs
          simp only at hbs
          obtain ⟨hid, hsh⟩ := loaded_id hf h1 h2
          cases hgen : (g'.generateBackups E nonces).1 with
          | error e => rw [hgen] at hbs; cases hbs
          | ok _ =>
            rw [hgen] at hbs
            cases hbs
            obtain ⟨e, he, rfl⟩ := List.mem_map.1 hb
            rcases backupLoop_mem g' nonces _ 0 e he with h' | ⟨k, -, n, hn⟩
            · rw [hsh] at h'; cases h'
            · rw [generateBackup_owner hn, hid]; exact hp
  | shareBackups =>
    simp only [KCStage.compute, bind, Except.bind, pure, Except.pure] at h
    split at h
    · cases h
    · cases h
      intro u hu
      rw [List.mem_singleton.1 hu]
      exact hp
  | verifyBackups =>
    simp only [KCStage.compute, bind, Except.bind, pure, Except.pure] at h
    split at h
    · cases h
    · rename_i vs hvs
      cases h
      intro u hu
      rw [List.mem_singleton.1 hu]
      intro v hv
      unfold KCDoc.verifyBackups at hvs
      simp only [bind, Except.bind] at hvs
      cases h0 : d.sharedBackupsFor user with
      | error e => rw [h0] at hvs; cases hvs
      | ok bs =>
        rw [h0] at hvs
        simp only at hvs
        cases h1 : d.loadGuardian file with
        | error e => rw [h1] at hvs; cases hvs
        | ok g =>
          rw [h1] at hvs
          simp only at hvs
          cases h2 : d.loadOtherKeys user g with
          | error e => rw [h2] at hvs; cases hvs
          | ok g' =>
            rw [h2] at hvs
            simp only at hvs
            obtain ⟨b, -, k, -, hver⟩ := checkSharedLoop_ok hvs v hv
            rw [(verifyBackup_names hver).2.2, (loaded_id hf h1 h2).1]
            exact hp
  | publish =>
    simp only [KCStage.compute, bind, Except.bind, pure, Except.pure] at h
    split at h
    · cases h
    · cases h
      intro u hu
      simp only [List.mem_cons, List.not_mem_nil, or_false] at hu
      rcases hu with rfl | rfl <;> exact hp

theorem stage_role {d : KCDoc} {user : String} {isAdmin : Bool} {st : KCStage} (h : d.stage user isAdmin = some st) :
    KCStage.shouldRun d user isAdmin st = true := List.find?_some h

theorem running_from {A : Prop} {G J : String → Prop} {d : KCDoc} {user : String} {isAdmin : Bool} {st : KCStage}
    (h : KCStage.shouldRun d user isAdmin st = true) (he : KCEvent.From A G J (.poll user isAdmin)) :
    KCProc.From A G J (.running user st d) := by
  cases st <;> cases isAdmin <;> simp [KCStage.shouldRun] at h <;> simpa [KCEvent.From, KCProc.From] using he

theorem event_from {A : Prop} {G J : String → Prop} {s : KCSystem} (h : s.From A G J) {ev : KCEvent} (he : ev.From A G J) :
    (s.event E loads ev).From A G J := by
  cases ev with
  | join user =>
    refine ⟨apply_from h.doc (show KCUpdate.From A G J (.joined user) from he), h.files, fun p hp => ?_⟩
    rcases List.mem_append.1 hp with hp | hp
    · exact h.procs p hp
    · rw [List.mem_singleton.1 hp]; exact he
  | poll user isAdmin =>
    unfold KCSystem.event
    simp only
    split
    · exact h
    · rename_i st hst
      refine ⟨h.doc, h.files, fun p hp => ?_⟩
      rcases List.mem_append.1 hp with hp | hp
      · exact h.procs p hp
      · rw [List.mem_singleton.1 hp]
        exact running_from (stage_role hst) he
  | step i rands nonces =>
    unfold KCSystem.event
    simp only
    split
    · exact h
    · rename_i p hi
      have hp := h.procs p (List.mem_of_getElem? hi)
      suffices hh : (p.advance E loads s.doc s.files rands nonces).1.From A G J ∧
          (∀ e ∈ (p.advance E loads s.doc s.files rands nonces).2.1, J e.1 ∧ e.2.electionKeys.ownerId = e.1 ∧
            e.2.backupsToShare = []) ∧
          ∀ p' ∈ (p.advance E loads s.doc s.files rands nonces).2.2, p'.From A G J by
        refine ⟨hh.1, hh.2.1, fun p' hp' => ?_⟩
        rcases List.mem_append.1 hp' with hp' | hp'
        · exact h.procs p' (List.mem_of_mem_eraseIdx hp')
        · exact hh.2.2 p' (by simpa using hp')
      unfold KCProc.advance
      split
      · rename_i user
        split
        · exact ⟨h.doc, h.files, by simp⟩
        · refine ⟨h.doc, h.files, ?_⟩
          intro p' hp'
          simp only [Option.mem_def, Option.some.injEq] at hp'
          subst hp'
          exact hp
      · rename_i user number n quorum
        split
        · exact ⟨h.doc, h.files, by simp⟩
        · rename_i g hg
          obtain ⟨kp, hkp, rfl⟩ := makeGuardian_ok hg
          have hid : kp.ownerId = user := (C47_key_pair hkp).1
          refine ⟨h.doc, ?_, ?_⟩
          · intro e he
            rcases mem_dset he with rfl | he
            · refine ⟨?_, rfl, rfl⟩
              show J kp.ownerId
              rw [hid]; exact hp
            · exact h.files e he
          · intro p' hp'
            simp only [Option.mem_def, Option.some.injEq] at hp'
            subst hp'
            show J kp.ownerId
            rw [hid]; exact hp
      · rename_i key
        exact ⟨apply_from h.doc (show KCUpdate.From A G J (.key key) from hp), h.files, by simp⟩
      · rename_i user stage read
        split
        · exact ⟨h.doc, h.files, by simp⟩
        · rename_i us hus
          refine ⟨h.doc, h.files, ?_⟩
          intro p' hp'
          simp only [Option.mem_def, Option.some.injEq] at hp'
          subst hp'
          exact compute_from hp (fun r hr => (h.files (user, r) (mem_of_dget hr)).2) hus
      · exact ⟨h.doc, h.files, by simp⟩
      · rename_i u us
        refine ⟨apply_from h.doc (hp u (by simp)), h.files, ?_⟩
        intro p' hp'
        simp only [Option.mem_def, Option.some.injEq] at hp'
        subst hp'
        exact fun x hx => hp x (by simp [hx])

theorem run_from {A : Prop} {G J : String → Prop} (evs : List KCEvent) :
    ∀ {s : KCSystem}, s.From A G J → (∀ ev ∈ evs, ev.From A G J) → (s.run E loads evs).From A G J := by
  induction evs with
  | nil => intro s h _; exact h
  | cons ev evs ih =>
    intro s h hev
    exact ih (event_from h (hev ev (by simp))) (fun e he => hev e (by simp [he]))

theorem init_from {A : Prop} {G J : String → Prop} (n quorum : Int) : (KCSystem.init n quorum).From A G J := by
  refine ⟨⟨?_, ?_, ?_, ?_, ?_, ?_, ?_, ?_⟩, ?_, ?_⟩ <;> simp [KCSystem.init, KCDoc.create]

/-- The stage of a session with a user is the stage of the user. -/
theorem C99_stage (g : GuiSession) (d : KCDoc) (user : String) (hu : g.userId = some user) :
    g.stage d = .ok (d.stage user g.isAdmin) := by
  obtain ⟨adm, id⟩ := g
  simp only at hu
  subst hu
  unfold GuiSession.stage KCDoc.stage
  generalize [KCStage.announce, .makeBackups, .shareBackups, .verifyBackups, .publish] = l
  induction l with
  | nil => rfl
  | cons st sts ih =>
    have hs : (⟨adm, some user⟩ : GuiSession).shouldRun d st = .ok (KCStage.shouldRun d user adm st) := by
      cases st <;> rfl
    simp only [GuiSession.firstStage, hs, bind, Except.bind, List.find?_cons]
    cases KCStage.shouldRun d user adm st with
    | true => rfl
    | false => exact ih

/-- C99 (finding) A session without a user, also that of an administrator, runs no stage but the announcement: it raises. -/
theorem C99_anonymous (g : GuiSession) (d : KCDoc) (hu : g.userId = none) :
    g.stage d = if g.isAdmin = true ∧ d.state = .pendingAdminAnnounce then .ok (some .announce) else .error .value := by
  obtain ⟨adm, id⟩ := g
  simp only at hu
  subst hu
  unfold GuiSession.stage
  simp only [GuiSession.firstStage, GuiSession.shouldRun, GuiSession.requiredUserId, bind, Except.bind, pure, Except.pure]
  by_cases h : adm = true ∧ d.state = .pendingAdminAnnounce
  · rw [if_pos h]; simp [h.1, h.2]
  · rw [if_neg h]
    have : (adm && decide (d.state = .pendingAdminAnnounce)) = false := by
      rw [Bool.eq_false_iff]; simpa using h
    simp [this]

/-- Somebody gave the name `user` to session `i`, or it had it from the start. -/
def LoggedIn (sessions : List GuiSession) (evs : List SessionEvent) (i : Nat) (user : String) : Prop :=
  (∃ g, sessions[i]? = some g ∧ g.userId = some user) ∨ SessionEvent.login i user ∈ evs

/-- The role of a session never changes, and its user is one that was logged in. -/
theorem sessions_run (evs : List SessionEvent) (s : SessionSystem) (i : Nat) (g : GuiSession)
    (h : (s.run E loads evs).sessions[i]? = some g) :
    ∃ g0, s.sessions[i]? = some g0 ∧ g.isAdmin = g0.isAdmin ∧
      ∀ u, g.userId = some u → LoggedIn s.sessions evs i u := by
  induction evs using List.reverseRecOn generalizing g with
  | nil => exact ⟨g, h, rfl, fun u hu => .inl ⟨g, h, hu⟩⟩
  | append_singleton evs ev ih =>
    unfold SessionSystem.run at *
    rw [List.foldl_append, List.foldl_cons, List.foldl_nil] at h
    generalize evs.foldl (SessionSystem.event E loads) s = t at ih h
    have mono : ∀ {i u}, LoggedIn s.sessions evs i u → LoggedIn s.sessions (evs ++ [ev]) i u :=
      fun hl => hl.imp id (fun hm => List.mem_append_left _ hm)
    have same : t.sessions[i]? = some g → ∃ g0, s.sessions[i]? = some g0 ∧ g.isAdmin = g0.isAdmin ∧
        ∀ u, g.userId = some u → LoggedIn s.sessions (evs ++ [ev]) i u := by
      intro ht
      obtain ⟨g0, e1, e2, e3⟩ := ih g ht
      exact ⟨g0, e1, e2, fun u hu => mono (e3 u hu)⟩
    cases ev with
    | login j user =>
      have h' : (t.sessions.modify j (fun g => g.setUserId user))[i]? = some g := h
      rw [List.getElem?_modify] at h'
      cases ht : t.sessions[i]? with
      | none => rw [ht] at h'; cases h'
      | some g1 =>
        rw [ht] at h'
        by_cases hij : j = i
        · subst hij
          simp only [if_true, Option.map_eq_map, Option.map_some, Option.some.injEq] at h'
          subst h'
          obtain ⟨g0, e1, e2, -⟩ := ih g1 ht
          refine ⟨g0, e1, e2, fun u hu => .inr ?_⟩
          simp only [GuiSession.setUserId, Option.some.injEq] at hu
          subst hu
          simp
        · simp only [if_neg hij, Option.map_eq_map, Option.map_some, Option.some.injEq] at h'
          subst h'
          exact same ht
    | join j =>
      apply same
      simp only [SessionSystem.event] at h
      repeat' split at h
      all_goals exact h
    | poll j =>
      apply same
      simp only [SessionSystem.event] at h
      repeat' split at h
      all_goals exact h
    | step j r n => exact same h

/-- An event of the ceremony that a session caused: a join of a user that was logged in, or a look in the role of the session, by its
user or by an administrator that may be without a name. -/
def KCEvent.BySession (sessions : List GuiSession) (evs : List SessionEvent) : KCEvent → Prop
  | .join u => ∃ i, LoggedIn sessions evs i u
  | .poll u isAdmin => ∃ i g, sessions[i]? = some g ∧ g.isAdmin = isAdmin ∧ (LoggedIn sessions evs i u ∨ isAdmin = true)
  | .step _ _ _ => True

/-- C99 **Refinement.**  Whatever the sessions do is a run of the key ceremony system in which every join is by the user of a session
and every look by a session in its own role; so all that C71 says about such runs holds for sessions. -/
theorem C99_refines (n quorum : Int) (sessions : List GuiSession) (evs : List SessionEvent) :
    ∃ kevs, ((SessionSystem.init n quorum sessions).run E loads evs).sys = (KCSystem.init n quorum).run E loads kevs ∧
      ∀ ev ∈ kevs, ev.BySession sessions evs := by
  induction evs using List.reverseRecOn with
  | nil => exact ⟨[], rfl, by simp⟩
  | append_singleton evs ev ih =>
    obtain ⟨kevs, hk, hfrom⟩ := ih
    have hsess := sessions_run (E := E) (loads := loads) evs (SessionSystem.init n quorum sessions)
    have mono : ∀ {i u}, LoggedIn sessions evs i u → LoggedIn sessions (evs ++ [ev]) i u :=
      fun hl => hl.imp id (fun hm => List.mem_append_left _ hm)
    have hold : ∀ ev' ∈ kevs, ev'.BySession sessions (evs ++ [ev]) := by
      intro ev' hev'
      have := hfrom ev' hev'
      cases ev' with
      | join u => obtain ⟨i, hi⟩ := this; exact ⟨i, mono hi⟩
      | poll u b => obtain ⟨i, g, e1, e2, e3⟩ := this; exact ⟨i, g, e1, e2, e3.imp mono id⟩
      | step _ _ _ => trivial
    unfold SessionSystem.run KCSystem.run at *
    rw [List.foldl_append, List.foldl_cons, List.foldl_nil]
    generalize evs.foldl (SessionSystem.event E loads) (SessionSystem.init n quorum sessions) = t at hk hsess
    have push : ∀ kev : KCEvent, kev.BySession sessions (evs ++ [ev]) → ∃ kevs' : List KCEvent,
        t.sys.event E loads kev = kevs'.foldl (KCSystem.event E loads) (KCSystem.init n quorum) ∧
          ∀ ev' ∈ kevs', ev'.BySession sessions (evs ++ [ev]) := by
      intro kev hkev
      refine ⟨kevs ++ [kev], by rw [List.foldl_append, hk]; rfl, fun ev' hev' => ?_⟩
      rcases List.mem_append.1 hev' with h | h
      · exact hold ev' h
      · rw [List.mem_singleton.1 h]; exact hkev
    cases ev with
    | login i user => exact ⟨kevs, hk, hold⟩
    | join i =>
      simp only [SessionSystem.event]
      split
      · exact ⟨kevs, hk, hold⟩
      · rename_i g hg
        split
        · exact ⟨kevs, hk, hold⟩
        · rename_i user hu
          have hu' : g.userId = some user := by
            unfold GuiSession.requiredUserId at hu
            split at hu
            · cases hu
            · cases hu; assumption
          obtain ⟨g0, -, -, e3⟩ := hsess i g hg
          exact push (.join user) ⟨i, mono (e3 user hu')⟩
    | poll i =>
      simp only [SessionSystem.event]
      split
      · exact ⟨kevs, hk, hold⟩
      · rename_i g hg
        obtain ⟨g0, e1, e2, e3⟩ := hsess i g hg
        split
        · exact ⟨kevs, hk, hold⟩
        · exact ⟨kevs, hk, hold⟩
        · rename_i st hst
          cases hu : g.userId with
          | some user =>
            rw [C99_stage g _ user hu] at hst
            have hst' : t.sys.doc.stage user g.isAdmin = some st := Except.ok.inj hst
            have := push (.poll user g.isAdmin) ⟨i, g0, e1, e2.symm, .inl (mono (e3 user hu))⟩
            simp only [KCSystem.event, hst'] at this
            exact this
          | none =>
            rw [C99_anonymous g _ hu] at hst
            split at hst
            · rename_i hc
              cases hst
              have hst' : t.sys.doc.stage "" true = some .announce := by
                simp [KCDoc.stage, KCStage.shouldRun, hc.2]
              have := push (.poll "" true) ⟨i, g0, e1, by rw [← e2]; exact hc.1, .inr rfl⟩
              simp only [KCSystem.event, hst'] at this
              exact this
            · cases hst
    | step j r nn => exact push (.step j r nn) trivial

/-- C99 **Who did what.**  For every sequence of logins, joins, looks and steps of the calls, by any number of programs at the same time:
* whoever is among the joined, has a key in the document or a private file, is a user that was logged in at some session;
* the lists of keys to share, the shared backups and the joint key are there only if one of the programs runs as administrator;
* every backup was made, and every verification signed, by a user logged in at a program that does not run as administrator;
* the role of no program changes. -/
theorem C99_roles (n quorum : Int) (sessions : List GuiSession) (evs : List SessionEvent) (s : SessionSystem)
    (hs : s = (SessionSystem.init n quorum sessions).run E loads evs) :
    (∀ u ∈ s.sys.doc.joined, ∃ i, LoggedIn sessions evs i u) ∧
    (∀ k ∈ s.sys.doc.keys, ∃ i, LoggedIn sessions evs i k.ownerId) ∧
    (∀ e ∈ s.sys.files, ∃ i, LoggedIn sessions evs i e.1) ∧
    ((s.sys.doc.otherKeys ≠ [] ∨ s.sys.doc.sharedBackups ≠ [] ∨ s.sys.doc.jointKey ≠ none ∨ s.sys.doc.completed = true) →
      ∃ g ∈ sessions, g.isAdmin = true) ∧
    (∀ b ∈ s.sys.doc.backups, ∃ i g, sessions[i]? = some g ∧ g.isAdmin = false ∧ LoggedIn sessions evs i b.ownerId) ∧
    (∀ v ∈ s.sys.doc.verifications, ∃ i g, sessions[i]? = some g ∧ g.isAdmin = false ∧
      LoggedIn sessions evs i v.verifierId) ∧
    s.sessions.map GuiSession.isAdmin = sessions.map GuiSession.isAdmin := by
  subst hs
  obtain ⟨kevs, hk, hfrom⟩ := C99_refines (E := E) (loads := loads) n quorum sessions evs
  have hinv := run_from (E := E) (loads := loads) kevs (A := ∃ g ∈ sessions, g.isAdmin = true)
    (G := fun u => ∃ i g, sessions[i]? = some g ∧ g.isAdmin = false ∧ LoggedIn sessions evs i u)
    (J := fun u => ∃ i, LoggedIn sessions evs i u) (init_from n quorum) (by
      intro ev hev
      have := hfrom ev hev
      cases ev with
      | join u => exact this
      | poll u b =>
        obtain ⟨i, g, e1, e2, e3⟩ := this
        cases b with
        | true => exact ⟨g, List.mem_of_getElem? e1, e2⟩
        | false =>
          rcases e3 with e3 | e3
          · exact ⟨i, g, e1, e2, e3⟩
          · cases e3
      | step _ _ _ => trivial)
  rw [← hk] at hinv
  refine ⟨hinv.doc.joined, hinv.doc.keys, fun e he => (hinv.files e he).1, ?_, hinv.doc.backups, hinv.doc.verifications, ?_⟩
  · rintro (h | h | h | h)
    · exact hinv.doc.otherKeys h
    · exact hinv.doc.sharedBackups h
    · exact hinv.doc.jointKey h
    · exact hinv.doc.completed h
  · clear hinv hfrom hk
    induction evs using List.reverseRecOn with
    | nil => rfl
    | append_singleton evs ev ih =>
      unfold SessionSystem.run at *
      rw [List.foldl_append, List.foldl_cons, List.foldl_nil]
      generalize evs.foldl (SessionSystem.event E loads) (SessionSystem.init n quorum sessions) = t at ih
      rw [← ih]
      cases ev with
      | login j user =>
        apply List.ext_getElem?
        intro i
        simp only [SessionSystem.event, List.getElem?_map, List.getElem?_modify]
        cases t.sessions[i]? with
        | none => rfl
        | some g => by_cases hij : j = i <;> simp [hij, GuiSession.setUserId]
      | join j =>
        simp only [SessionSystem.event]
        repeat' split
        all_goals rfl
      | poll j =>
        simp only [SessionSystem.event]
        repeat' split
        all_goals rfl
      | step j r nn => rfl

/-- C99 A program runs as administrator exactly if the environment says true, in any case of letters; nobody is logged in at first. -/
theorem C99_start (param : Option String) :
    ((GuiSession.start param).isAdmin = true ↔ ∃ v, param = some v ∧ v.toList.map Char.toLower = ['t', 'r', 'u', 'e']) ∧
      (GuiSession.start param).userId = none := by
  refine ⟨?_, rfl⟩
  cases param with
  | none => simp [GuiSession.start]
  | some v => simp [GuiSession.start]

/-- A call that joins, from its start to its end. -/
private def sJoin (i x : Nat) : List SessionEvent :=
  [.join i, .step 0 (toyKeyRands x) (fun _ => 0), .step 0 (toyKeyRands x) (fun _ => 0), .step 0 (toyKeyRands x) (fun _ => 0)]

/-- A look with all that it causes. -/
private def sLook (i : Nat) : List SessionEvent :=
  .poll i :: List.replicate 4 (.step 0 (toyKeyRands 5) (fun k => k + 3))

/-- C99 (negative) The page offers an administrator nothing to join, but the call does not check it: the only program runs as
administrator, and its user is a guardian with a key. -/
theorem C99_admin_joins_fails : ∃ (sessions : List GuiSession) (evs : List SessionEvent) (s : SessionSystem),
    s = (SessionSystem.init 2 2 sessions).run toyEnv strictLoads evs ∧ (∀ g ∈ sessions, g.isAdmin = true) ∧
    (KCDoc.create 2 2).canJoin "a" true = false ∧ s.sys.doc.joined = ["a"] ∧
    s.sys.doc.keys.map (fun k => k.ownerId) = ["a"] ∧ s.sys.files.map (fun e => e.1) = ["a"] :=
  ⟨[⟨true, none⟩], .login 0 "a" :: sJoin 0 5, _, rfl, by decide, by decide, by decide +kernel, by decide +kernel,
    by decide +kernel⟩

/-- C99 (negative) The user of a program is whoever the browser says: one program joins as both guardians and holds both private
files. -/
theorem C99_two_names_fails : ∃ (sessions : List GuiSession) (evs : List SessionEvent) (s : SessionSystem),
    s = (SessionSystem.init 2 2 sessions).run toyEnv strictLoads evs ∧ sessions.length = 1 ∧
    s.sys.doc.joined = ["a", "b"] ∧ s.sys.doc.keys.map (fun k => k.ownerId) = ["a", "b"] ∧
    s.sys.files.map (fun e => e.1) = ["a", "b"] :=
  ⟨[⟨false, none⟩], .login 0 "a" :: sJoin 0 5 ++ .login 0 "b" :: sJoin 0 7, _, rfl, rfl, by decide +kernel,
    by decide +kernel, by decide +kernel⟩

/-- A ceremony of one guardian with an administrator: the joint key is published. -/
example : (((SessionSystem.init 1 1 [⟨true, none⟩, ⟨false, none⟩]).run toyEnv strictLoads (.login 0 "admin" :: .login 1 "a" ::
    sJoin 1 5 ++ sLook 0 ++ sLook 1 ++ sLook 0 ++ sLook 1 ++ sLook 0)).sys.doc.jointKey).isSome = true := by
  decide +kernel

/-- Without the administrator the same looks publish nothing. -/
example : (((SessionSystem.init 1 1 [⟨false, none⟩, ⟨false, none⟩]).run toyEnv strictLoads (.login 0 "admin" :: .login 1 "a" ::
    sJoin 1 5 ++ sLook 0 ++ sLook 1 ++ sLook 0 ++ sLook 1 ++ sLook 0)).sys.doc.jointKey) = none := by
  by_contra h
  obtain ⟨g, hg, ha⟩ := (C99_roles 1 1 _ _ _ rfl).2.2.2.1 (.inr (.inr (.inl h)))
  revert g
  decide

end EG
