import Verif.Props.GuiKeyCeremony
import Verif.Spec.KeyCeremony

/-!
# C71: more about the key ceremony in the GUI, and concrete ceremonies
-/

namespace EG

variable {E : Env} {loads : Bytes → R (List Char)}

/-! ### Too many guardians -/

/-- A joint key is never computed from a document that too many guardians joined. -/
theorem publish_extra {d : KCDoc} (h : d.guardianCount < (d.joined.toFinset.card : Int)) (jk : ElectionJointKey) :
    d.publish E ≠ .ok jk := by
  intro hp
  unfold KCDoc.publish at hp
  cases hm : d.announceGuardians with
  | error e => rw [hm] at hp; cases hp
  | ok m =>
    rw [hm] at hp
    simp only [bind, Except.bind, pure, Except.pure] at hp
    obtain ⟨ks, hks, hmks⟩ := announceGuardians_ok (E := E) hm
    obtain ⟨-, hdet, -, -, -⟩ := announceGuardians_keys hm
    cases hj : ((m.receiveBackups d.backups).receiveVerifications d.verifications).publishJointKey E with
    | none => rw [hj] at hp; cases hp
    | some jk' =>
      obtain ⟨hver, -⟩ := (publishJointKey_eq_some E _ _).1 hj
      obtain ⟨h1, -, -, -⟩ := (allBackupsVerified_iff _).1 hver
      obtain ⟨-, e2, e3, -⟩ := receiveBackups_fields m d.backups
      obtain ⟨-, f2, f3, -⟩ := receiveVerifications_fields (m.receiveBackups d.backups) d.verifications
      rw [f3, e3, f2, e2, hdet] at h1
      have hsub : ∀ id ∈ d.joined, id ∈ dkeys m.keys := by
        intro id hid
        obtain ⟨k, hk, hf⟩ := forall₂_mem_left hks hid
        rw [hmks, foldl_announce, ← (findKey_ok hf).2]
        have : ∀ (l : List ElectionPublicKey) (x : List (String × ElectionPublicKey)), (k ∈ l ∨ k.ownerId ∈ dkeys x) →
            k.ownerId ∈ dkeys (l.foldl (fun d k => dset d k.ownerId k) x) := by
          intro l
          induction l with
          | nil => intro x hx; exact hx.resolve_left (by simp)
          | cons y l ih =>
            intro x hx
            refine ih _ ?_
            rcases hx with hx | hx
            · rcases List.mem_cons.1 hx with rfl | hx
              · right
                rw [dkeys_dset]
                split
                · assumption
                · simp
              · exact .inl hx
            · right
              rw [dkeys_dset]
              split
              · exact hx
              · exact List.mem_append_left _ hx
        exact this ks _ (.inl hk)
      have hcard : d.joined.toFinset.card ≤ m.keys.length := by
        have h2 : d.joined.toFinset ⊆ (dkeys m.keys).toFinset := by
          intro x hx
          rw [List.mem_toFinset] at hx ⊢
          exact hsub x hx
        calc d.joined.toFinset.card ≤ (dkeys m.keys).toFinset.card := Finset.card_le_card h2
          _ ≤ (dkeys m.keys).length := List.toFinset_card_le _
          _ = m.keys.length := List.length_map _
      simp only at h1
      omega

/-- A call that does not publish a joint key and goes by a document that too many guardians joined. -/
def KCProc.Harmless (n : Int) : KCProc → Prop
  | .running _ _ read => read.guardianCount = n ∧ n < (read.joined.toFinset.card : Int)
  | .writing us => ∀ jk, KCUpdate.jointKey jk ∉ us
  | _ => True

/-- C71 When more guardians than the ceremony is for have joined, no joint key is ever published, whatever happens. -/
theorem C71_extra_guardian_blocks (s : KCSystem) (hrest : s.procs = []) (hjk : s.doc.jointKey = none)
    (hextra : s.doc.guardianCount < (s.doc.joined.toFinset.card : Int)) (evs : List KCEvent) :
    (s.run E loads evs).doc.jointKey = none := by
  suffices h : (s.run E loads evs).doc.jointKey = none ∧ (s.run E loads evs).doc.guardianCount = s.doc.guardianCount ∧
      s.doc.guardianCount < ((s.run E loads evs).doc.joined.toFinset.card : Int) ∧
      ∀ p ∈ (s.run E loads evs).procs, p.Harmless s.doc.guardianCount from h.1
  induction evs using List.reverseRecOn with
  | nil => exact ⟨hjk, rfl, hextra, fun p hp => by
      have : p ∈ s.procs := hp
      rw [hrest] at this
      cases this⟩
  | append_singleton evs ev ih =>
    unfold KCSystem.run at *
    rw [List.foldl_append, List.foldl_cons, List.foldl_nil]
    set n := s.doc.guardianCount with hn
    clear_value n
    generalize evs.foldl (KCSystem.event E loads) s = t at ih ⊢
    obtain ⟨h1, h2, h3, h4⟩ := ih
    have hle := event_le (E := E) (loads := loads) t ev
    have hgrow : n < ((t.event E loads ev).doc.joined.toFinset.card : Int) := by
      have : t.doc.joined.toFinset ⊆ (t.event E loads ev).doc.joined.toFinset := by
        intro x hx
        rw [List.mem_toFinset] at hx ⊢
        exact hle.joined.subset hx
      have := Finset.card_le_card this
      omega
    suffices h : (t.event E loads ev).doc.jointKey = none ∧ ∀ p ∈ (t.event E loads ev).procs, p.Harmless n from
      ⟨h.1, hle.count.symm.trans h2, hgrow, h.2⟩
    cases ev with
    | join user =>
      refine ⟨h1, fun p hp => ?_⟩
      rcases List.mem_append.1 hp with hp | hp
      · exact h4 p hp
      · rw [List.mem_singleton.1 hp]; trivial
    | poll user isAdmin =>
      unfold KCSystem.event
      simp only
      split
      · exact ⟨h1, h4⟩
      · refine ⟨h1, fun p hp => ?_⟩
        rcases List.mem_append.1 hp with hp | hp
        · exact h4 p hp
        · rw [List.mem_singleton.1 hp]; exact ⟨h2, h3⟩
    | step i rands nonces =>
      unfold KCSystem.event
      simp only
      split
      · exact ⟨h1, h4⟩
      · rename_i p hp
        have hpm : p ∈ t.procs := List.mem_of_getElem? hp
        have hold : ∀ x ∈ t.procs.eraseIdx i, x.Harmless n := fun x hx => h4 x (List.mem_of_mem_eraseIdx hx)
        suffices h : (p.advance E loads t.doc t.files rands nonces).1.jointKey = none ∧
            ∀ x ∈ (p.advance E loads t.doc t.files rands nonces).2.2, x.Harmless n by
          refine ⟨h.1, fun x hx => ?_⟩
          rcases List.mem_append.1 hx with hx | hx
          · exact hold x hx
          · exact h.2 x (Option.mem_toList.1 hx)
        have hharm := h4 p hpm
        cases p with
        | joining user =>
          simp only [KCProc.advance]
          split
          · exact ⟨h1, fun x hx => by cases hx⟩
          · exact ⟨h1, fun x hx => by cases hx; trivial⟩
        | numbered user number a b =>
          simp only [KCProc.advance]
          split
          · exact ⟨h1, fun x hx => by cases hx⟩
          · exact ⟨h1, fun x hx => by cases hx; trivial⟩
        | saved key => exact ⟨h1, fun x hx => by cases hx⟩
        | running user stage read =>
          simp only [KCProc.advance]
          split
          · exact ⟨h1, fun x hx => by cases hx⟩
          · rename_i us hus
            refine ⟨h1, fun x hx => ?_⟩
            cases hx
            intro jk hjk'
            cases stage <;> simp only [KCStage.compute, bind, Except.bind, pure, Except.pure] at hus <;> split at hus <;>
              cases hus <;> simp at hjk'
            rename_i jk' hpub
            exact publish_extra (by rw [hharm.1]; exact hharm.2) jk' hpub
        | writing us =>
          cases us with
          | nil => exact ⟨h1, fun x hx => by cases hx⟩
          | cons u us =>
            refine ⟨?_, fun x hx => ?_⟩
            · show (t.doc.apply u).jointKey = none
              cases u with
              | jointKey jk => exact absurd List.mem_cons_self (hharm jk)
              | _ => exact h1
            · cases hx
              exact fun jk hjk' => hharm jk (List.mem_cons_of_mem _ hjk')

/-! ### Looking -/

theorem run_append (s : KCSystem) (l l' : List KCEvent) :
    s.run E loads (l ++ l') = (s.run E loads l).run E loads l' := List.foldl_append

/-- A call of a browser changes neither who has joined nor the keys. -/
theorem onChanged_keeps (w : KCWorld) (user : String) (isAdmin : Bool) (nonces : Nat → Nat) :
    (w.onChanged E loads user isAdmin nonces).2.doc.joined = w.doc.joined ∧
    (w.onChanged E loads user isAdmin nonces).2.doc.keys = w.doc.keys ∧
    (w.onChanged E loads user isAdmin nonces).2.doc.guardianCount = w.doc.guardianCount ∧
    (w.onChanged E loads user isAdmin nonces).2.doc.quorum = w.doc.quorum := by
  unfold KCWorld.onChanged
  split
  · exact ⟨rfl, rfl, rfl, rfl⟩
  · rename_i st _
    split
    · exact ⟨rfl, rfl, rfl, rfl⟩
    · rename_i us hus
      cases st <;> simp only [KCStage.compute, bind, Except.bind, pure, Except.pure] at hus <;> split at hus <;> cases hus <;>
        exact ⟨rfl, rfl, rfl, rfl⟩

/-- C71 However often the browsers look at the document, they change neither who has joined nor the keys in it, nor any private
file. -/
theorem C71_looking_keeps (s : KCSystem) (hrest : s.procs = []) (l : List (String × Bool × (Nat → Nat))) :
    let s' := s.run E loads (l.flatMap KCEvent.whole)
    s'.doc.joined = s.doc.joined ∧ s'.doc.keys = s.doc.keys ∧ s'.doc.guardianCount = s.doc.guardianCount ∧
    s'.doc.quorum = s.doc.quorum ∧ s'.files = s.files ∧ s'.procs = [] := by
  obtain ⟨d, files, procs⟩ := s
  simp only at hrest
  subst hrest
  simp only
  induction l generalizing d with
  | nil => exact ⟨rfl, rfl, rfl, rfl, rfl, rfl⟩
  | cons x l ih =>
    rw [List.flatMap_cons, run_append, whole_run]
    obtain ⟨h1, h2, h3, h4⟩ := onChanged_keeps (E := E) (loads := loads) ⟨d, files⟩ x.1 x.2.1 x.2.2
    obtain ⟨g1, g2, g3, g4, g5, g6⟩ := ih (KCWorld.onChanged E loads ⟨d, files⟩ x.1 x.2.1 x.2.2).2.doc
    exact ⟨g1.trans h1, g2.trans h2, g3.trans h3, g4.trans h4, g5, g6⟩

/-! ### Concrete ceremonies -/

/-- Random numbers for the key of a guardian. -/
def toyKeyRands (x : Nat) : Nat → Nat × Nat := fun i => if i = 0 then (x, 1) else (x + 2, 3)

/-- A user joins while nothing else happens. -/
def toyJoins (user : String) (x : Nat) : List KCEvent :=
  [.join user, .step 0 (toyKeyRands x) (fun _ => 0), .step 0 (toyKeyRands x) (fun _ => 0), .step 0 (toyKeyRands x) (fun _ => 0)]

/-- Two users join at the same time. -/
def toyJoinsTogether : List KCEvent :=
  [.join "a", .join "b", .step 1 (toyKeyRands 4) (fun _ => 0), .step 1 (toyKeyRands 4) (fun _ => 0),
    .step 0 (toyKeyRands 5) (fun _ => 0), .step 0 (toyKeyRands 4) (fun _ => 0), .step 0 (toyKeyRands 5) (fun _ => 0),
    .step 0 (toyKeyRands 5) (fun _ => 0)]

/-- The ceremony after they joined. -/
def toyKC : KCSystem := (KCSystem.init 2 2).run toyEnv strictLoads toyJoinsTogether

def toyLook (user : String) (isAdmin : Bool) : String × Bool × (Nat → Nat) := (user, isAdmin, fun i => i + 5)

/-- The browsers look, the guardians in different orders, and a stranger. -/
def toyLooks : List (String × Bool × (Nat → Nat)) :=
  [toyLook "b" false, toyLook "adm" true, toyLook "x" false, toyLook "b" false, toyLook "a" false, toyLook "adm" true,
    toyLook "a" false, toyLook "b" false, toyLook "adm" true]

/-- The ceremony at its end. -/
def toyKCDone : KCSystem := toyKC.run toyEnv strictLoads (toyLooks.flatMap KCEvent.whole)

-- the hypotheses of `C71_completes_partial`, and what it says
example : toyKC.procs.length = 0 ∧ toyKC.doc.joined = ["a", "b"] ∧ toyKC.doc.otherKeys.length = 0 ∧
    toyKC.doc.keys.map (fun k => (k.ownerId, k.sequenceOrder)) = [("b", 2), ("a", 1)] := by decide +kernel

theorem toyKCDone_complete : toyKCDone.doc.completed = true ∧ ∃ jk kps, toyKCDone.doc.jointKey = some jk ∧
    KeyHolders toyEnv strictLoads toyKCDone.doc toyKCDone.files jk kps := by
  have hj : toyKC.doc.joined = ["a", "b"] := by decide +kernel
  have hlook : EveryoneLooks toyKC.doc.joined [toyLook "x" false, toyLook "b" false, toyLook "a" false] := by
    rw [hj]
    intro id hid
    simp only [List.mem_cons, List.not_mem_nil, or_false] at hid
    rcases hid with rfl | rfl <;> exact ⟨_, by simp [toyLook]; rfl⟩
  have hlook' : EveryoneLooks toyKC.doc.joined [toyLook "a" false, toyLook "b" false] := by
    rw [hj]
    intro id hid
    simp only [List.mem_cons, List.not_mem_nil, or_false] at hid
    rcases hid with rfl | rfl <;> exact ⟨_, by simp [toyLook]; rfl⟩
  obtain ⟨h1, -, -, h2⟩ := C71_completes_partial (E := toyEnv) (loads := strictLoads) extraSmall_valid
    (fun _ _ => by simp [toyEnv]) strictLoads_reads (by decide +kernel) 2 2 (by decide) (by decide) (by decide +kernel)
    (by decide +kernel) toyJoinsTogether toyKC rfl (List.length_eq_zero_iff.1 (by decide +kernel)) (by decide +kernel)
    (by rw [hj]; decide) (by rw [hj]; decide)
    ⟨List.length_eq_zero_iff.1 (by decide +kernel), by decide +kernel, List.length_eq_zero_iff.1 (by decide +kernel),
      by decide +kernel, by decide +kernel⟩
    "adm" "adm" "adm" _ _ _ [toyLook "b" false] _ _ [] hlook hlook' toyKCDone rfl
  exact ⟨h1, h2⟩

theorem toyKC_files : toyKC.procs.length = 0 ∧ toyKC.doc.guardianCount = 2 ∧ toyKC.doc.quorum = 2 ∧
    toyKC.doc.joined = ["a", "b"] ∧
    toyKC.files.map (fun f => (f.1, f.2.electionKeys.keyPair.secret)) = [("b", 4), ("a", 5)] ∧
    toyKC.doc.keys.map (fun k => (k.ownerId, k.sequenceOrder, k.key)) = [("b", 2, 67), ("a", 1, 130)] := by decide +kernel

theorem toyKCDone_keeps : toyKCDone.procs = [] ∧ toyKCDone.doc.guardianCount = 2 ∧ toyKCDone.doc.quorum = 2 ∧
    toyKCDone.doc.joined = ["a", "b"] ∧ toyKCDone.files = toyKC.files ∧ toyKCDone.doc.keys = toyKC.doc.keys := by
  obtain ⟨h1, h2, h3, h4, -, -⟩ := toyKC_files
  obtain ⟨g1, g2, g3, g4, g5, g6⟩ := C71_looking_keeps (E := toyEnv) (loads := strictLoads) toyKC (List.length_eq_zero_iff.1 h1)
    toyLooks
  unfold toyKCDone
  exact ⟨g6, g3.trans h2, g4.trans h3, g1.trans h4, g5, g2⟩

-- the joint key
example : toyKCDone.doc.jointKey.map (fun k => k.jointPublicKey) = some (16 ^ 9 % 157) := by
  obtain ⟨-, jk, kps, h1, h2⟩ := toyKCDone_complete
  obtain ⟨-, hn, -, hj, hf, -⟩ := toyKCDone_keeps
  obtain ⟨-, -, -, -, hs, -⟩ := toyKC_files
  have hlen : kps.length = 2 := by
    have := h2.count
    omega
  have hids := h2.ids
  rw [hlen, hj] at hids
  have hget : ∀ id x, dget toyKC.files id = some x →
      (id, x.electionKeys.keyPair.secret) ∈ toyKC.files.map (fun f => (f.1, f.2.electionKeys.keyPair.secret)) :=
    fun id x h => List.mem_map.2 ⟨(id, x), mem_of_dget h, rfl⟩
  match kps, hlen with
  | [kp, kp'], _ =>
    simp only [List.map_cons, List.map_nil, List.take, List.cons.injEq, and_true] at hids
    obtain ⟨r, hr, hrk⟩ := h2.files kp (by simp)
    obtain ⟨r', hr', hrk'⟩ := h2.files kp' (by simp)
    rw [hf, hids.1] at hr
    rw [hf, hids.2] at hr'
    have e1 := hget _ _ hr
    have e2 := hget _ _ hr'
    rw [hs, hrk] at e1
    rw [hs, hrk'] at e2
    simp at e1 e2
    rw [h1, Option.map_some, h2.joint]
    simp [e1, e2, toyEnv, extraSmall]

/-- A user joins while nothing else happens. -/
theorem toyJoins_run (s : KCSystem) (hrest : s.procs = []) {user : String} {x : Nat} {w : KCWorld}
    (h : KCWorld.join toyEnv ⟨s.doc, s.files⟩ user (toyKeyRands x) = (.ok (), w)) :
    s.run toyEnv strictLoads (toyJoins user x) = ⟨w.doc, w.files, []⟩ := by
  obtain ⟨d, files, procs⟩ := s
  simp only at hrest h
  subst hrest
  unfold KCWorld.join at h
  simp only at h
  split at h
  · cases h
  · rename_i n hn
    split at h
    · cases h
    · rename_i g hg
      cases h
      simp only [toyJoins, KCSystem.run, List.foldl_cons, List.foldl_nil, KCSystem.event, List.nil_append,
        List.getElem?_cons_zero, KCProc.advance, hn, hg, Option.toList_some, List.eraseIdx_cons_zero, Option.toList_none]

/-- Guardian a joins once more. -/
def toyRejoined : KCSystem := toyKCDone.run toyEnv strictLoads (toyJoins "a" 7)

/-- The key it makes then. -/
theorem toyRejoined_guardian : (makeGuardian toyEnv "a" 1 2 2 (toyKeyRands 7)).toOption.map
    (fun g => (g.id, g.exportPrivate.electionKeys.share.key)) = some ("a", 16 ^ 7 % 157) := by decide +kernel

/-- What guardian a leaves when it joins once more. -/
theorem rejoin_facts {s : KCSystem} {k : ElectionPublicKey} (h1 : s.doc.completed = true) (h2 : s.doc.jointKey.isSome = true)
    (hp : s.procs = []) (hn : s.doc.guardianCount = 2) (hq : s.doc.quorum = 2) (hj : s.doc.joined = ["a", "b"])
    (hk : s.doc.keys.find? (fun k => k.ownerId == "a") = some k) {s' : KCSystem}
    (hs' : s' = s.run toyEnv strictLoads (toyJoins "a" 7)) :
    s'.doc.completed = true ∧ s'.doc.jointKey.isSome = true ∧ s'.doc.guardianCount = 2 ∧ s'.doc.joined = ["a", "b", "a"] ∧
    (dget s'.files "a").map (fun r => r.electionKeys.share.key) = some (16 ^ 7 % 157) ∧
    (s'.doc.findKey "a").toOption.map (fun k => k.key) = some k.key := by
  have hg := toyRejoined_guardian
  cases hm : makeGuardian toyEnv "a" 1 2 2 (toyKeyRands 7) with
  | error e => rw [hm] at hg; cases hg
  | ok g =>
    rw [hm] at hg
    simp only [Except.toOption, Option.map_some, Option.some.injEq, Prod.mk.injEq] at hg
    have hrun := toyJoins_run s hp (user := "a") (x := 7)
      (w := ⟨(s.doc.apply (.joined "a")).apply (.key g.shareKey), dset s.files g.id g.exportPrivate⟩) (by
        have : (s.doc.apply (.joined "a")).guardianNumber "a" = .ok 1 := by
          simp [KCDoc.apply, KCDoc.guardianNumber, hj]
        simp only [KCWorld.join, this]
        simp only [KCDoc.apply, hn, hq, hm])
    rw [hs', hrun]
    simp only [KCDoc.apply]
    refine ⟨h1, h2, hn, by simp [hj], ?_, ?_⟩
    · simp only [hg.1, dget_dset]
      simp [hg.2]
    · simp only [KCDoc.findKey, List.find?_append, hk, Option.some_or, Except.toOption, Option.map_some]

theorem toyKC_key : (toyKC.doc.keys.find? (fun k => k.ownerId == "a")).map (fun k => k.key) = some (16 ^ 5 % 157) := by
  decide +kernel

theorem toyRejoined_facts : toyRejoined.doc.completed = true ∧ toyRejoined.doc.jointKey.isSome = true ∧
    toyRejoined.doc.guardianCount = 2 ∧ toyRejoined.doc.joined = ["a", "b", "a"] ∧
    (dget toyRejoined.files "a").map (fun r => r.electionKeys.share.key) = some (16 ^ 7 % 157) ∧
    (toyRejoined.doc.findKey "a").toOption.map (fun k => k.key) = some (16 ^ 5 % 157) := by
  obtain ⟨h1, jk, kps, h2, -⟩ := toyKCDone_complete
  obtain ⟨hp, hn, hq, hj, hf, hk⟩ := toyKCDone_keeps
  have hkey := toyKC_key
  rw [← hk] at hkey
  obtain ⟨k, hfind, hkk⟩ := Option.map_eq_some_iff.1 hkey
  have := rejoin_facts h1 (by rw [h2]; rfl) hp hn hq hj hfind (s' := toyRejoined) rfl
  rw [hkk] at this
  exact this

/-- Nobody holds a key if the file of the first guardian has another key than the document. -/
theorem not_holders {s : KCSystem} {jk : ElectionJointKey} {l : List String} {x y : Nat} (hn : s.doc.guardianCount = 2)
    (hj : s.doc.joined = "a" :: l) (hf : (dget s.files "a").map (fun r => r.electionKeys.share.key) = some x)
    (hk : (s.doc.findKey "a").toOption.map (fun k => k.key) = some y) (hne : x ≠ y) :
    ¬ ∃ kps, KeyHolders E loads s.doc s.files jk kps := by
  rintro ⟨kps, h⟩
  have hlen : kps.length = 2 := by
    have := h.count
    omega
  have hids := h.ids
  rw [hlen, hj] at hids
  have ha : "a" ∈ kps.map (fun kp => kp.ownerId) := by rw [hids]; simp
  obtain ⟨kp, hkp, hid⟩ := List.mem_map.1 ha
  obtain ⟨r, hr, hrk⟩ := h.files kp hkp
  have hpub := h.published kp hkp
  rw [hid] at hr hpub
  rw [← hrk] at hpub
  rw [hr] at hf
  rw [hpub] at hk
  simp only [Except.toOption, Option.map_some, Option.some.injEq] at hf hk
  exact hne (hf.symm.trans hk)

/-- C71 (negative) A guardian that joins a second time, here after the joint key was published, overwrites its private file: nobody
holds the key that the document shows any longer. -/
theorem C71_rejoined_fails : ∃ (evs : List KCEvent) (s : KCSystem) (jk : ElectionJointKey),
    s = (KCSystem.init 2 2).run toyEnv strictLoads evs ∧ s.doc.completed = true ∧ s.doc.jointKey = some jk ∧
    ¬ ∃ kps, KeyHolders toyEnv strictLoads s.doc s.files jk kps := by
  obtain ⟨h1, h2, h3, h4, h5, h6⟩ := toyRejoined_facts
  obtain ⟨jk, hjk⟩ := Option.isSome_iff_exists.1 h2
  exact ⟨toyJoinsTogether ++ (toyLooks.flatMap KCEvent.whole ++ toyJoins "a" 7), toyRejoined, jk,
    by rw [run_append, run_append]; rfl, h1, hjk, not_holders h3 h4 h5 h6 (by decide)⟩

/-- What happens when guardian a has two sessions open and both make backups before guardian b. -/
def toyRace : List KCEvent :=
  KCEvent.whole (toyLook "adm" true) ++
    [.poll "a" false, .poll "a" false, .step 0 (fun _ => (0, 0)) (fun i => i + 5), .step 0 (fun _ => (0, 0)) (fun i => i + 6),
      .step 0 (fun _ => (0, 0)) (fun _ => 0), .step 0 (fun _ => (0, 0)) (fun _ => 0), .step 0 (fun _ => (0, 0)) (fun _ => 0),
      .step 0 (fun _ => (0, 0)) (fun _ => 0)]

/-- The ceremony afterwards. -/
def toyTwoSessions : KCSystem := toyKC.run toyEnv strictLoads toyRace

theorem toyTwoSessions_facts : toyTwoSessions.doc.joined = ["a", "b"] ∧ toyTwoSessions.procs.length = 0 ∧
    toyTwoSessions.doc.jointKey = none ∧ toyTwoSessions.doc.state = .pendingAdminToShareBackups ∧
    toyTwoSessions.doc.shareBackups.toBool = false := by decide +kernel

/-- Nothing happens any more when the backups cannot be shared. -/
theorem stuck_sharing {s : KCSystem} (hp : s.procs = []) (hst : s.doc.state = .pendingAdminToShareBackups)
    (hsh : s.doc.shareBackups.toBool = false) (l : List (String × Bool × (Nat → Nat))) :
    s.run E loads (l.flatMap KCEvent.whole) = s := by
  obtain ⟨d, files, procs⟩ := s
  simp only at hp hst hsh
  subst hp
  obtain ⟨e, he⟩ : ∃ e, d.shareBackups = .error e := by
    cases h : d.shareBackups with
    | error e => exact ⟨e, rfl⟩
    | ok x => rw [h] at hsh; cases hsh
  induction l with
  | nil => rfl
  | cons x l ih =>
    rw [List.flatMap_cons, run_append, whole_run]
    have : (KCWorld.onChanged E loads ⟨d, files⟩ x.1 x.2.1 x.2.2).2.doc = d := by
      unfold KCWorld.onChanged
      rw [stage_eq, hst]
      cases x.2.1 with
      | false => rfl
      | true => simp only [if_true, KCStage.compute, he, bind, Except.bind]
    rw [this]
    exact ih

/-- C71 (negative) When two sessions of a guardian make its backups at the same time, the backups are counted twice: the ceremony
does not wait for the other guardian, the administrator cannot share the backups, and nothing any browser does gets it any
further. -/
theorem C71_two_sessions_fails : ∃ (evs : List KCEvent) (s : KCSystem),
    s = (KCSystem.init 2 2).run toyEnv strictLoads evs ∧ s.doc.joined = ["a", "b"] ∧ s.procs = [] ∧ s.doc.jointKey = none ∧
    ∀ l : List (String × Bool × (Nat → Nat)), s.run toyEnv strictLoads (l.flatMap KCEvent.whole) = s := by
  obtain ⟨h1, h2, h3, h4, h5⟩ := toyTwoSessions_facts
  have hp := List.length_eq_zero_iff.1 h2
  exact ⟨toyJoinsTogether ++ toyRace, toyTwoSessions, by rw [run_append]; rfl, h1, hp, h3, stuck_sharing hp h4 h5⟩

-- `C71_extra_guardian_blocks`: a third guardian joins a ceremony for two
example : toyKC.doc.jointKey = none ∧ toyKC.procs.length = 0 ∧
    (toyKC.run toyEnv strictLoads (toyJoins "c" 3)).doc.guardianCount
      < ((toyKC.run toyEnv strictLoads (toyJoins "c" 3)).doc.joined.toFinset.card : Int) := by decide +kernel

end EG
