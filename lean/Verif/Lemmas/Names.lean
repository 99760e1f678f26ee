import Verif.Spec.Names
import Verif.Lemmas.Decryption
import Verif.Lemmas.Dict
import Verif.Lemmas.KeyCeremonyMediator
import Verif.Lemmas.Reconstruct

/-!
# Lemmas about the dictionaries of names and the reports
-/

namespace EG

/-- A dictionary that is filled in a loop has the last value for each key. -/
theorem dget_foldl_last {α β : Type} (key : α → String) (f : α → β) (l : List α) (d : List (String × β)) (k : String) :
    dget (l.foldl (fun d e => dset d (key e) (f e)) d) k
      = ((l.reverse.find? (fun e => key e == k)).map f).or (dget d k) := by
  induction l using List.reverseRecOn with
  | nil => simp
  | append_singleton l a ih =>
    rw [List.foldl_append, List.foldl_cons, List.foldl_nil, dget_dset, ih, List.reverse_append]
    simp only [List.reverse_cons, List.reverse_nil, List.nil_append, List.cons_append, List.find?_cons]
    by_cases h : key a = k
    · simp [h]
    · rw [if_neg h, (by simpa using h : (key a == k) = false)]

/-- If the keys are distinct, every entry is found. -/
theorem dget_foldl_of_mem {α β : Type} (key : α → String) (f : α → β) (l : List α) (hn : (l.map key).Nodup) (a : α) (ha : a ∈ l) :
    dget (l.foldl (fun d e => dset d (key e) (f e)) []) (key a) = some (f a) := by
  rw [dget_foldl_last]
  cases h : l.reverse.find? (fun e => key e == key a) with
  | none =>
    have := List.find?_eq_none.1 h a (List.mem_reverse.2 ha)
    simp at this
  | some b =>
    have h1 := List.find?_some h
    have h2 := List.mem_reverse.1 (List.mem_of_find?_eq_some h)
    have : b = a := List.inj_on_of_nodup_map hn h2 ha (by simpa using h1)
    rw [this]
    simp [dget_nil]

theorem dget_foldl_of_not_mem {α β : Type} (key : α → String) (f : α → β) (l : List α) (k : String) (hk : ∀ a ∈ l, key a ≠ k) :
    dget (l.foldl (fun d e => dset d (key e) (f e)) []) k = none := by
  rw [dget_foldl_last]
  have : l.reverse.find? (fun e => key e == k) = none := by
    rw [List.find?_eq_none]
    intro a ha
    simpa using hk a (List.mem_reverse.1 ha)
  rw [this]
  rfl

/-- Every key of the loop is in the dictionary. -/
theorem dget_foldl_isSome {α β : Type} (key : α → String) (f : α → β) (l : List α) (a : α) (ha : a ∈ l) :
    ∃ v, dget (l.foldl (fun d e => dset d (key e) (f e)) []) (key a) = some v := by
  rw [dget_foldl_last]
  cases h : l.reverse.find? (fun e => key e == key a) with
  | none =>
    have := List.find?_eq_none.1 h a (List.mem_reverse.2 ha)
    simp at this
  | some b => exact ⟨f b, by simp⟩

/-- The nested loops over contests and selections are one loop. -/
theorem foldl_selections {β : Type} (f : β → SelectionDescription → β) (cs : List ContestDescription) (d : β) :
    cs.foldl (fun d c => c.ballotSelections.foldl f d) d = (cs.flatMap (fun c => c.ballotSelections)).foldl f d := by
  induction cs generalizing d with
  | nil => rfl
  | cons c cs ih => rw [List.foldl_cons, ih, List.flatMap_cons, List.foldl_append]

theorem foldlM_selections {β : Type} (f : β → SelectionDescription → R β) (cs : List ContestDescription) (d : β) :
    cs.foldlM (fun d c => c.ballotSelections.foldlM f d) d = (cs.flatMap (fun c => c.ballotSelections)).foldlM f d := by
  induction cs generalizing d with
  | nil => rfl
  | cons c cs ih =>
    rw [List.foldlM_cons, List.flatMap_cons, List.foldlM_append]
    congr 1
    funext d
    exact ih d

/-- A loop whose values can all be computed. -/
theorem foldlM_dset {α β : Type} (key : α → String) (f : α → R β) (g : α → β) (l : List α) (hl : ∀ a ∈ l, f a = .ok (g a))
    (d : List (String × β)) :
    l.foldlM (fun d e => do return dset d (key e) (← f e)) d
      = (.ok (l.foldl (fun d e => dset d (key e) (g e)) d) : R (List (String × β))) := by
  induction l generalizing d with
  | nil => rfl
  | cons a l ih =>
    rw [List.foldlM_cons, hl a List.mem_cons_self, List.foldl_cons]
    exact ih (fun b hb => hl b (List.mem_cons_of_mem _ hb)) _

/-- A loop with a value that cannot be computed, if every failure is the same error. -/
theorem foldlM_dset_error {α β : Type} (key : α → String) (f : α → R β) (er : Err) (l : List α)
    (hl : ∀ a ∈ l, (∃ b, f a = .ok b) ∨ f a = .error er) (hbad : ∃ a ∈ l, f a = .error er) (d : List (String × β)) :
    l.foldlM (fun d e => do return dset d (key e) (← f e)) d = (.error er : R (List (String × β))) := by
  induction l generalizing d with
  | nil => obtain ⟨a, ha, -⟩ := hbad; cases ha
  | cons a l ih =>
    rw [List.foldlM_cons]
    rcases hl a List.mem_cons_self with ⟨b, hb⟩ | hb
    · rw [hb]
      refine ih (fun c hc => hl c (List.mem_cons_of_mem _ hc)) ?_ _
      obtain ⟨c, hc, hce⟩ := hbad
      rcases List.mem_cons.1 hc with rfl | hc
      · rw [hb] at hce; cases hce
      · exact ⟨c, hc, hce⟩
    · rw [hb]; rfl

theorem mapM_relates {α β : Type} {f : α → R β} {p : α → β → Prop} (l : List α) (h : ∀ a ∈ l, ∃ b, f a = .ok b ∧ p a b) :
    ∃ out, l.mapM f = .ok out ∧ List.Forall₂ p l out := by
  induction l with
  | nil => exact ⟨[], rfl, .nil⟩
  | cons a l ih =>
    obtain ⟨b, hb, hp⟩ := h a List.mem_cons_self
    obtain ⟨out, ho, hf⟩ := ih (fun c hc => h c (List.mem_cons_of_mem _ hc))
    refine ⟨b :: out, ?_, .cons hp hf⟩
    rw [List.mapM_cons, hb, ho]
    rfl

/-! ### Names -/

theorem getName_of_named {m : Manifest} (h : m.Named) : ∃ n, m.getName = .ok n := by
  unfold Manifest.getName
  cases hn : m.name with
  | none => exact ⟨"", rfl⟩
  | some t =>
    cases ht : t.text with
    | nil => exact absurd ht (h t hn)
    | cons l ls => exact ⟨l.value, by simp [ht]⟩

theorem getName_of_not_named {m : Manifest} (h : ¬ m.Named) : m.getName = .error .index := by
  unfold Manifest.Named at h
  push Not at h
  obtain ⟨t, h1, h2⟩ := h
  unfold Manifest.getName
  rw [h1]
  simp [h2]

theorem getI8nValue_says {t : InternationalizedText} {lang default v : String} (h : t.Says lang v) : getI8nValue t lang default = v := by
  obtain ⟨pre, post, l, h1, h2, h3, h4⟩ := h
  unfold getI8nValue
  have : t.text.find? (fun t => t.language == lang) = some l := by
    rw [h1, List.find?_append]
    have : pre.find? (fun t => t.language == lang) = none := by
      rw [List.find?_eq_none]; intro x hx; simpa using h2 x hx
    rw [this]
    simp [h3]
  simp only [this]
  simp [h4]

theorem getI8nValue_default {t : InternationalizedText} {lang default : String} (h : ∀ v, ¬ t.Says lang v) :
    getI8nValue t lang default = default := by
  unfold getI8nValue
  cases hf : t.text.find? (fun t => t.language == lang) with
  | none => simp
  | some l =>
    simp only
    obtain ⟨hp, pre, post, h1, h2⟩ := List.find?_eq_some_iff_append.1 hf
    by_cases hv : l.value = ""
    · simp [hv]
    · exact absurd (InternationalizedText.Says.first pre post l h1 (fun x hx => by simpa using h2 x hx) (by simpa using hp) hv)
        (h l.value)

theorem Candidate.shown (c : Candidate) (lang : String) : c.Shown lang (c.getName lang) := by
  unfold Candidate.getName
  by_cases h : c.isWriteIn = some true
  · rw [if_pos (by simpa using h)]
    exact .writeIn h
  · rw [if_neg (by simpa using h)]
    by_cases hs : ∃ v, c.name.Says lang v
    · obtain ⟨v, hv⟩ := hs
      rw [getI8nValue_says hv]
      exact .name v h hv
    · have hs' : ∀ v, ¬ c.name.Says lang v := fun v hv => hs ⟨v, hv⟩
      rw [getI8nValue_default hs']
      exact .id h hs'

theorem selectionsWithCandidateId_eq (m : Manifest) : m.getSelectionsWithCandidateId
    = (m.contests.flatMap (fun c => c.ballotSelections)).foldl (fun d s => dset d s.objectId s.candidateId) [] := by
  unfold Manifest.getSelectionsWithCandidateId
  exact foldl_selections _ _ _

theorem dget_replaceCandidateIds (ss cs : List (String × String)) (k : String) :
    dget (replaceCandidateIds ss cs) k = (dget ss k).map (fun c => (dget cs c).getD c) := by
  have : replaceCandidateIds ss cs = ss.map (fun e => (e.1, (dget cs e.2).getD e.2)) := by
    unfold replaceCandidateIds
    refine List.map_congr_left (fun e _ => ?_)
    cases dget cs e.2 <;> rfl
  rw [this, dget_map_snd']

/-- Every selection of the manifest has a name. -/
theorem selectionName_isSome (m : Manifest) (lang : String) {c : ContestDescription} (hc : c ∈ m.contests)
    {s : SelectionDescription} (hs : s ∈ c.ballotSelections) : ∃ n, dget (m.getSelectionNames lang) s.objectId = some n := by
  unfold Manifest.getSelectionNames
  rw [dget_replaceCandidateIds, selectionsWithCandidateId_eq]
  obtain ⟨v, hv⟩ := dget_foldl_isSome (fun s : SelectionDescription => s.objectId) (fun s => s.candidateId)
    (m.contests.flatMap (fun c => c.ballotSelections)) s (List.mem_flatMap.2 ⟨c, hc, hs⟩)
  exact ⟨_, by rw [hv]; rfl⟩

theorem flatMap_ids (m : Manifest) : (m.contests.flatMap (fun c => c.ballotSelections)).map SelectionDescription.objectId
    = m.contests.flatMap (fun c => c.ballotSelections.map SelectionDescription.objectId) := by
  rw [List.map_flatMap]

/-- The name of a selection. -/
theorem selectionName_eq (m : Manifest) (lang : String) (hd : m.DistinctSelections) {c : ContestDescription}
    (hc : c ∈ m.contests) {s : SelectionDescription} (hs : s ∈ c.ballotSelections) :
    dget (m.getSelectionNames lang) s.objectId
      = some ((dget (m.getCandidateNames lang) s.candidateId).getD s.candidateId) := by
  unfold Manifest.getSelectionNames
  rw [dget_replaceCandidateIds, selectionsWithCandidateId_eq,
    dget_foldl_of_mem (fun s : SelectionDescription => s.objectId) (fun s => s.candidateId) _
      (by rw [show (fun s : SelectionDescription => s.objectId) = SelectionDescription.objectId from rfl, flatMap_ids]; exact hd) s
      (List.mem_flatMap.2 ⟨c, hc, hs⟩)]
  rfl

theorem candidateName_eq (m : Manifest) (lang : String) (hn : (m.candidates.map Candidate.objectId).Nodup) {k : Candidate}
    (hk : k ∈ m.candidates) : dget (m.getCandidateNames lang) k.objectId = some (k.getName lang) :=
  dget_foldl_of_mem (fun k : Candidate => k.objectId) (fun k => k.getName lang) _ hn k hk

theorem candidateName_none (m : Manifest) (lang : String) (id : String) (h : ∀ k ∈ m.candidates, k.objectId ≠ id) :
    dget (m.getCandidateNames lang) id = none :=
  dget_foldl_of_not_mem (fun k : Candidate => k.objectId) (fun k => k.getName lang) _ _ h

theorem selection_shown (m : Manifest) (hd : m.DistinctSelections) (hn : (m.candidates.map Candidate.objectId).Nodup)
    {c : ContestDescription} (hc : c ∈ m.contests) {s : SelectionDescription} (hs : s ∈ c.ballotSelections) :
    ∃ n, dget (m.getSelectionNames "en") s.objectId = some n ∧ m.ShowsSelection s n := by
  rw [selectionName_eq m "en" hd hc hs]
  refine ⟨_, rfl, ?_⟩
  by_cases h : ∃ k ∈ m.candidates, k.objectId = s.candidateId
  · obtain ⟨k, hk, hke⟩ := h
    rw [← hke, candidateName_eq m "en" hn hk]
    exact Or.inl ⟨k, hk, hke, k.shown "en"⟩
  · have h' : ∀ k ∈ m.candidates, k.objectId ≠ s.candidateId := fun k hk he => h ⟨k, hk, he⟩
    rw [candidateName_none m "en" _ h']
    exact Or.inr ⟨h', rfl⟩

theorem contestName_eq (m : Manifest) (hn : (m.contests.map ContestDescription.objectId).Nodup) {c : ContestDescription}
    (hc : c ∈ m.contests) : dget m.getContestNames c.objectId = some c.name :=
  dget_foldl_of_mem (fun c : ContestDescription => c.objectId) (fun c => c.name) _ hn c hc

/-! ### Parties and write-ins -/

theorem writeIns_ok (m : Manifest) (hk : m.KnownCandidates) (hn : (m.candidates.map Candidate.objectId).Nodup)
    (hd : m.DistinctSelections) : ∃ w, getCandidateWriteIns m = .ok w ∧ ∀ c ∈ m.contests, ∀ s ∈ c.ballotSelections,
      ∀ k ∈ m.candidates, k.objectId = s.candidateId → dget w s.objectId = some (k.isWriteIn == some true) := by
  unfold getCandidateWriteIns
  simp only []
  rw [foldlM_selections (fun d s => do return dset d s.objectId (← dgetR _ s.candidateId))]
  have key : ∀ k ∈ m.candidates, dget (m.candidates.foldl (fun d c => dset d c.objectId (c.isWriteIn == some true)) []) k.objectId
      = some (k.isWriteIn == some true) := fun k hk =>
    dget_foldl_of_mem (fun k : Candidate => k.objectId) (fun k => k.isWriteIn == some true) _ hn k hk
  rw [foldlM_dset (fun s : SelectionDescription => s.objectId) _
    (fun s => (dget (m.candidates.foldl (fun d c => dset d c.objectId (c.isWriteIn == some true)) []) s.candidateId).getD false)]
  · refine ⟨_, rfl, fun c hc s hs k hk hks => ?_⟩
    rw [dget_foldl_of_mem (fun s : SelectionDescription => s.objectId) _ _
      (by rw [show (fun s : SelectionDescription => s.objectId) = SelectionDescription.objectId from rfl, flatMap_ids]; exact hd) s
      (List.mem_flatMap.2 ⟨c, hc, hs⟩), ← hks, key k hk]
    rfl
  · intro s hs
    obtain ⟨c, hc, hs⟩ := List.mem_flatMap.1 hs
    obtain ⟨k, hkm, hks⟩ := hk c hc s hs
    rw [← hks, key k hkm, dgetR_some (key k hkm)]
    rfl

theorem writeIns_error (m : Manifest) (hk : ¬ m.KnownCandidates) : getCandidateWriteIns m = .error .key := by
  unfold getCandidateWriteIns
  simp only []
  rw [foldlM_selections (fun d s => do return dset d s.objectId (← dgetR _ s.candidateId))]
  refine foldlM_dset_error (fun s : SelectionDescription => s.objectId) _ .key _ (fun s _ => ?_) ?_ []
  · unfold dgetR
    split
    · exact Or.inl ⟨_, rfl⟩
    · exact Or.inr rfl
  · unfold Manifest.KnownCandidates at hk
    push Not at hk
    obtain ⟨c, hc, s, hs, h⟩ := hk
    refine ⟨s, List.mem_flatMap.2 ⟨c, hc, hs⟩, ?_⟩
    unfold dgetR
    rw [dget_foldl_of_not_mem (fun k : Candidate => k.objectId) (fun k => k.isWriteIn == some true) _ _ h]

theorem candidateParties_ok (parties : List (String × String)) (l : List Candidate)
    (hl : ∀ c ∈ l, ∀ p, c.partyId = some p → ∃ v, dget parties p = some v) (d : List (String × String)) :
    l.foldlM (addCandidateParty parties) d = .ok ((l.filter (fun c => c.partyId.isSome)).foldl
        (fun d c => dset d c.objectId ((dget parties (c.partyId.getD "")).getD "")) d) := by
  induction l generalizing d with
  | nil => rfl
  | cons c l ih =>
    have ih' := fun d => ih (fun c hc => hl c (List.mem_cons_of_mem _ hc)) d
    rw [List.foldlM_cons]
    unfold addCandidateParty
    cases hp : c.partyId with
    | none => exact (ih' d).trans (by simp [hp])
    | some p =>
      obtain ⟨v, hv⟩ := hl c List.mem_cons_self p hp
      simp only [dgetR_some hv]
      exact (ih' _).trans (by simp [hp, hv])

theorem parties_ok (m : Manifest) (ok : ManifestOk m) (hd : m.DistinctSelections) :
    ∃ ps, getSelectionParties m = .ok ps ∧ ∀ c ∈ m.contests, ∀ s ∈ c.ballotSelections, ∀ k ∈ m.candidates,
      k.objectId = s.candidateId → ∃ n, dget ps s.objectId = some n ∧ m.ShowsParty k n := by
  unfold getSelectionParties
  simp only []
  have key : ∀ p ∈ m.parties, dget (m.parties.foldl (fun d p => dset d p.objectId (getI8nValue p.name "en" "")) []) p.objectId
      = some (getI8nValue p.name "en" "") := fun p hp =>
    dget_foldl_of_mem (fun p : Party => p.objectId) (fun p => getI8nValue p.name "en" "") _ ok.partyIds p hp
  rw [candidateParties_ok _ m.candidates (by
    intro c hc p hp
    obtain ⟨u, hu, rfl⟩ := ok.candidateParty c hc p hp
    exact ⟨_, key u hu⟩)]
  refine ⟨_, rfl, fun c hc s hs k hk hks => ?_⟩
  rw [foldl_selections, dget_foldl_of_mem (fun s : SelectionDescription => s.objectId) _ _
      (by rw [show (fun s : SelectionDescription => s.objectId) = SelectionDescription.objectId from rfl, flatMap_ids]; exact hd) s
      (List.mem_flatMap.2 ⟨c, hc, hs⟩)]
  refine ⟨_, rfl, ?_⟩
  cases hp : k.partyId with
  | none =>
    refine Or.inl ⟨hp, ?_⟩
    rw [dget_foldl_of_not_mem (fun k : Candidate => k.objectId)]
    · rfl
    · intro a ha he
      obtain ⟨ha1, ha2⟩ := List.mem_filter.1 ha
      have : a = k := List.inj_on_of_nodup_map ok.candidateIds ha1 hk (he.trans hks.symm)
      rw [this, hp] at ha2
      cases ha2
  | some p =>
    obtain ⟨u, hu, rfl⟩ := ok.candidateParty k hk p hp
    refine Or.inr ⟨u, hu, hp, ?_⟩
    rw [← hks, dget_foldl_of_mem (fun k : Candidate => k.objectId) _ _
      ((List.filter_sublist.map _).nodup ok.candidateIds) k (List.mem_filter.2 ⟨hk, by rw [hp]; rfl⟩)]
    simp only [hp, Option.getD_some, key u hu]
    by_cases hs : ∃ v, u.name.Says "en" v
    · obtain ⟨v, hv⟩ := hs
      rw [getI8nValue_says hv]
      exact Or.inl hv
    · have hs' : ∀ v, ¬ u.name.Says "en" v := fun v hv => hs ⟨v, hv⟩
      rw [getI8nValue_default hs']
      exact Or.inr ⟨hs', rfl⟩

/-! ### What a decryption contains -/

theorem decryptSelectionsLoop_keys {E : Env} {maxE : Nat} {shares : List (String × DecShare)} {bh : Nat} {ids : List String}
    (ss : List CtSelection) (d r : List (String × PTSelection))
    (h : decryptSelectionsLoop E maxE shares bh ids true ss d = .ok (some r)) (hn : (dkeys d).Nodup)
    (hd : ∀ s ∈ d, s.2.objectId = s.1 ∧ s.1 ∈ ids) : (dkeys r).Nodup ∧ ∀ s ∈ r, s.2.objectId = s.1 ∧ s.1 ∈ ids := by
  induction ss generalizing d with
  | nil => unfold decryptSelectionsLoop at h; cases h; exact ⟨hn, hd⟩
  | cons s ss ih =>
    unfold decryptSelectionsLoop at h
    split at h
    · exact ih d h hn hd
    · rename_i hin
      have hin' : s.objectId ∈ ids := by
        by_contra hc
        exact hin ⟨hc, rfl⟩
      simp only [bind, Except.bind] at h
      cases hp : decryptSelectionWithShares E maxE s (getSharesForSelection s.objectId shares) bh with
      | error e => rw [hp] at h; cases h
      | ok o =>
        rw [hp] at h
        cases o with
        | none => cases h
        | some p =>
          have hid : p.objectId = s.objectId := by
            unfold decryptSelectionWithShares at hp
            split at hp
            · cases hp
            · simp only [bind, Except.bind] at hp
              split at hp
              · cases hp
              · split at hp
                · cases hp
                · cases hp; rfl
          refine ih (dset d p.objectId p) h (dset_nodup hn _ _) ?_
          intro e he
          rcases mem_dset he with he | he
          · rw [he]; exact ⟨rfl, by rw [hid]; exact hin'⟩
          · exact hd e he

theorem decryptContestsLoop_from {E : Env} {maxE : Nat} {shares : List (String × DecShare)} {bh : Nat} {m : Manifest}
    (cs : List CtContest) (d r : List (String × PTContest))
    (h : decryptContestsLoop E maxE shares bh m true cs d = .ok (some r)) (i j : String)
    (hd : (PlaintextTally.mk i d).FromManifest m) : (PlaintextTally.mk j r).FromManifest m := by
  induction cs generalizing d with
  | nil => unfold decryptContestsLoop at h; cases h; exact hd
  | cons c cs ih =>
    unfold decryptContestsLoop at h
    split at h
    · exact ih d h hd
    · rename_i des hdes
      simp only [bind, Except.bind] at h
      cases hp : decryptContestWithShares E maxE c shares bh des true with
      | error e => rw [hp] at h; cases h
      | ok o =>
        rw [hp] at h
        cases o with
        | none => cases h
        | some p =>
          refine ih (dset d c.objectId p) h ⟨dset_nodup hd.1 _ _, ?_⟩
          intro e he
          rcases mem_dset he with he | he
          · unfold decryptContestWithShares at hp
            simp only [bind, Except.bind] at hp
            split at hp
            · cases hp
            · rename_i o' ho'
              cases o' with
              | none => cases hp
              | some ss =>
                cases hp
                obtain ⟨k1, k2⟩ := decryptSelectionsLoop_keys c.selections [] ss ho' (by simp [dkeys]) (by simp)
                rw [contestDescriptions_get] at hdes
                have hmem := List.mem_reverse.1 (List.mem_of_find?_eq_some hdes)
                have hide := List.find?_some hdes
                rw [he]
                exact ⟨rfl, k1, des, hmem, by simpa using hide, k2⟩
          · exact hd.2 e he

theorem decryptTally_from {E : Env} {maxE : Nat} {t : Tally} {shares : List (String × DecShare)} {bh : Nat} {m : Manifest}
    {pt : PlaintextTally} (h : decryptTally E maxE t shares bh m = .ok (some pt)) : pt.FromManifest m := by
  unfold decryptTally at h
  simp only [bind, Except.bind] at h
  split at h
  · cases h
  · rename_i o ho
    cases o with
    | none => cases h
    | some cs =>
      cases h
      exact decryptContestsLoop_from _ [] _ ho "" _ ⟨by simp [dkeys], by simp⟩

theorem decryptBallot_from {E : Env} {maxE : Nat} {b : SBallot} {shares : List (String × DecShare)} {bh : Nat} {m : Manifest}
    {pt : PlaintextTally} (h : decryptBallotWithShares E maxE b shares bh m = .ok (some pt)) : pt.FromManifest m := by
  unfold decryptBallotWithShares at h
  simp only [bind, Except.bind] at h
  split at h
  · cases h
  · rename_i o ho
    cases o with
    | none => cases h
    | some cs =>
      cases h
      exact decryptContestsLoop_from _ [] _ ho "" _ ⟨by simp [dkeys], by simp⟩

end EG
