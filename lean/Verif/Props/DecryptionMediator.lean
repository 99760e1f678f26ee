import Verif.Props.Decryption
import Verif.Spec.ToyDecryption

/-!
# C15, C16, C17, C48 and C49: the decryption mediator
-/

namespace EG

variable {E : Env} {P : Params}

/-! ### The effect of the calls on the fields -/

theorem DM.saveBallotShares_fields (s : DM) (id : String) (bs : List (String × Option DecShare)) :
    (s.saveBallotShares id bs).available = s.available ∧ (s.saveBallotShares id bs).missing = s.missing ∧
    (s.saveBallotShares id bs).tallyShares = s.tallyShares ∧ (s.saveBallotShares id bs).compTally = s.compTally :=
  ⟨rfl, rfl, rfl, rfl⟩

theorem DM.announce_of_mem (s : DM) (k : ElectionPublicKey) (sh : DecShare)
    (bs : Option (List (String × Option DecShare))) (h : k.ownerId ∈ dkeys s.available) : s.announce k sh bs = s :=
  if_pos h

theorem DM.announce_fields (s : DM) (k : ElectionPublicKey) (sh : DecShare)
    (bs : Option (List (String × Option DecShare))) (h : k.ownerId ∉ dkeys s.available) :
    (s.announce k sh bs).available = dset s.available k.ownerId k ∧
    (s.announce k sh bs).missing = ddel s.missing k.ownerId ∧
    (s.announce k sh bs).tallyShares = dset s.tallyShares k.ownerId sh ∧
    (s.announce k sh bs).compTally = s.compTally := by
  unfold DM.announce
  rw [if_neg h]
  cases bs <;> exact ⟨rfl, rfl, rfl, rfl⟩

theorem DM.announceMissing_fields (s : DM) (k : ElectionPublicKey) :
    (s.announceMissing k).available = s.available ∧ (s.announceMissing k).tallyShares = s.tallyShares ∧
    (s.announceMissing k).compTally = s.compTally ∧
    (s.announceMissing k).missing = if k.ownerId ∈ dkeys s.available then s.missing else dset s.missing k.ownerId k := by
  unfold DM.announceMissing
  split <;> exact ⟨rfl, rfl, rfl, rfl⟩

theorem reconstructBallotsLoop_fields (lagrange : List (String × Nat)) (bs : List SBallot) (s : DM) :
    (reconstructBallotsLoop P lagrange bs s).2.available = s.available ∧
    (reconstructBallotsLoop P lagrange bs s).2.missing = s.missing ∧
    (reconstructBallotsLoop P lagrange bs s).2.tallyShares = s.tallyShares ∧
    (reconstructBallotsLoop P lagrange bs s).2.compTally = s.compTally := by
  induction bs generalizing s with
  | nil => exact ⟨rfl, rfl, rfl, rfl⟩
  | cons b bs ih =>
    unfold reconstructBallotsLoop
    cases dgetR s.ballotShares b.objectId with
    | error e => exact ⟨rfl, rfl, rfl, rfl⟩
    | ok shares =>
      simp only
      cases (reconstructBallotLoop P b lagrange s.compBallot s.missing shares).1 with
      | error e => exact ⟨rfl, rfl, rfl, rfl⟩
      | ok _ => exact ih _

theorem DM.reconstructBallots_fields (s : DM) (bs : List SBallot) :
    (s.reconstructBallots P bs).2.available = s.available ∧ (s.reconstructBallots P bs).2.missing = s.missing ∧
    (s.reconstructBallots P bs).2.tallyShares = s.tallyShares ∧
    (s.reconstructBallots P bs).2.compTally = s.compTally := by
  unfold DM.reconstructBallots
  cases lagrangeForGuardians P (s.available.map (·.2)) with
  | error e => exact ⟨rfl, rfl, rfl, rfl⟩
  | ok lagrange => exact reconstructBallotsLoop_fields lagrange bs s

theorem DM.reconstructTally_fields (s : DM) (t : Tally) :
    (s.reconstructTally P t).2.available = s.available ∧ (s.reconstructTally P t).2.missing = s.missing ∧
    (s.reconstructTally P t).2.compTally = s.compTally := by
  unfold DM.reconstructTally
  cases lagrangeForGuardians P (s.available.map (·.2)) <;> exact ⟨rfl, rfl, rfl⟩

theorem DM.run_concat (ops : List DMOp) (op : DMOp) : DM.run P (ops ++ [op]) = (DM.run P ops).step P op := by
  simp only [DM.run, List.foldl_append, List.foldl_cons, List.foldl_nil]

/-! ### Missing guardians -/

theorem validateLoop_spec (cands : List (String × ElectionPublicKey)) (missing : List (String × ElectionPublicKey)) :
    (∀ i, i ∈ dkeys (validateLoop cands missing).2 → i ∈ dkeys missing ∨ i ∈ dkeys cands) ∧
    (∀ i, i ∈ dkeys missing → dget (validateLoop cands missing).2 i = dget missing i) ∧
    ((dkeys missing).Nodup → (dkeys (validateLoop cands missing).2).Nodup) ∧
    (∀ e ∈ (validateLoop cands missing).2, e ∈ missing ∨ e ∈ cands) := by
  induction cands generalizing missing with
  | nil => exact ⟨fun i h => Or.inl h, fun i _ => rfl, fun h => h, fun e h => Or.inl h⟩
  | cons c cands ih =>
    obtain ⟨id, k⟩ := c
    unfold validateLoop
    cases hg : dget missing id with
    | some k' =>
      simp only
      split
      · exact ⟨fun i h => Or.inl h, fun i _ => rfl, fun h => h, fun e h => Or.inl h⟩
      · obtain ⟨h1, h2, h3, h4⟩ := ih missing
        refine ⟨fun i h => (h1 i h).imp _root_.id (fun h => List.mem_cons_of_mem _ h), h2, h3, fun e h => (h4 e h).imp _root_.id (fun h => List.mem_cons_of_mem _ h)⟩
    | none =>
      have hnot : id ∉ dkeys missing := (dget_eq_none_iff _ _).1 hg
      obtain ⟨h1, h2, h3, h4⟩ := ih (dset missing id k)
      simp only
      refine ⟨fun i h => ?_, fun i h => ?_, fun h => ?_, fun e h => ?_⟩
      · rcases h1 i h with h | h
        · rw [dset_fresh _ hnot] at h
          simp only [dkeys, List.map_append, List.map_cons, List.map_nil, List.mem_append, List.mem_singleton] at h
          rcases h with h | h
          · exact Or.inl h
          · exact Or.inr (by simp [dkeys, h])
        · exact Or.inr (List.mem_cons_of_mem _ h)
      · have hne : id ≠ i := fun he => hnot (he ▸ h)
        have : i ∈ dkeys (dset missing id k) := by
          rw [dset_fresh _ hnot]
          simp only [dkeys, List.map_append, List.mem_append]
          exact Or.inl h
        rw [h2 i this, dget_dset, if_neg hne]
      · exact h3 (dset_nodup h _ _)
      · rcases h4 e h with h | h
        · rw [dset_fresh _ hnot] at h
          rcases List.mem_append.1 h with h | h
          · exact Or.inl h
          · exact Or.inr (by rw [List.mem_singleton.1 h]; exact List.mem_cons_self ..)
        · exact Or.inr (List.mem_cons_of_mem _ h)

theorem mem_dkeys_dset {κ α : Type} [DecidableEq κ] {d : List (κ × α)} {k i : κ} {v : α} :
    i ∈ dkeys (dset d k v) ↔ i = k ∨ i ∈ dkeys d := by
  rw [dkeys_dset]
  split
  · rename_i h
    constructor
    · exact Or.inr
    · rintro (rfl | h')
      · exact h
      · exact h'
  · rw [List.mem_append, List.mem_singleton]
    exact Or.comm

theorem mem_dkeys_ddel {κ α : Type} [DecidableEq κ] {d : List (κ × α)} {k i : κ} :
    i ∈ dkeys (ddel d k) ↔ i ≠ k ∧ i ∈ dkeys d := by
  rw [mem_dkeys_iff, mem_dkeys_iff, dget_ddel]
  by_cases h : k = i
  · simp [h]
  · simp [h, Ne.symm h]

theorem mem_ddel {κ α : Type} [DecidableEq κ] {d : List (κ × α)} {k : κ} {e : κ × α} (h : e ∈ ddel d k) : e ∈ d := by
  unfold ddel at h
  exact (List.mem_filter.1 h).1

theorem mem_dkeys_of_mem {κ α : Type} {d : List (κ × α)} {e : κ × α} (h : e ∈ d) : e.1 ∈ dkeys d :=
  List.mem_map.2 ⟨e, h, rfl⟩

/-- Candidates in `validate_missing_guardians`. -/
theorem cands_mem (keys : List ElectionPublicKey) (d : List (String × ElectionPublicKey)) {e : String × ElectionPublicKey}
    (h : e ∈ keys.foldl (fun d k => dset d k.ownerId k) d) : e ∈ d ∨ (e.2 ∈ keys ∧ e.1 = e.2.ownerId) := by
  induction keys generalizing d with
  | nil => exact Or.inl h
  | cons k keys ih =>
    rcases ih _ h with h | ⟨h1, h2⟩
    · rcases mem_dset h with rfl | h
      · exact Or.inr ⟨List.mem_cons_self .., rfl⟩
      · exact Or.inl h
    · exact Or.inr ⟨List.mem_cons_of_mem _ h1, h2⟩

theorem DM.validateMissing_fields (s : DM) (ks : List ElectionPublicKey) :
    (s.validateMissing ks).2.available = s.available ∧ (s.validateMissing ks).2.tallyShares = s.tallyShares ∧
    (s.validateMissing ks).2.compTally = s.compTally ∧ (s.validateMissing ks).2.ballotShares = s.ballotShares :=
  ⟨rfl, rfl, rfl, rfl⟩

theorem DM.validateMissing_missing (s : DM) (ks : List ElectionPublicKey) :
    (∀ i ∈ dkeys s.missing, dget (s.validateMissing ks).2.missing i = dget s.missing i) ∧
    ((dkeys s.missing).Nodup → (dkeys (s.validateMissing ks).2.missing).Nodup) ∧
    (∀ e ∈ (s.validateMissing ks).2.missing, e ∈ s.missing ∨
      (e.2 ∈ ks ∧ e.1 = e.2.ownerId ∧ e.1 ∉ dkeys s.available)) := by
  obtain ⟨_, h2, h3, h4⟩ := validateLoop_spec
    ((ks.filter (fun k => decide (k.ownerId ∉ dkeys s.available))).foldl (fun d k => dset d k.ownerId k) []) s.missing
  refine ⟨h2, h3, fun e he => (h4 e he).imp _root_.id (fun h => ?_)⟩
  rcases cands_mem _ [] h with h | ⟨h1, h2⟩
  · cases h
  · rw [List.mem_filter] at h1
    exact ⟨h1.1, h2, by rw [h2]; simpa using h1.2⟩

/-! ### The shares in the tally -/

theorem reconstructTallyLoop_keys (t : Tally) (lagrange : List (String × Nat))
    (comps : List ((String × String) × CompShare)) (ms : List (String × ElectionPublicKey))
    (shares : List (String × DecShare)) :
    (∀ i, i ∈ dkeys (reconstructTallyLoop P t lagrange comps ms shares).2 → i ∈ dkeys shares ∨ i ∈ dkeys ms) ∧
    (∀ e ∈ shares, e ∈ (reconstructTallyLoop P t lagrange comps ms shares).2) ∧
    ((dkeys shares).Nodup → (dkeys (reconstructTallyLoop P t lagrange comps ms shares).2).Nodup) := by
  induction ms generalizing shares with
  | nil => exact ⟨fun i h => Or.inl h, fun e h => h, fun h => h⟩
  | cons m ms ih =>
    obtain ⟨id, k⟩ := m
    unfold reconstructTallyLoop
    split
    · obtain ⟨h1, h2, h3⟩ := ih shares
      exact ⟨fun i h => (h1 i h).imp _root_.id (fun h => List.mem_cons_of_mem _ h), h2, h3⟩
    · rename_i hnot
      cases reconstructShare P k t.objectId t.toCts (filterByMissing id comps) lagrange with
      | error e => exact ⟨fun i h => Or.inl h, fun e h => h, fun h => h⟩
      | ok sh =>
        obtain ⟨h1, h2, h3⟩ := ih (dset shares id sh)
        refine ⟨fun i h => ?_, fun e h => ?_, fun h => h3 (dset_nodup h _ _)⟩
        · rcases h1 i h with h | h
          · rcases mem_dkeys_dset.1 h with rfl | h
            · exact Or.inr (List.mem_cons_self ..)
            · exact Or.inl h
          · exact Or.inr (List.mem_cons_of_mem _ h)
        · refine h2 e ?_
          rw [dset_fresh _ hnot]
          exact List.mem_append_left _ h

/-- Facts that hold in every state of the mediator. -/
structure DM.Book (s : DM) : Prop where
  available_nodup : (dkeys s.available).Nodup
  missing_nodup : (dkeys s.missing).Nodup
  tally_nodup : (dkeys s.tallyShares).Nodup
  comp_nodup : (dkeys s.compTally).Nodup
  disjoint : ∀ i ∈ dkeys s.available, i ∉ dkeys s.missing
  shares_known : ∀ i ∈ dkeys s.tallyShares, i ∈ dkeys s.available ∨ i ∈ dkeys s.missing
  announced_share : ∀ i ∈ dkeys s.available, i ∈ dkeys s.tallyShares
  available_own : ∀ e ∈ s.available, e.1 = e.2.ownerId
  missing_own : ∀ e ∈ s.missing, e.1 = e.2.ownerId
  comp_own : ∀ e ∈ s.compTally, e.1 = (e.2.guardianId, e.2.missingId)

theorem DM.run_book (ops : List DMOp) : (DM.run P ops).Book := by
  induction ops using List.reverseRecOn with
  | nil =>
    constructor <;> simp [DM.run, DM.init, dkeys]
  | append_singleton ops op ih =>
    rw [DM.run_concat]
    generalize hs : DM.run P ops = s at ih
    obtain ⟨b1, b2, b3, b4, b5, b6, b7, b8, b9, b10⟩ := ih
    cases op with
    | announce k sh bs =>
      simp only [DM.step]
      by_cases hk : k.ownerId ∈ dkeys s.available
      · rw [DM.announce_of_mem s k sh bs hk]
        exact ⟨b1, b2, b3, b4, b5, b6, b7, b8, b9, b10⟩
      · obtain ⟨f1, f2, f3, f4⟩ := DM.announce_fields s k sh bs hk
        constructor
        · rw [f1]; exact dset_nodup b1 _ _
        · rw [f2]; exact ddel_nodup b2 _
        · rw [f3]; exact dset_nodup b3 _ _
        · rw [f4]; exact b4
        · intro i hi
          rw [f1] at hi
          rw [f2, mem_dkeys_ddel]
          rcases mem_dkeys_dset.1 hi with rfl | hi
          · exact fun h => h.1 rfl
          · exact fun h => b5 i hi h.2
        · intro i hi
          rw [f3] at hi
          rw [f1, f2, mem_dkeys_ddel, mem_dkeys_dset]
          by_cases hik : i = k.ownerId
          · exact Or.inl (Or.inl hik)
          · rcases mem_dkeys_dset.1 hi with h | hi
            · exact absurd h hik
            · rcases b6 i hi with h | h
              · exact Or.inl (Or.inr h)
              · exact Or.inr ⟨hik, h⟩
        · intro i hi
          rw [f1] at hi
          rw [f3, mem_dkeys_dset]
          rcases mem_dkeys_dset.1 hi with h | hi
          · exact Or.inl h
          · exact Or.inr (b7 i hi)
        · rw [f1]
          intro e he
          rcases mem_dset he with rfl | he
          · rfl
          · exact b8 e he
        · rw [f2]
          exact fun e he => b9 e (mem_ddel he)
        · rw [f4]; exact b10
    | announceMissing k =>
      obtain ⟨f1, f2, f3, f4⟩ := DM.announceMissing_fields s k
      simp only [DM.step]
      by_cases hk : k.ownerId ∈ dkeys s.available
      · rw [if_pos hk] at f4
        constructor <;> simp only [f1, f2, f3, f4] <;> assumption
      · rw [if_neg hk] at f4
        constructor
        · rw [f1]; exact b1
        · rw [f4]; exact dset_nodup b2 _ _
        · rw [f2]; exact b3
        · rw [f3]; exact b4
        · intro i hi
          rw [f1] at hi
          rw [f4, mem_dkeys_dset]
          rintro (rfl | h)
          · exact hk hi
          · exact b5 i hi h
        · intro i hi
          rw [f2] at hi
          rw [f1, f4, mem_dkeys_dset]
          exact (b6 i hi).imp _root_.id Or.inr
        · rw [f1, f2]; exact b7
        · rw [f1]; exact b8
        · rw [f4]
          intro e he
          rcases mem_dset he with rfl | he
          · rfl
          · exact b9 e he
        · rw [f3]; exact b10
    | validateMissing ks =>
      simp only [DM.step]
      obtain ⟨v1, v2, v3⟩ := DM.validateMissing_missing s ks
      refine ⟨b1, v2 b2, b3, b4, ?_, ?_, b7, b8, ?_, b10⟩
      · intro i hi hm
        obtain ⟨v, hv⟩ := (mem_dkeys_iff _ _).1 hm
        rcases v3 _ (mem_of_dget hv) with h | ⟨_, _, h⟩
        · exact b5 i hi (mem_dkeys_of_mem h)
        · exact h hi
      · intro i hi
        refine (b6 i hi).imp _root_.id (fun h => ?_)
        obtain ⟨v, hv⟩ := (mem_dkeys_iff _ _).1 h
        exact (mem_dkeys_iff _ _).2 ⟨v, by rw [v1 i h]; exact hv⟩
      · intro e he
        rcases v3 e he with h | ⟨_, h, _⟩
        · exact b9 e h
        · exact h
    | receiveTallyComp c =>
      refine ⟨b1, b2, b3, dset_nodup b4 _ _, b5, b6, b7, b8, b9, ?_⟩
      intro e he
      rcases mem_dset (show e ∈ dset s.compTally (c.guardianId, c.missingId) c from he) with rfl | he
      · rfl
      · exact b10 e he
    | receiveBallotComp cs => exact ⟨b1, b2, b3, b4, b5, b6, b7, b8, b9, b10⟩
    | reconstructTally t =>
      simp only [DM.step]
      obtain ⟨f1, f2, f3⟩ := DM.reconstructTally_fields (P := P) s t
      have f4 : (∀ i ∈ dkeys (s.reconstructTally P t).2.tallyShares, i ∈ dkeys s.tallyShares ∨ i ∈ dkeys s.missing) ∧
          (∀ e ∈ s.tallyShares, e ∈ (s.reconstructTally P t).2.tallyShares) ∧
          (dkeys (s.reconstructTally P t).2.tallyShares).Nodup := by
        unfold DM.reconstructTally
        cases lagrangeForGuardians P (s.available.map (·.2)) with
        | error e => exact ⟨fun i h => Or.inl h, fun e h => h, b3⟩
        | ok lagrange =>
          obtain ⟨h1, h2, h3⟩ := reconstructTallyLoop_keys (P := P) t lagrange s.compTally s.missing s.tallyShares
          exact ⟨h1, h2, h3 b3⟩
      constructor
      · rw [f1]; exact b1
      · rw [f2]; exact b2
      · exact f4.2.2
      · rw [f3]; exact b4
      · rw [f1, f2]; exact b5
      · rw [f1, f2]
        intro i hi
        rcases f4.1 i hi with h | h
        · exact b6 i h
        · exact Or.inr h
      · rw [f1]
        intro i hi
        obtain ⟨e, he, rfl⟩ := List.mem_map.1 (b7 i hi)
        exact mem_dkeys_of_mem (f4.2.1 e he)
      · rw [f1]; exact b8
      · rw [f2]; exact b9
      · rw [f3]; exact b10
    | reconstructBallots bs =>
      simp only [DM.step]
      obtain ⟨f1, f2, f3, f4⟩ := DM.reconstructBallots_fields (P := P) s bs
      constructor <;> simp only [f1, f2, f3, f4] <;> assumption

/-! ### C48 -/

/-- C48 After any calls no guardian is both available and missing, and no guardian is listed twice. -/
theorem C48_disjoint (ops : List DMOp) :
    (∀ i, i ∈ dkeys (DM.run P ops).available → i ∉ dkeys (DM.run P ops).missing) ∧
    (dkeys (DM.run P ops).available).Nodup ∧ (dkeys (DM.run P ops).missing).Nodup :=
  let b := DM.run_book (P := P) ops
  ⟨b.disjoint, b.available_nodup, b.missing_nodup⟩

/-- C48 The available guardians are those that announced themselves, each with the key of its first announcement. -/
theorem C48_available_first (ops : List DMOp) (i : String) :
    dget (DM.run P ops).available i = (announcedKeys ops).find? (fun k => k.ownerId == i) := by
  induction ops using List.reverseRecOn with
  | nil => rfl
  | append_singleton ops op ih =>
    rw [DM.run_concat]
    generalize DM.run P ops = s at ih
    have hsame : ∀ s' : DM, s'.available = s.available → announcedKeys [op] = [] →
        dget s'.available i = (announcedKeys (ops ++ [op])).find? (fun k => k.ownerId == i) := by
      intro s' h h'
      unfold announcedKeys at h' ⊢
      rw [List.filterMap_append, h', List.append_nil, h]
      exact ih
    cases op with
    | announce k sh bs =>
      have hk' : announcedKeys (ops ++ [.announce k sh bs]) = announcedKeys ops ++ [k] := by
        unfold announcedKeys
        rw [List.filterMap_append]
        rfl
      simp only [DM.step]
      rw [hk', List.find?_append, ← ih]
      by_cases hk : k.ownerId ∈ dkeys s.available
      · rw [DM.announce_of_mem s k sh bs hk]
        cases hg : dget s.available i with
        | some x => rfl
        | none =>
          have : k.ownerId ≠ i := fun h => (dget_eq_none_iff _ _).1 hg (h ▸ hk)
          simp [this]
      · rw [(DM.announce_fields s k sh bs hk).1, dget_dset]
        by_cases hi : k.ownerId = i
        · have hg := (dget_eq_none_iff _ _).2 hk
          rw [hi] at hg
          rw [if_pos hi, hg]
          simp [hi]
        · rw [if_neg hi]
          cases dget s.available i with
          | some x => rfl
          | none => simp [hi]
    | announceMissing k => exact hsame _ (DM.announceMissing_fields s k).1 rfl
    | validateMissing ks => exact hsame _ rfl rfl
    | receiveTallyComp c => exact hsame _ rfl rfl
    | receiveBallotComp cs => exact hsame _ rfl rfl
    | reconstructTally t => exact hsame _ (DM.reconstructTally_fields (P := P) s t).1 rfl
    | reconstructBallots bs => exact hsame _ (DM.reconstructBallots_fields (P := P) s bs).1 rfl

/-- C48 A second announcement by a guardian changes nothing, with whatever key and shares, and neither does reporting an
announced guardian as missing. -/
theorem C48_announced_once (ops : List DMOp) (i : String) (h : i ∈ (announcedKeys ops).map (fun k => k.ownerId)) :
    (∀ k sh bs, k.ownerId = i → DM.run P (ops ++ [.announce k sh bs]) = DM.run P ops) ∧
    (∀ k, k.ownerId = i → DM.run P (ops ++ [.announceMissing k]) = DM.run P ops) := by
  have hmem : i ∈ dkeys (DM.run P ops).available := by
    rw [mem_dkeys_iff]
    rw [C48_available_first (P := P) ops i]
    obtain ⟨k, hk, hki⟩ := List.mem_map.1 h
    cases hf : (announcedKeys ops).find? (fun k => k.ownerId == i) with
    | some x => exact ⟨x, rfl⟩
    | none => exact absurd (List.find?_eq_none.1 hf k hk) (by simpa using hki)
  constructor
  · rintro k sh bs rfl
    rw [DM.run_concat]
    exact DM.announce_of_mem _ k sh bs hmem
  · rintro k rfl
    rw [DM.run_concat]
    exact if_pos hmem

/-- C48 A guardian is missing only if it was reported missing and never announced itself; and a guardian that was
announced missing and never announced itself is missing. -/
theorem C48_missing (ops : List DMOp) (i : String) :
    (i ∈ dkeys (DM.run P ops).missing →
      (∃ op ∈ ops, i ∈ reportedMissing op) ∧ i ∉ (announcedKeys ops).map (fun k => k.ownerId)) ∧
    ((∃ k, k.ownerId = i ∧ DMOp.announceMissing k ∈ ops) → i ∉ (announcedKeys ops).map (fun k => k.ownerId) →
      i ∈ dkeys (DM.run P ops).missing) := by
  have hav : ∀ ops : List DMOp, i ∈ dkeys (DM.run P ops).available ↔
      i ∈ (announcedKeys ops).map (fun k => k.ownerId) := by
    intro ops
    rw [mem_dkeys_iff, C48_available_first (P := P) ops i]
    constructor
    · rintro ⟨k, hk⟩
      exact List.mem_map.2 ⟨k, List.mem_of_find?_eq_some hk, by simpa using List.find?_some hk⟩
    · intro h
      obtain ⟨k, hk, hki⟩ := List.mem_map.1 h
      cases hf : (announcedKeys ops).find? (fun k => k.ownerId == i) with
      | some x => exact ⟨x, rfl⟩
      | none => exact absurd (List.find?_eq_none.1 hf k hk) (by simpa using hki)
  constructor
  · intro h
    refine ⟨?_, fun ha => (DM.run_book (P := P) ops).disjoint i ((hav ops).2 ha) h⟩
    induction ops using List.reverseRecOn with
    | nil => simp [DM.run, DM.init, dkeys] at h
    | append_singleton ops op ih =>
      rw [DM.run_concat] at h
      have lift : i ∈ dkeys (DM.run P ops).missing → ∃ op' ∈ ops ++ [op], i ∈ reportedMissing op' := by
        intro h
        obtain ⟨o, ho, h'⟩ := ih h
        exact ⟨o, List.mem_append_left _ ho, h'⟩
      generalize DM.run P ops = s at h lift
      have here : i ∈ reportedMissing op → ∃ op' ∈ ops ++ [op], i ∈ reportedMissing op' :=
        fun h => ⟨op, by simp, h⟩
      cases op with
      | announce k sh bs =>
        simp only [DM.step] at h
        by_cases hk : k.ownerId ∈ dkeys s.available
        · rw [DM.announce_of_mem s k sh bs hk] at h
          exact lift h
        · rw [(DM.announce_fields s k sh bs hk).2.1, mem_dkeys_ddel] at h
          exact lift h.2
      | announceMissing k =>
        simp only [DM.step] at h
        rw [(DM.announceMissing_fields s k).2.2.2] at h
        split at h
        · exact lift h
        · rcases mem_dkeys_dset.1 h with h | h
          · exact here (by simp [reportedMissing, h])
          · exact lift h
      | validateMissing ks =>
        simp only [DM.step] at h
        obtain ⟨v, hv⟩ := (mem_dkeys_iff _ _).1 h
        rcases (DM.validateMissing_missing s ks).2.2 _ (mem_of_dget hv) with h | ⟨h1, h2, _⟩
        · exact lift (mem_dkeys_of_mem h)
        · exact here (List.mem_map.2 ⟨v, h1, h2.symm⟩)
      | receiveTallyComp c => exact lift h
      | receiveBallotComp cs => exact lift h
      | reconstructTally t =>
        simp only [DM.step] at h
        rw [(DM.reconstructTally_fields (P := P) s t).2.1] at h
        exact lift h
      | reconstructBallots bs =>
        simp only [DM.step] at h
        rw [(DM.reconstructBallots_fields (P := P) s bs).2.1] at h
        exact lift h
  · rintro ⟨k, hk, hop⟩ hno
    induction ops using List.reverseRecOn with
    | nil => cases hop
    | append_singleton ops op ih =>
      have hno' : i ∉ (announcedKeys ops).map (fun k => k.ownerId) := by
        intro h
        refine hno ?_
        unfold announcedKeys at h ⊢
        rw [List.filterMap_append, List.map_append]
        exact List.mem_append_left _ h
      have hava : i ∉ dkeys (DM.run P ops).available := fun h => hno' ((hav ops).1 h)
      have hthis : DMOp.announceMissing k ∈ ops → i ∈ dkeys (DM.run P ops).missing := fun h => ih h hno'
      rw [DM.run_concat]
      generalize DM.run P ops = s at hava hthis
      rcases List.mem_append.1 hop with hop | hop
      · have h := hthis hop
        cases op with
        | announce k' sh bs =>
          simp only [DM.step]
          have hne : i ≠ k'.ownerId := by
            intro he
            refine hno ?_
            unfold announcedKeys
            rw [List.filterMap_append, List.map_append, he]
            exact List.mem_append_right _ (by simp)
          by_cases hk' : k'.ownerId ∈ dkeys s.available
          · rw [DM.announce_of_mem s k' sh bs hk']; exact h
          · rw [(DM.announce_fields s k' sh bs hk').2.1, mem_dkeys_ddel]
            exact ⟨hne, h⟩
        | announceMissing k' =>
          simp only [DM.step]
          rw [(DM.announceMissing_fields s k').2.2.2]
          split
          · exact h
          · exact mem_dkeys_dset.2 (Or.inr h)
        | validateMissing ks =>
          simp only [DM.step]
          obtain ⟨v, hv⟩ := (mem_dkeys_iff _ _).1 h
          exact (mem_dkeys_iff _ _).2 ⟨v, by rw [(DM.validateMissing_missing s ks).1 i h]; exact hv⟩
        | receiveTallyComp c => exact h
        | receiveBallotComp cs => exact h
        | reconstructTally t =>
          simp only [DM.step]
          rw [(DM.reconstructTally_fields (P := P) s t).2.1]
          exact h
        | reconstructBallots bs =>
          simp only [DM.step]
          rw [(DM.reconstructBallots_fields (P := P) s bs).2.1]
          exact h
      · rw [List.mem_singleton] at hop
        subst hop
        simp only [DM.step]
        rw [(DM.announceMissing_fields s k).2.2.2, if_neg (by rw [hk]; exact hava), mem_dkeys_dset]
        exact Or.inl hk.symm

/-- C48 The announcement is complete exactly when at least quorum guardians are available and the available and missing
guardians together are as many as the election has. -/
theorem C48_complete_iff (s : DM) (ctx : Context) :
    s.announcementComplete ctx = true ↔
      ctx.quorum ≤ s.available.length ∧ (s.available.length : Int) + s.missing.length = ctx.numberOfGuardians := by
  unfold DM.announcementComplete
  split
  · rename_i h; constructor
    · intro h'; cases h'
    · rintro ⟨h', _⟩; omega
  · split
    · rename_i h; constructor
      · intro h'; cases h'
      · rintro ⟨_, h'⟩; exact absurd h' h
    · rename_i h1 h2
      exact ⟨fun _ => ⟨by omega, by simpa using h2⟩, fun _ => rfl⟩

/-! ### The shares of ballots -/

/-- Facts about the shares of ballots that hold in every state. -/
def DM.BallotBook (s : DM) : Prop :=
  (dkeys s.ballotShares).Nodup ∧ ∀ e ∈ s.ballotShares, (dkeys e.2).Nodup ∧
    ∀ i ∈ dkeys e.2, i ∈ dkeys s.available ∨ i ∈ dkeys s.missing

theorem saveFold_book (id : String) (bs : List (String × Option DecShare)) (d : List (String × List (String × DecShare)))
    (Q : String → Prop) (hQ : Q id) (hd : (dkeys d).Nodup)
    (h : ∀ e ∈ d, (dkeys e.2).Nodup ∧ ∀ i ∈ dkeys e.2, Q i) :
    (dkeys (bs.foldl (fun d e =>
      let old := (dget d e.1).getD []
      dset d e.1 (match e.2 with | some sh => dset old id sh | none => old)) d)).Nodup ∧
    ∀ e ∈ bs.foldl (fun d e =>
      let old := (dget d e.1).getD []
      dset d e.1 (match e.2 with | some sh => dset old id sh | none => old)) d,
      (dkeys e.2).Nodup ∧ ∀ i ∈ dkeys e.2, Q i := by
  induction bs generalizing d with
  | nil => exact ⟨hd, h⟩
  | cons b bs ih =>
    rw [List.foldl_cons]
    refine ih _ (dset_nodup hd _ _) (fun e he => ?_)
    rcases mem_dset he with rfl | he
    · have hold : (dkeys ((dget d b.1).getD [])).Nodup ∧ ∀ i ∈ dkeys ((dget d b.1).getD []), Q i := by
        cases hg : dget d b.1 with
        | none => simp [dkeys]
        | some x => exact h _ (mem_of_dget hg)
      cases b.2 with
      | none => exact hold
      | some sh =>
        refine ⟨dset_nodup hold.1 _ _, fun i hi => ?_⟩
        rcases mem_dkeys_dset.1 hi with rfl | hi
        · exact hQ
        · exact hold.2 i hi
    · exact h e he

theorem reconstructBallotLoop_keys (b : SBallot) (lagrange : List (String × Nat))
    (comps : List (String × List ((String × String) × CompShare))) (ms : List (String × ElectionPublicKey))
    (shares : List (String × DecShare)) :
    (∀ i, i ∈ dkeys (reconstructBallotLoop P b lagrange comps ms shares).2 → i ∈ dkeys shares ∨ i ∈ dkeys ms) ∧
    ((dkeys shares).Nodup → (dkeys (reconstructBallotLoop P b lagrange comps ms shares).2).Nodup) := by
  induction ms generalizing shares with
  | nil => exact ⟨fun i h => Or.inl h, fun h => h⟩
  | cons m ms ih =>
    obtain ⟨id, k⟩ := m
    unfold reconstructBallotLoop
    split
    · obtain ⟨h1, h3⟩ := ih shares
      exact ⟨fun i h => (h1 i h).imp _root_.id (fun h => List.mem_cons_of_mem _ h), h3⟩
    · cases dgetR comps b.objectId with
      | error e => exact ⟨fun i h => Or.inl h, fun h => h⟩
      | ok cs =>
        simp only
        cases reconstructShare P k b.objectId b.toCts (filterByMissing id cs) lagrange with
        | error e => exact ⟨fun i h => Or.inl h, fun h => h⟩
        | ok sh =>
          obtain ⟨h1, h3⟩ := ih (dset shares id sh)
          refine ⟨fun i h => ?_, fun h => h3 (dset_nodup h _ _)⟩
          rcases h1 i h with h | h
          · rcases mem_dkeys_dset.1 h with rfl | h
            · exact Or.inr (List.mem_cons_self ..)
            · exact Or.inl h
          · exact Or.inr (List.mem_cons_of_mem _ h)

theorem reconstructBallotsLoop_book (lagrange : List (String × Nat)) (bs : List SBallot) (s : DM) (h : s.BallotBook) :
    (reconstructBallotsLoop P lagrange bs s).2.BallotBook := by
  induction bs generalizing s with
  | nil => exact h
  | cons b bs ih =>
    unfold reconstructBallotsLoop
    cases hg : dgetR s.ballotShares b.objectId with
    | error e => exact h
    | ok shares =>
      have hmem : (b.objectId, shares) ∈ s.ballotShares := by
        unfold dgetR at hg
        cases hd : dget s.ballotShares b.objectId with
        | none => rw [hd] at hg; cases hg
        | some x => rw [hd] at hg; cases hg; exact mem_of_dget hd
      obtain ⟨k1, k2⟩ := reconstructBallotLoop_keys (P := P) b lagrange s.compBallot s.missing shares
      have hnew : DM.BallotBook
          { s with ballotShares := dset s.ballotShares b.objectId (reconstructBallotLoop P b lagrange s.compBallot s.missing shares).2 } := by
        refine ⟨dset_nodup h.1 _ _, fun e he => ?_⟩
        rcases mem_dset he with rfl | he
        · refine ⟨k2 (h.2 _ hmem).1, fun i hi => ?_⟩
          rcases k1 i hi with hi | hi
          · exact (h.2 _ hmem).2 i hi
          · exact Or.inr hi
        · exact h.2 e he
      simp only
      cases (reconstructBallotLoop P b lagrange s.compBallot s.missing shares).1 with
      | error e => exact hnew
      | ok _ => exact ih _ hnew

theorem DM.run_ballotBook (ops : List DMOp) : (DM.run P ops).BallotBook := by
  induction ops using List.reverseRecOn with
  | nil => exact ⟨by simp [DM.run, DM.init, dkeys], by simp [DM.run, DM.init]⟩
  | append_singleton ops op ih =>
    rw [DM.run_concat]
    have hbook := DM.run_book (P := P) (ops ++ [op])
    rw [DM.run_concat] at hbook
    generalize DM.run P ops = s at ih hbook
    cases op with
    | announce k sh bs =>
      simp only [DM.step] at hbook ⊢
      by_cases hk : k.ownerId ∈ dkeys s.available
      · rw [DM.announce_of_mem s k sh bs hk]; exact ih
      · obtain ⟨f1, f2, f3, f4⟩ := DM.announce_fields s k sh bs hk
        have hQ : ∀ i, i ∈ dkeys s.available ∨ i ∈ dkeys s.missing →
            i ∈ dkeys (s.announce k sh bs).available ∨ i ∈ dkeys (s.announce k sh bs).missing := by
          intro i hi
          rw [f1, f2, mem_dkeys_ddel, mem_dkeys_dset]
          by_cases hik : i = k.ownerId
          · exact Or.inl (Or.inl hik)
          · rcases hi with h | h
            · exact Or.inl (Or.inr h)
            · exact Or.inr ⟨hik, h⟩
        have hk1 : k.ownerId ∈ dkeys (s.announce k sh bs).available ∨
            k.ownerId ∈ dkeys (s.announce k sh bs).missing := by
          rw [f1, mem_dkeys_dset]; exact Or.inl (Or.inl rfl)
        cases bs with
        | none =>
          have hb : (s.announce k sh none).ballotShares = s.ballotShares := by
            unfold DM.announce; rw [if_neg hk]
          refine ⟨by rw [hb]; exact ih.1, fun e he => ?_⟩
          rw [hb] at he
          exact ⟨(ih.2 e he).1, fun i hi => hQ i ((ih.2 e he).2 i hi)⟩
        | some bs =>
          have hb : (s.announce k sh (some bs)).ballotShares = bs.foldl (fun d e =>
              let old := (dget d e.1).getD []
              dset d e.1 (match e.2 with | some sh => dset old k.ownerId sh | none => old)) s.ballotShares := by
            unfold DM.announce; rw [if_neg hk]; rfl
          have := saveFold_book k.ownerId bs s.ballotShares
            (fun i => i ∈ dkeys (s.announce k sh (some bs)).available ∨ i ∈ dkeys (s.announce k sh (some bs)).missing)
            hk1 ih.1 (fun e he => ⟨(ih.2 e he).1, fun i hi => hQ i ((ih.2 e he).2 i hi)⟩)
          unfold DM.BallotBook
          rw [hb]
          exact this
    | announceMissing k =>
      simp only [DM.step]
      unfold DM.announceMissing
      split
      · exact ih
      · refine ⟨ih.1, fun e he => ⟨(ih.2 e he).1, fun i hi => ?_⟩⟩
        exact ((ih.2 e he).2 i hi).imp _root_.id (fun h => mem_dkeys_dset.2 (Or.inr h))
    | validateMissing ks =>
      refine ⟨ih.1, fun e he => ⟨(ih.2 e he).1, fun i hi => ?_⟩⟩
      refine ((ih.2 e he).2 i hi).imp _root_.id (fun h => ?_)
      obtain ⟨v, hv⟩ := (mem_dkeys_iff _ _).1 h
      exact (mem_dkeys_iff _ _).2 ⟨v, by
        simp only [DM.step]; rw [(DM.validateMissing_missing s ks).1 i h]; exact hv⟩
    | receiveTallyComp c => exact ih
    | receiveBallotComp cs => exact ih
    | reconstructTally t =>
      simp only [DM.step]
      unfold DM.reconstructTally
      cases lagrangeForGuardians P (s.available.map (·.2)) <;> exact ih
    | reconstructBallots bs =>
      simp only [DM.step]
      unfold DM.reconstructBallots
      cases lagrangeForGuardians P (s.available.map (·.2)) with
      | error e => exact ih
      | ok lagrange => exact reconstructBallotsLoop_book lagrange bs s ih

/-! ### C49 -/

theorem shares_perm {s : DM} {shares : List (String × DecShare)} (hn : (dkeys shares).Nodup)
    (hsub : ∀ i ∈ dkeys shares, i ∈ dkeys s.available ∨ i ∈ dkeys s.missing)
    (hlen : shares.length = s.available.length + s.missing.length) :
    (dkeys shares).Perm (dkeys s.available ++ dkeys s.missing) := by
  have hsp : (dkeys shares).Subperm (dkeys s.available ++ dkeys s.missing) :=
    List.subperm_of_subset hn (fun i hi => List.mem_append.2 (hsub i hi))
  refine hsp.perm_of_length_le ?_
  simp only [dkeys, List.length_append, List.length_map]
  omega

/-- C49 A tally is decrypted only if the announcement is complete and the shares are exactly one for each available and
each missing guardian; otherwise the answer is `None`. -/
theorem C49_all_shares_needed (ops : List DMOp) (maxE : Nat) (ctx : Context) (t : Tally) (m : Manifest) :
    (DM.run P ops).plaintextTally E maxE ctx t m = .ok none ∨
    (ctx.quorum ≤ (DM.run P ops).available.length ∧
      ((DM.run P ops).available.length : Int) + (DM.run P ops).missing.length = ctx.numberOfGuardians ∧
      (dkeys (DM.run P ops).tallyShares).Nodup ∧
      (dkeys (DM.run P ops).tallyShares).Perm (dkeys (DM.run P ops).available ++ dkeys (DM.run P ops).missing)) := by
  have b := DM.run_book (P := P) ops
  generalize DM.run P ops = s at b
  unfold DM.plaintextTally
  by_cases h1 : s.announcementComplete ctx = true
  · by_cases h2 : readyToDecrypt ctx s.tallyShares = true
    · right
      obtain ⟨c1, c2⟩ := (C48_complete_iff s ctx).1 h1
      refine ⟨c1, c2, b.tally_nodup, shares_perm b.tally_nodup b.shares_known ?_⟩
      have : (s.tallyShares.length : Int) = ctx.numberOfGuardians := by simpa [readyToDecrypt] using h2
      omega
    · left; simp [h2]
  · left; simp [h1]

theorem plaintextBallotsLoop_keys (maxE : Nat) (s : DM) (ctx : Context) (m : Manifest) (bs : List SBallot)
    (d r : List (String × PlaintextTally)) (h : plaintextBallotsLoop E maxE s ctx m bs d = .ok r) :
    ∀ i ∈ dkeys r, i ∈ dkeys d ∨ ∃ shares, dget s.ballotShares i = some shares ∧ readyToDecrypt ctx shares = true := by
  induction bs generalizing d with
  | nil => cases h; exact fun i hi => Or.inl hi
  | cons b bs ih =>
    unfold plaintextBallotsLoop at h
    cases hg : dget s.ballotShares b.objectId with
    | none => rw [hg] at h; exact ih d h
    | some shares =>
      rw [hg] at h
      simp only at h
      by_cases hr : (shares.isEmpty || !readyToDecrypt ctx shares) = true
      · rw [if_pos hr] at h; exact ih d h
      · rw [if_neg hr] at h
        simp only [bind, Except.bind] at h
        cases hp : decryptBallotWithShares E maxE b shares ctx.cryptoExtendedBaseHash m with
        | error e => rw [hp] at h; cases h
        | ok p =>
          rw [hp] at h
          cases p with
          | none => exact ih d h
          | some p =>
            simp only at h
            have hid : p.objectId = b.objectId := by
              simp only [decryptBallotWithShares, bind, Except.bind, pure, Except.pure] at hp
              cases hl : decryptContestsLoop E maxE shares ctx.cryptoExtendedBaseHash m true b.toCts [] with
              | error e => rw [hl] at hp; cases hp
              | ok x =>
                rw [hl] at hp
                cases x with
                | none => cases hp
                | some x => cases hp; rfl
            intro i hi
            rcases ih _ h i hi with h' | h'
            · rcases mem_dkeys_dset.1 h' with rfl | h'
              · right
                refine ⟨shares, by rw [hid]; exact hg, ?_⟩
                simpa using (by simpa using hr : ¬ (shares = [] ∨ readyToDecrypt ctx shares = false)) |> fun h => by
                  by_contra hc
                  exact h (Or.inr (by simpa using hc))
              · exact Or.inl h'
            · exact Or.inr h'

/-- C49 The same for ballots: no ballot is decrypted unless the announcement is complete, and a decrypted ballot has
exactly one share for each available and each missing guardian. -/
theorem C49_ballots (ops : List DMOp) (maxE : Nat) (ctx : Context) (bs : List SBallot) (m : Manifest) :
    (DM.run P ops).plaintextBallots E maxE ctx bs m = .ok none ∨
    (ctx.quorum ≤ (DM.run P ops).available.length ∧
      ((DM.run P ops).available.length : Int) + (DM.run P ops).missing.length = ctx.numberOfGuardians ∧
      ∀ d, (DM.run P ops).plaintextBallots E maxE ctx bs m = .ok (some d) → ∀ i ∈ dkeys d,
        ∃ shares, dget (DM.run P ops).ballotShares i = some shares ∧
          (dkeys shares).Perm (dkeys (DM.run P ops).available ++ dkeys (DM.run P ops).missing)) := by
  have bb := DM.run_ballotBook (P := P) ops
  generalize DM.run P ops = s at bb
  unfold DM.plaintextBallots
  by_cases h1 : s.announcementComplete ctx = true
  · right
    obtain ⟨c1, c2⟩ := (C48_complete_iff s ctx).1 h1
    refine ⟨c1, c2, fun d hd i hi => ?_⟩
    rw [if_neg (by simp [h1])] at hd
    cases hl : plaintextBallotsLoop E maxE s ctx m bs [] with
    | error e => rw [hl] at hd; cases hd
    | ok r =>
      rw [hl] at hd
      cases hd
      rcases plaintextBallotsLoop_keys maxE s ctx m bs [] d hl i hi with h | ⟨shares, h1, h2⟩
      · cases h
      · have hmem := mem_of_dget h1
        refine ⟨shares, h1, shares_perm (bb.2 _ hmem).1 (bb.2 _ hmem).2 ?_⟩
        have : (shares.length : Int) = ctx.numberOfGuardians := by simpa [readyToDecrypt] using h2
        omega
  · left; simp [h1]

/-! ### C15 -/

/-- What honest calls keep true. -/
structure DM.Honest (E : Env) (baseHash : Nat) (t : Tally) (all : List ElectionPublicKey) (coef : String → List Nat)
    (s : DM) : Prop where
  available : ∀ e ∈ s.available, e.2 ∈ all
  missing : ∀ e ∈ s.missing, e.2 ∈ all
  shares : dkeys s.tallyShares = dkeys s.available
  right : ∀ e ∈ s.tallyShares, ∃ k ∈ all, k.ownerId = e.1 ∧ e.2.guardianId = e.1 ∧
    ShareFor E baseHash (polyAt (coef e.1) 0) k.key t.toCts e.2
  comps : ∀ e ∈ s.compTally, ∃ k ∈ all, ∃ m ∈ all, e.1 = (k.ownerId, m.ownerId) ∧
    CompFor E baseHash (polyAt (coef m.ownerId) k.sequenceOrder.toNat % E.P.q) t.toCts e.2

theorem dset_keys_congr {κ α β : Type} [DecidableEq κ] {d : List (κ × α)} {d' : List (κ × β)} (h : dkeys d = dkeys d')
    (k : κ) (v : α) (v' : β) : dkeys (dset d k v) = dkeys (dset d' k v') := by
  rw [dkeys_dset, dkeys_dset, h]

theorem DM.run_honest {baseHash : Nat} {t : Tally} {all : List ElectionPublicKey} {coef : String → List Nat}
    (ops : List DMOp) (h : ∀ op ∈ ops, HonestOp E baseHash t all coef op) :
    (DM.run E.P ops).Honest E baseHash t all coef ∧
    ∀ p, p ∈ dkeys (DM.run E.P ops).compTally ↔ p ∈ receivedPairs ops := by
  induction ops using List.reverseRecOn with
  | nil =>
    refine ⟨?_, by simp [DM.run, DM.init, dkeys, receivedPairs]⟩
    constructor <;> simp [DM.run, DM.init, dkeys]
  | append_singleton ops op ih =>
    obtain ⟨ih, ihp⟩ := ih (fun o ho => h o (List.mem_append_left _ ho))
    have hop := h op (by simp)
    rw [DM.run_concat]
    generalize DM.run E.P ops = s at ih ihp
    obtain ⟨a1, a2, a3, a4, a5⟩ := ih
    have hpairs : ∀ s' : DM, s'.compTally = s.compTally → receivedPairs [op] = [] →
        ∀ p, p ∈ dkeys s'.compTally ↔ p ∈ receivedPairs (ops ++ [op]) := by
      intro s' h1 h2 p
      unfold receivedPairs at h2 ihp ⊢
      rw [List.filterMap_append, h2, List.append_nil, h1]
      exact ihp p
    cases op with
    | announce k sh bs =>
      simp only [DM.step]
      by_cases hk : k.ownerId ∈ dkeys s.available
      · rw [DM.announce_of_mem s k sh bs hk]
        exact ⟨⟨a1, a2, a3, a4, a5⟩, hpairs s rfl rfl⟩
      · obtain ⟨f1, f2, f3, f4⟩ := DM.announce_fields s k sh bs hk
        refine ⟨⟨?_, ?_, ?_, ?_, ?_⟩, hpairs _ f4 rfl⟩
        · rw [f1]
          intro e he
          rcases mem_dset he with rfl | he
          · exact hop.1
          · exact a1 e he
        · rw [f2]; exact fun e he => a2 e (mem_ddel he)
        · rw [f1, f3]; exact dset_keys_congr a3 _ _ _
        · rw [f3]
          intro e he
          rcases mem_dset he with rfl | he
          · exact ⟨k, hop.1, rfl, hop.2.1, hop.2.2⟩
          · exact a4 e he
        · rw [f4]; exact a5
    | announceMissing k =>
      obtain ⟨f1, f2, f3, f4⟩ := DM.announceMissing_fields s k
      simp only [DM.step]
      refine ⟨⟨by rw [f1]; exact a1, ?_, by rw [f1, f2]; exact a3, by rw [f2]; exact a4, by rw [f3]; exact a5⟩,
        hpairs _ f3 rfl⟩
      rw [f4]
      split
      · exact a2
      · intro e he
        rcases mem_dset he with rfl | he
        · exact hop
        · exact a2 e he
    | validateMissing ks =>
      simp only [DM.step]
      refine ⟨⟨a1, ?_, a3, a4, a5⟩, hpairs _ rfl rfl⟩
      intro e he
      rcases (DM.validateMissing_missing s ks).2.2 e he with h | ⟨h, _⟩
      · exact a2 e h
      · exact hop _ h
    | receiveTallyComp c =>
      refine ⟨⟨a1, a2, a3, a4, ?_⟩, ?_⟩
      · intro e he
        rcases mem_dset (show e ∈ dset s.compTally (c.guardianId, c.missingId) c from he) with rfl | he
        · obtain ⟨k, hk, m, hm, h1, h2, h3⟩ := hop
          exact ⟨k, hk, m, hm, by rw [h1, h2], h3⟩
        · exact a5 e he
      · intro p
        have : receivedPairs (ops ++ [.receiveTallyComp c]) = receivedPairs ops ++ [(c.guardianId, c.missingId)] := by
          unfold receivedPairs
          rw [List.filterMap_append]
          rfl
        rw [this, List.mem_append, List.mem_singleton, ← ihp p]
        have : p ∈ dkeys (s.step E.P (.receiveTallyComp c)).compTally ↔
            p ∈ dkeys (dset s.compTally (c.guardianId, c.missingId) c) := Iff.rfl
        rw [this, mem_dkeys_dset]
        exact Or.comm
    | receiveBallotComp cs => exact ⟨⟨a1, a2, a3, a4, a5⟩, hpairs _ rfl rfl⟩
    | reconstructTally t' => exact absurd hop _root_.id
    | reconstructBallots bs =>
      obtain ⟨f1, f2, f3, f4⟩ := DM.reconstructBallots_fields (P := E.P) s bs
      simp only [DM.step]
      refine ⟨?_, hpairs _ f4 rfl⟩
      constructor <;> simp only [f1, f2, f3, f4] <;> assumption

/-- The compensated shares for a missing guardian. -/
theorem filterByMissing_spec (j : String) (l : List ((String × String) × CompShare)) :
    (dkeys (filterByMissing j l)).Nodup ∧
    (∀ i, i ∈ dkeys (filterByMissing j l) ↔ (i, j) ∈ dkeys l) ∧
    (∀ e ∈ filterByMissing j l, ((e.1, j), e.2) ∈ l) := by
  unfold filterByMissing
  have gen : ∀ (l' : List ((String × String) × CompShare)) (d : List (String × CompShare)),
      (dkeys d).Nodup →
      (dkeys (l'.foldl (fun d e => if e.1.2 = j then dset d e.1.1 e.2 else d) d)).Nodup ∧
      (∀ i, i ∈ dkeys (l'.foldl (fun d e => if e.1.2 = j then dset d e.1.1 e.2 else d) d) ↔
        i ∈ dkeys d ∨ (i, j) ∈ dkeys l') ∧
      (∀ e ∈ l'.foldl (fun d e => if e.1.2 = j then dset d e.1.1 e.2 else d) d, e ∈ d ∨ ((e.1, j), e.2) ∈ l') := by
    intro l'
    induction l' with
    | nil => intro d hd; exact ⟨hd, fun i => by simp [dkeys], fun e he => Or.inl he⟩
    | cons a l' ih =>
      intro d hd
      rw [List.foldl_cons]
      by_cases ha : a.1.2 = j
      · rw [if_pos ha]
        obtain ⟨h1, h2, h3⟩ := ih (dset d a.1.1 a.2) (dset_nodup hd _ _)
        have hpair : a.1 = (a.1.1, j) := by rw [← ha]
        refine ⟨h1, fun i => ?_, fun e he => ?_⟩
        · rw [h2 i, mem_dkeys_dset]
          simp only [dkeys, List.map_cons, List.mem_cons]
          constructor
          · rintro ((h | h) | h)
            · right; left; rw [hpair, h]
            · exact Or.inl h
            · exact Or.inr (Or.inr h)
          · rintro (h | h | h)
            · exact Or.inl (Or.inr h)
            · left; left; rw [hpair] at h; exact (Prod.mk.inj h).1
            · exact Or.inr h
        · rcases h3 e he with h | h
          · rcases mem_dset h with rfl | h
            · right; simp only [← hpair]; exact List.mem_cons_self ..
            · exact Or.inl h
          · exact Or.inr (List.mem_cons_of_mem _ h)
      · rw [if_neg ha]
        obtain ⟨h1, h2, h3⟩ := ih d hd
        refine ⟨h1, fun i => ?_, fun e he => (h3 e he).imp _root_.id (fun h => List.mem_cons_of_mem _ h)⟩
        rw [h2 i]
        simp only [dkeys, List.map_cons, List.mem_cons]
        refine or_congr Iff.rfl ⟨Or.inr, ?_⟩
        rintro (h | h)
        · exact absurd (by rw [← h]) ha
        · exact h
  obtain ⟨h1, h2, h3⟩ := gen l [] (by simp [dkeys])
  refine ⟨h1, fun i => by rw [h2 i]; simp [dkeys], fun e he => ?_⟩
  rcases h3 e he with h | h
  · cases h
  · exact h

theorem reconstructTallyLoop_right (t : Tally) (lagrange : List (String × Nat))
    (comps : List ((String × String) × CompShare)) (f : String × ElectionPublicKey → DecShare)
    (ms : List (String × ElectionPublicKey)) (shares : List (String × DecShare)) (hn : (dkeys ms).Nodup)
    (hd : ∀ i ∈ dkeys ms, i ∉ dkeys shares)
    (h : ∀ e ∈ ms, reconstructShare P e.2 t.objectId t.toCts (filterByMissing e.1 comps) lagrange = .ok (f e)) :
    reconstructTallyLoop P t lagrange comps ms shares = (.ok (), shares ++ ms.map (fun e => (e.1, f e))) := by
  induction ms generalizing shares with
  | nil => simp [reconstructTallyLoop]
  | cons e ms ih =>
    obtain ⟨id, k⟩ := e
    simp only [dkeys, List.map_cons, List.nodup_cons] at hn
    have hnot : id ∉ dkeys shares := hd id (by simp [dkeys])
    unfold reconstructTallyLoop
    rw [if_neg hnot, h (id, k) (List.mem_cons_self ..)]
    simp only
    rw [dset_fresh _ hnot, ih _ hn.2 _ (fun e he => h e (List.mem_cons_of_mem _ he))]
    · simp
    · intro i hi hc
      simp only [dkeys, List.map_append, List.map_cons, List.map_nil, List.mem_append, List.mem_singleton] at hc
      rcases hc with hc | rfl
      · exact hd i (List.mem_cons_of_mem _ hi) hc
      · exact hn.1 hi

/-- C15 A quorum decrypts correctly with guardians missing.  After any calls with right shares, if the announcement is
complete and every available guardian, and nobody else, sent a compensated share for every missing one, then the
reconstruction succeeds and `get_plaintext_tally` reports exactly the encrypted values.  Missing: tallies in which two contests share a selection
id (`Decryptable` excludes them); there the claim is false, see `C14_shared_selection_id_fails`. -/
theorem C15_quorum_decrypts_partial (hv : E.P.Valid) (maxE : Nat) (ctx : Context) (t : Tally) (m : Manifest)
    (all : List ElectionPublicKey) (coef : String → List Nat) (hkeys : SharedKeys E.P ctx.quorum all coef)
    (hn : ctx.numberOfGuardians = all.length)
    (hdec : Decryptable E.P maxE (combinePublicKeys E.P (all.map (fun k => k.key))) m t.toCts)
    (ops : List DMOp) (hops : ∀ op ∈ ops, HonestOp E ctx.cryptoExtendedBaseHash t all coef op)
    (hcomplete : (DM.run E.P ops).announcementComplete ctx = true)
    (hcomps : ∀ j ∈ dkeys (DM.run E.P ops).missing, ∀ i,
      (i, j) ∈ receivedPairs ops ↔ i ∈ dkeys (DM.run E.P ops).available) :
    ((DM.run E.P ops).reconstructTally E.P t).1 = .ok () ∧
    ∃ pt, (DM.run E.P (ops ++ [.reconstructTally t])).plaintextTally E maxE ctx t m = .ok (some pt) ∧
      pt.objectId = t.objectId ∧ pt.Correct E.P (combinePublicKeys E.P (all.map (fun k => k.key))) m t.toCts := by
  classical
  obtain ⟨ho, hp⟩ := DM.run_honest (E := E) ops hops
  have b := DM.run_book (P := E.P) ops
  rw [DM.run_concat]
  simp only [DM.step]
  generalize DM.run E.P ops = s at *
  obtain ⟨c1, c2⟩ := (C48_complete_iff s ctx).1 hcomplete
  -- the keys of the available guardians
  have hinj : ∀ {k k' : ElectionPublicKey}, k ∈ all → k' ∈ all → k.ownerId = k'.ownerId → k = k' :=
    fun hk hk' h => List.inj_on_of_nodup_map hkeys.ids hk hk' h
  set keys := s.available.map (fun e => e.2) with hkeysdef
  have hkin : ∀ k ∈ keys, k ∈ all := by
    intro k hk
    obtain ⟨e, he, rfl⟩ := List.mem_map.1 hk
    exact ho.available e he
  have hkid : keys.map (fun k => k.ownerId) = dkeys s.available := by
    rw [hkeysdef, List.map_map]
    exact List.map_congr_left (fun e he => (b.available_own e he).symm)
  have hknodup : (keys.map (fun k => k.ownerId)).Nodup := by rw [hkid]; exact b.available_nodup
  have hkord : (keys.map (fun k => (k.sequenceOrder : ZMod E.P.q))).Nodup := by
    refine (List.nodup_map_iff_inj_on (List.Nodup.of_map _ hknodup)).2 (fun k hk k' hk' h => ?_)
    exact List.inj_on_of_nodup_map hkeys.orders (hkin k hk) (hkin k' hk') h
  -- the reconstructed shares
  have hrec : ∀ e ∈ s.missing, ∃ lagrange sh, lagrangeForGuardians E.P keys = .ok lagrange ∧
      reconstructShare E.P e.2 t.objectId t.toCts (filterByMissing e.1 s.compTally) lagrange = .ok sh ∧
      sh.objectId = t.objectId ∧ sh.guardianId = e.2.ownerId ∧
      ShareFor E ctx.cryptoExtendedBaseHash (polyAt (coef e.2.ownerId) 0) e.2.key t.toCts sh := by
    intro e he
    obtain ⟨g1, g2, g3⟩ := filterByMissing_spec e.1 s.compTally
    refine reconstructShare_right hv (coef e.2.ownerId) keys hknodup (fun k hk => hkeys.nonneg k (hkin k hk)) hkord ?_
      e.2 t.objectId t.toCts hdec.ids (fun s hs => (hdec.elements s hs).1) _ ?_ ?_
    · have h1 := hkeys.lengths e.2 (ho.missing e he)
      have h2 : keys.length = s.available.length := by rw [hkeysdef, List.length_map]
      omega
    · rw [hkid]
      refine (List.perm_ext_iff_of_nodup g1 b.available_nodup).2 (fun i => ?_)
      have := g2 i
      rw [hp (i, e.1), hcomps e.1 (mem_dkeys_of_mem he) i] at this
      exact this
    · intro x hx k hk hkx
      obtain ⟨k', hk', m', hm', h1, h2⟩ := ho.comps _ (g3 x hx)
      obtain ⟨h3, h4⟩ := Prod.mk.inj h1
      have hk'k : k' = k := hinj hk' (hkin k hk) (by rw [hkx]; exact h3.symm)
      rw [← hk'k, ← b.missing_own e he, show e.1 = m'.ownerId from h4]
      exact h2
  obtain ⟨L, hL⟩ : ∃ L, lagrangeForGuardians E.P keys = .ok L := by
    obtain ⟨L, hL, _⟩ := lagrange_right (E := E) hv [] keys hknodup (fun k hk => hkeys.nonneg k (hkin k hk)) hkord
      (Nat.zero_le _)
    exact ⟨_, hL⟩
  have hrec' : ∀ e : String × ElectionPublicKey, ∃ sh, e ∈ s.missing →
      reconstructShare E.P e.2 t.objectId t.toCts (filterByMissing e.1 s.compTally) L = .ok sh ∧
      sh.guardianId = e.1 ∧
      ShareFor E ctx.cryptoExtendedBaseHash (polyAt (coef e.1) 0) e.2.key t.toCts sh := by
    intro e
    by_cases he : e ∈ s.missing
    · obtain ⟨L', sh, h1, h2, _, h3, h4⟩ := hrec e he
      rw [hL] at h1
      cases h1
      refine ⟨sh, fun _ => ⟨h2, ?_, ?_⟩⟩
      · rw [h3, b.missing_own e he]
      · rw [b.missing_own e he]; exact h4
    · exact ⟨⟨"", "", 0, []⟩, fun h => absurd h he⟩
  choose f hf using hrec'
  have hloop := reconstructTallyLoop_right (P := E.P) t L s.compTally f s.missing s.tallyShares b.missing_nodup
    (fun i hi hc => b.disjoint i (by rw [← ho.shares]; exact hc) hi) (fun e he => (hf e he).1)
  have hres : s.reconstructTally E.P t
      = (.ok (), { s with tallyShares := s.tallyShares ++ s.missing.map (fun e => (e.1, f e)) }) := by
    unfold DM.reconstructTally
    have : s.available.map (·.2) = keys := rfl
    rw [this, hL]
    simp only [hloop]
  rw [hres]
  refine ⟨rfl, ?_⟩
  set shares := s.tallyShares ++ s.missing.map (fun e => (e.1, f e)) with hshares
  have hgid : ∀ e ∈ shares, e.2.guardianId = e.1 := by
    intro e he
    rcases List.mem_append.1 he with he | he
    · obtain ⟨k, _, _, h, _⟩ := ho.right e he
      exact h
    · obtain ⟨x, hx, rfl⟩ := List.mem_map.1 he
      exact (hf x hx).2.1
  have hkk : dkeys shares = dkeys s.available ++ dkeys s.missing := by
    simp only [hshares, dkeys, List.map_append, List.map_map]
    congr 1
    exact ho.shares
  have hgids : shares.map (fun e => e.2.guardianId) = dkeys s.available ++ dkeys s.missing := by
    rw [← hkk]
    exact List.map_congr_left hgid
  have hnodup : (dkeys s.available ++ dkeys s.missing).Nodup :=
    List.nodup_append.2 ⟨b.available_nodup, b.missing_nodup, fun i hi j hj h => b.disjoint i hi (h ▸ hj)⟩
  have hperm : (dkeys s.available ++ dkeys s.missing).Perm (all.map (fun k => k.ownerId)) := by
    refine List.Subperm.perm_of_length_le (List.subperm_of_subset hnodup ?_) ?_
    · intro i hi
      rcases List.mem_append.1 hi with hi | hi
      · obtain ⟨e, he, rfl⟩ := List.mem_map.1 hi
        exact List.mem_map.2 ⟨e.2, ho.available e he, (b.available_own e he).symm⟩
      · obtain ⟨e, he, rfl⟩ := List.mem_map.1 hi
        exact List.mem_map.2 ⟨e.2, ho.missing e he, (b.missing_own e he).symm⟩
    · simp only [dkeys, List.length_append, List.length_map]
      omega
  let pubs : String → Nat := fun i => ((all.find? (fun k => k.ownerId == i)).map (fun k => k.key)).getD 0
  have hpubs : ∀ k ∈ all, pubs k.ownerId = k.key := by
    intro k hk
    simp only [pubs]
    rw [find?_of_nodup (fun k : ElectionPublicKey => k.ownerId) hkeys.ids hk]
    rfl
  have hK : combinePublicKeys E.P (all.map (fun k => k.key))
      = (shares.map (fun e => E.P.g ^ polyAt (coef e.2.guardianId) 0)).prod % E.P.p := by
    rw [jointKey_eq hv all (fun k => k.key) (fun k => polyAt (coef k.ownerId) 0) hkeys.keys]
    have h1 : shares.map (fun e => E.P.g ^ polyAt (coef e.2.guardianId) 0)
        = (shares.map (fun e => e.2.guardianId)).map (fun i => E.P.g ^ polyAt (coef i) 0) := by
      rw [List.map_map]; rfl
    have h2 : all.map (fun k => E.P.g ^ polyAt (coef k.ownerId) 0)
        = (all.map (fun k => k.ownerId)).map (fun i => E.P.g ^ polyAt (coef i) 0) := by
      rw [List.map_map]; rfl
    rw [h1, h2, hgids, (hperm.map _).prod_eq]
  obtain ⟨d, hd1, hd2⟩ := decryptContests_right hv (baseHash := ctx.cryptoExtendedBaseHash) t.toCts shares
    (fun i => polyAt (coef i) 0) pubs m (by rw [hgids]; exact hnodup) (by
      intro e he
      rw [hgid e he]
      rcases List.mem_append.1 he with he | he
      · obtain ⟨k, hk, h1, _, h2⟩ := ho.right e he
        rw [← h1, hpubs k hk, h1]
        exact h2
      · obtain ⟨x, hx, rfl⟩ := List.mem_map.1 he
        have := (hf x hx).2.2
        simp only
        rw [show pubs x.1 = x.2.key by rw [b.missing_own x hx]; exact hpubs _ (ho.missing x hx)]
        exact this) hK hdec t.objectId
  refine ⟨⟨t.objectId, d⟩, ?_, rfl, hd2⟩
  unfold DM.plaintextTally
  have hready : readyToDecrypt ctx shares = true := by
    have : shares.length = s.available.length + s.missing.length := by
      have := congrArg List.length hkk
      simpa [dkeys] using this
    simp only [readyToDecrypt, beq_iff_eq]
    omega
  have hcomp' : DM.announcementComplete { s with tallyShares := shares } ctx = true := hcomplete
  simp only [hcomp', hready, Bool.not_true, Bool.or_self, Bool.false_eq_true, if_false]
  simp only [decryptTally, hd1, bind, Except.bind, pure, Except.pure, Option.map_some]

/-- C15 The shares in `C15_quorum_decrypts_partial` are those that honest guardians compute: a guardian with the right coordinate
of the polynomial of a missing guardian makes a compensated share, and it is right. -/
theorem C15_honest_compensation (hv : E.P.Valid) (as : List Nat) (av ms : ElectionPublicKey)
    (hcom : ms.commitments = as.map (fun a => E.P.g ^ a % E.P.p)) (hpos : 0 ≤ av.sequenceOrder) (t : Tally)
    (ctx : Context) (seeds : Nat → Nat → Nat) (hh : ctx.cryptoExtendedBaseHash < E.P.q) (hids : DistinctIds t.toCts)
    (hres : ∀ s ∈ ctSelections t.toCts, isValidResidue E.P s.ciphertext.pad = true ∧
      isValidResidue E.P s.ciphertext.data = true) :
    ∃ sh, computeCompTallyShare E true (polyAt as av.sequenceOrder.toNat % E.P.q) av ms t ctx seeds = some sh ∧
      sh.guardianId = av.ownerId ∧ sh.missingId = ms.ownerId ∧
      CompFor E ctx.cryptoExtendedBaseHash (polyAt as av.sequenceOrder.toNat % E.P.q) t.toCts sh := by
  obtain ⟨sh, h1, _, h2, h3, h4⟩ := compForContests_ok hv (recoveryKey_right hv as hcom hpos) t.objectId t.toCts ctx
    seeds hh hids hres
  exact ⟨sh, h1, h2, h3, h4⟩

/-- C15 The same for the share of the guardian itself. -/
theorem C15_honest_share (hv : E.P.Valid) (kp : ElectionKeyPair)
    (hk : kp.keyPair.pub = E.P.g ^ kp.keyPair.secret % E.P.p) (t : Tally) (ctx : Context) (seeds : Nat → Nat → Nat)
    (hh : ctx.cryptoExtendedBaseHash < E.P.q) (hids : DistinctIds t.toCts)
    (hres : ∀ s ∈ ctSelections t.toCts, isValidResidue E.P s.ciphertext.pad = true ∧
      isValidResidue E.P s.ciphertext.data = true) :
    ∃ sh, computeTallyShare E true kp t ctx seeds = some sh ∧ sh.guardianId = kp.share.ownerId ∧
      ShareFor E ctx.cryptoExtendedBaseHash kp.keyPair.secret kp.share.key t.toCts sh := by
  obtain ⟨sh, h1, _, h2, h3⟩ := shareForContests_ok hv kp hk t.objectId t.toCts ctx seeds hh hids hres
  exact ⟨sh, h1, h2, h3⟩

/-- Guardians `a` and `b` available, `c` missing: the numbers are 2, 1 and 3. -/
example : toyDecrypt (toyCalls [toyPair "b" 2, toyPair "a" 1] [toyPair "c" 3]
    [(toyPair "a" 1, toyPair "c" 3), (toyPair "b" 2, toyPair "c" 3)])
    = some [("c", [("sx", 2), ("sy", 1)]), ("d", [("sz", 3)])] := by decide +kernel

example : SharedKeys extraSmall 2 (toyPairs.map (fun kp => kp.share)) toyPoly := by
  constructor <;> decide +kernel

example : (DM.run extraSmall (toyCalls [toyPair "b" 2, toyPair "a" 1] [toyPair "c" 3]
    [(toyPair "a" 1, toyPair "c" 3), (toyPair "b" 2, toyPair "c" 3)])).announcementComplete toyDCtx = true := by
  decide +kernel

/-! ### C16 -/

theorem DM.run_received (ops : List DMOp) (p : String × String) :
    p ∈ dkeys (DM.run P ops).compTally ↔ p ∈ receivedPairs ops := by
  induction ops using List.reverseRecOn with
  | nil => simp [DM.run, DM.init, dkeys, receivedPairs]
  | append_singleton ops op ih =>
    rw [DM.run_concat]
    generalize DM.run P ops = s at ih
    have hsame : ∀ s' : DM, s'.compTally = s.compTally → receivedPairs [op] = [] →
        (p ∈ dkeys s'.compTally ↔ p ∈ receivedPairs (ops ++ [op])) := by
      intro s' h1 h2
      unfold receivedPairs at h2 ih ⊢
      rw [List.filterMap_append, h2, List.append_nil, h1]
      exact ih
    cases op with
    | announce k sh bs =>
      simp only [DM.step]
      by_cases hk : k.ownerId ∈ dkeys s.available
      · rw [DM.announce_of_mem s k sh bs hk]; exact hsame s rfl rfl
      · exact hsame _ (DM.announce_fields s k sh bs hk).2.2.2 rfl
    | announceMissing k => exact hsame _ (DM.announceMissing_fields s k).2.2.1 rfl
    | validateMissing ks => exact hsame _ rfl rfl
    | receiveTallyComp c =>
      have : receivedPairs (ops ++ [.receiveTallyComp c]) = receivedPairs ops ++ [(c.guardianId, c.missingId)] := by
        unfold receivedPairs
        rw [List.filterMap_append]
        rfl
      rw [this, List.mem_append, List.mem_singleton, ← ih]
      have : p ∈ dkeys (s.step P (.receiveTallyComp c)).compTally ↔
          p ∈ dkeys (dset s.compTally (c.guardianId, c.missingId) c) := Iff.rfl
      rw [this, mem_dkeys_dset]
      exact Or.comm
    | receiveBallotComp cs => exact hsame _ rfl rfl
    | reconstructTally t => exact hsame _ (DM.reconstructTally_fields (P := P) s t).2.2 rfl
    | reconstructBallots bs => exact hsame _ (DM.reconstructBallots_fields (P := P) s bs).2.2.2 rfl

/-- The selection is recovered from parts of exactly the guardians in `ids`. -/
def DecSelection.RecoveredFrom (d : DecSelection) (ids : List String) : Prop :=
  d.proof = none ∧ ∃ parts, d.recovered = some parts ∧ dkeys parts = ids

theorem mapM_keys {α β : Type} (f : α → R β) (l : List (String × α)) (r : List (String × β))
    (h : l.mapM (fun e => do return (e.1, ← f e.2)) = .ok r) : dkeys r = dkeys l := by
  induction l generalizing r with
  | nil => cases h; rfl
  | cons a l ih =>
    rw [List.mapM_cons] at h
    simp only [bind, Except.bind, pure, Except.pure] at h
    cases ha : f a.2 with
    | error e => rw [ha] at h; cases h
    | ok x =>
      rw [ha] at h
      simp only at h
      cases hl : l.mapM (fun e => do return (e.1, ← f e.2)) with
      | error e =>
        simp only [bind, Except.bind, pure, Except.pure] at hl
        rw [hl] at h; cases h
      | ok xs =>
        have := ih xs hl
        simp only [bind, Except.bind, pure, Except.pure] at hl
        rw [hl] at h
        cases h
        simp only [dkeys, List.map_cons, List.cons.injEq, true_and]
        exact this

theorem reconstructLoop_parts (missingId : String) (contestShares : List (String × CompContest))
    (lagrange : List (String × Nat)) (l : List CtSelection) (d r : List (String × DecSelection))
    (hd : ∀ e ∈ d, e.2.RecoveredFrom (dkeys contestShares))
    (h : reconstructLoop P missingId contestShares lagrange l d = .ok r) :
    ∀ e ∈ r, e.2.RecoveredFrom (dkeys contestShares) := by
  induction l generalizing d with
  | nil => cases h; exact hd
  | cons s l ih =>
    unfold reconstructLoop at h
    simp only [bind, Except.bind] at h
    cases hc : compsForSelection contestShares s.objectId with
    | error e => rw [hc] at h; cases h
    | ok comps =>
      rw [hc] at h
      simp only at h
      cases hp : sharePowers P lagrange comps with
      | error e => rw [hp] at h; cases h
      | ok pows =>
        rw [hp] at h
        refine ih _ (fun e he => ?_) h
        rcases mem_dset he with rfl | he
        · exact ⟨rfl, comps, rfl, mapM_keys (fun z : CompContest => dgetR z.selections s.objectId) _ _ hc⟩
        · exact hd e he

theorem reconstructShare_parts (missing : ElectionPublicKey) (objectId : String) (cs : List CtContest)
    (shares : List (String × CompShare)) (lagrange : List (String × Nat)) (sh : DecShare)
    (h : reconstructShare P missing objectId cs shares lagrange = .ok sh) :
    sh.publicKey = missing.key ∧ sh.guardianId = missing.ownerId ∧
    ∀ d ∈ sh.allSelections, d.RecoveredFrom (dkeys shares) := by
  unfold reconstructShare at h
  simp only [bind, Except.bind, pure, Except.pure] at h
  have gen : ∀ (l : List CtContest) (d r : List (String × DecContest)),
      (∀ e ∈ d, ∀ x ∈ e.2.selections, x.2.RecoveredFrom (dkeys shares)) →
      l.foldlM (fun d c => do
        let r ← reconstructContest P missing.ownerId c shares lagrange
        return dset d c.objectId r) d = Except.ok r →
      ∀ e ∈ r, ∀ x ∈ e.2.selections, x.2.RecoveredFrom (dkeys shares) := by
    intro l
    induction l with
    | nil => intro d r hd h; cases h; exact hd
    | cons c l ih =>
      intro d r hd h
      rw [List.foldlM_cons] at h
      simp only [bind, Except.bind, pure, Except.pure] at h
      cases hc : reconstructContest P missing.ownerId c shares lagrange with
      | error e => rw [hc] at h; cases h
      | ok x =>
        rw [hc] at h
        refine ih _ r (fun e he => ?_) h
        rcases mem_dset he with rfl | he
        · unfold reconstructContest at hc
          simp only [bind, Except.bind, pure, Except.pure] at hc
          cases hm : shares.mapM (fun e => do return (e.1, ← dgetR e.2.contests c.objectId)) with
          | error e =>
            simp only [bind, Except.bind, pure, Except.pure] at hm
            rw [hm] at hc; cases hc
          | ok css =>
            have hk := mapM_keys (fun z : CompShare => dgetR z.contests c.objectId) shares css hm
            simp only [bind, Except.bind, pure, Except.pure] at hm
            rw [hm] at hc
            simp only at hc
            cases hl : reconstructLoop P missing.ownerId css lagrange c.selections [] with
            | error e => rw [hl] at hc; cases hc
            | ok sels =>
              rw [hl] at hc
              cases hc
              intro y hy
              rw [← hk]
              exact reconstructLoop_parts _ _ _ _ _ _ (by simp) hl y hy
        · exact hd e he
  cases hf : cs.foldlM (fun d c => do
      let r ← reconstructContest P missing.ownerId c shares lagrange
      return dset d c.objectId r) [] with
  | error e =>
    simp only [bind, Except.bind, pure, Except.pure] at hf
    rw [hf] at h; cases h
  | ok contests =>
    have hg := gen cs [] contests (by simp) hf
    simp only [bind, Except.bind, pure, Except.pure] at hf
    rw [hf] at h
    cases h
    refine ⟨rfl, rfl, fun d hd => ?_⟩
    unfold DecShare.allSelections at hd
    obtain ⟨e, he, hd⟩ := List.mem_flatMap.1 hd
    obtain ⟨x, hx, rfl⟩ := List.mem_map.1 hd
    exact hg e he x hx

theorem reconstructTallyLoop_parts (t : Tally) (lagrange : List (String × Nat))
    (comps : List ((String × String) × CompShare)) (ms : List (String × ElectionPublicKey))
    (shares : List (String × DecShare)) :
    ∀ e ∈ (reconstructTallyLoop P t lagrange comps ms shares).2, e ∈ shares ∨
      (∀ d ∈ e.2.allSelections, d.RecoveredFrom (dkeys (filterByMissing e.1 comps))) := by
  induction ms generalizing shares with
  | nil => exact fun e he => Or.inl he
  | cons m ms ih =>
    obtain ⟨id, k⟩ := m
    unfold reconstructTallyLoop
    split
    · exact ih shares
    · cases hr : reconstructShare P k t.objectId t.toCts (filterByMissing id comps) lagrange with
      | error e => exact fun e he => Or.inl he
      | ok sh =>
        intro e he
        rcases ih (dset shares id sh) e he with h | h
        · rcases mem_dset h with rfl | h
          · exact Or.inr (reconstructShare_parts k _ _ _ _ _ hr).2.2
          · exact Or.inl h
        · exact Or.inr h

/-- C16 What holds in place of it: the share of a guardian that did not announce itself was made by a reconstruction, and
every selection in it names, as its parts, exactly the guardians whose compensated shares for that guardian had been
received by then.  So whoever checks these parts against the available guardians can tell that some are missing; the
mediator itself does not check. -/
theorem C16_parts_name_contributors_partial (ops : List DMOp) (i : String) (sh : DecShare)
    (h : dget (DM.run P ops).tallyShares i = some sh)
    (hna : i ∉ (announcedKeys ops).map (fun k => k.ownerId)) :
    ∃ pre t post, ops = pre ++ [.reconstructTally t] ++ post ∧
      ∀ d ∈ sh.allSelections, d.proof = none ∧ ∃ parts, d.recovered = some parts ∧ (dkeys parts).Nodup ∧
        ∀ j, j ∈ dkeys parts ↔ (j, i) ∈ receivedPairs pre := by
  induction ops using List.reverseRecOn with
  | nil => simp [DM.run, DM.init, dget_nil] at h
  | append_singleton ops op ih =>
    have hna' : i ∉ (announcedKeys ops).map (fun k => k.ownerId) := by
      intro hi
      refine hna ?_
      unfold announcedKeys at hi ⊢
      rw [List.filterMap_append, List.map_append]
      exact List.mem_append_left _ hi
    have lift : dget (DM.run P ops).tallyShares i = some sh →
        ∃ pre t post, ops ++ [op] = pre ++ [.reconstructTally t] ++ post ∧
      ∀ d ∈ sh.allSelections, d.proof = none ∧ ∃ parts, d.recovered = some parts ∧ (dkeys parts).Nodup ∧
        ∀ j, j ∈ dkeys parts ↔ (j, i) ∈ receivedPairs pre := by
      intro h
      obtain ⟨pre, t, post, h1, h2⟩ := ih h hna'
      exact ⟨pre, t, post ++ [op], by rw [h1]; simp, h2⟩
    rw [DM.run_concat] at h
    cases op with
    | announce k sh' bs =>
      simp only [DM.step] at h
      by_cases hk : k.ownerId ∈ dkeys (DM.run P ops).available
      · rw [DM.announce_of_mem _ k sh' bs hk] at h; exact lift h
      · rw [(DM.announce_fields _ k sh' bs hk).2.2.1, dget_dset, if_neg] at h
        · exact lift h
        · intro he
          refine hna ?_
          unfold announcedKeys
          rw [List.filterMap_append, List.map_append, ← he]
          exact List.mem_append_right _ (by simp)
    | announceMissing k =>
      simp only [DM.step] at h
      rw [(DM.announceMissing_fields _ k).2.1] at h
      exact lift h
    | validateMissing ks => exact lift h
    | receiveTallyComp c => exact lift h
    | receiveBallotComp cs => exact lift h
    | reconstructTally t =>
      simp only [DM.step, DM.reconstructTally] at h
      cases hl : lagrangeForGuardians P ((DM.run P ops).available.map (·.2)) with
      | error e => rw [hl] at h; exact lift h
      | ok lagrange =>
        rw [hl] at h
        simp only at h
        rcases reconstructTallyLoop_parts (P := P) t lagrange (DM.run P ops).compTally (DM.run P ops).missing
          (DM.run P ops).tallyShares _ (mem_of_dget h) with h' | h'
        · exact lift (dget_of_mem (DM.run_book (P := P) ops).tally_nodup h')
        · refine ⟨ops, t, [], by simp, fun d hd => ?_⟩
          obtain ⟨h1, parts, h2, h3⟩ := h' d hd
          obtain ⟨g1, g2, _⟩ := filterByMissing_spec i (DM.run P ops).compTally
          exact ⟨h1, parts, h2, by rw [h3]; exact g1, fun j => by rw [h3, g2 j, DM.run_received]⟩
    | reconstructBallots bs =>
      simp only [DM.step] at h
      rw [(DM.reconstructBallots_fields (P := P) _ bs).2.2.1] at h
      exact lift h

/-- C16 does not hold: with `a` and `b` available and `c` missing, the reconstruction is made from the compensated share
of `a` alone, or from none at all, and a tally is returned with wrong numbers.  (In a group of production size the wrong
values have, but for chance, no discrete logarithm within the limit, and the call raises.) -/
theorem C16_fails :
    toyDecrypt (toyCalls [toyPair "a" 1, toyPair "b" 2] [toyPair "c" 3] [(toyPair "a" 1, toyPair "c" 3)])
      = some [("c", [("sx", 0), ("sy", 7)]), ("d", [("sz", 4)])] ∧
    toyDecrypt (toyCalls [toyPair "a" 1, toyPair "b" 2] [toyPair "c" 3] [])
      = some [("c", [("sx", 1), ("sy", 4)]), ("d", [("sz", 10)])] ∧
    toyDecrypt (toyCalls [toyPair "a" 1, toyPair "b" 2] [toyPair "c" 3]
      [(toyPair "a" 1, toyPair "c" 3), (toyPair "b" 2, toyPair "c" 3)])
      = some [("c", [("sx", 2), ("sy", 1)]), ("d", [("sz", 3)])] := by
  refine ⟨?_, ?_, ?_⟩ <;> decide +kernel

end EG
