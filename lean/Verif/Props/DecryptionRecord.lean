import Verif.Spec.DecryptionRecord
import Verif.Lemmas.Record
import Verif.Props.DecryptionMediator

/-!
# What the decryption mediator decrypts with (C110)
-/

namespace EG

variable {P : Params}

/-- The common shape of the two loops over the missing guardians. -/
def giveShares (rec : String → ElectionPublicKey → R DecShare) : List (String × ElectionPublicKey) →
    List (String × DecShare) → R Unit × List (String × DecShare)
  | [], shares => (.ok (), shares)
  | (id, k) :: rest, shares =>
    if id ∈ dkeys shares then giveShares rec rest shares
    else match rec id k with
      | .error e => (.error e, shares)
      | .ok sh => giveShares rec rest (dset shares id sh)

theorem tallyLoop_eq (s : DM) (t : Tally) (lagrange : List (String × Nat)) (ms : List (String × ElectionPublicKey))
    (shares : List (String × DecShare)) :
    reconstructTallyLoop P t lagrange s.compTally ms shares = giveShares (s.tallyRec P lagrange t) ms shares := by
  induction ms generalizing shares with
  | nil => rfl
  | cons m ms ih =>
    obtain ⟨id, k⟩ := m
    unfold reconstructTallyLoop giveShares DM.tallyRec
    split
    · exact ih _
    · split
      · rename_i h; rw [h]
      · rename_i h; rw [h]; exact ih _

theorem ballotLoop_eq (s : DM) (b : SBallot) (lagrange : List (String × Nat)) (ms : List (String × ElectionPublicKey))
    (shares : List (String × DecShare)) :
    reconstructBallotLoop P b lagrange s.compBallot ms shares = giveShares (s.ballotRec P lagrange b) ms shares := by
  induction ms generalizing shares with
  | nil => rfl
  | cons m ms ih =>
    obtain ⟨id, k⟩ := m
    unfold reconstructBallotLoop giveShares
    split
    · exact ih _
    · unfold dgetR
      cases hc : dget s.compBallot b.objectId with
      | none =>
        have : s.ballotRec P lagrange b id k = .error .key := by simp only [DM.ballotRec, hc]
        rw [this]
      | some comps =>
        have : s.ballotRec P lagrange b id k = reconstructShare P k b.objectId b.toCts (filterByMissing id comps) lagrange := by
          simp only [DM.ballotRec, hc]
        rw [this]
        simp only
        cases reconstructShare P k b.objectId b.toCts (filterByMissing id comps) lagrange with
        | error e => rfl
        | ok sh => exact ih _

/-- Adding a share for a guardian that is not in the rest of the list does not matter for the rest. -/
theorem allReached_dset (rec : String → ElectionPublicKey → R DecShare) (ms : List (String × ElectionPublicKey))
    (shares : List (String × DecShare)) (id : String) (sh : DecShare) (h : id ∉ dkeys ms) :
    AllReached rec ms (dset shares id sh) ↔ AllReached rec ms shares := by
  unfold AllReached
  refine forall₂_congr fun e he => ?_
  rw [mem_dkeys_dset]
  have : e.1 ≠ id := fun h' => h (h' ▸ mem_dkeys_of_mem he)
  simp [this]

theorem giveShares_ok (rec : String → ElectionPublicKey → R DecShare) (ms : List (String × ElectionPublicKey))
    (hn : (dkeys ms).Nodup) (shares : List (String × DecShare)) :
    (giveShares rec ms shares).1 = .ok () ↔ AllReached rec ms shares := by
  induction ms generalizing shares with
  | nil => simp [giveShares, AllReached]
  | cons m ms ih =>
    obtain ⟨id, k⟩ := m
    have hn' : id ∉ dkeys ms ∧ (dkeys ms).Nodup := List.nodup_cons.1 hn
    unfold giveShares
    have hcons : AllReached rec ((id, k) :: ms) shares ↔ (id ∈ dkeys shares ∨ ∃ sh, rec id k = .ok sh) ∧ AllReached rec ms shares :=
      List.forall_mem_cons
    rw [hcons]
    split
    · rename_i h; rw [ih hn'.2]; simp [h]
    · rename_i h
      cases hr : rec id k with
      | error e => simp [h]
      | ok sh => simp only; rw [ih hn'.2, allReached_dset _ _ _ _ _ hn'.1]; simp

theorem giveShares_keys (rec : String → ElectionPublicKey → R DecShare) (ms : List (String × ElectionPublicKey))
    (shares : List (String × DecShare)) (i : String) (h : i ∈ dkeys shares) :
    dget (giveShares rec ms shares).2 i = dget shares i ∧ i ∈ dkeys (giveShares rec ms shares).2 := by
  induction ms generalizing shares with
  | nil => exact ⟨rfl, h⟩
  | cons m ms ih =>
    obtain ⟨id, k⟩ := m
    unfold giveShares
    split
    · exact ih _ h
    · rename_i hid
      cases rec id k with
      | error e => exact ⟨rfl, h⟩
      | ok sh =>
        have := ih (dset shares id sh) (mem_dkeys_dset.2 (Or.inr h))
        refine ⟨this.1.trans ?_, this.2⟩
        rw [dget_dset, if_neg]
        rintro rfl; exact hid h

/-- After the loop has ended well everybody has a share. -/
theorem giveShares_all (rec : String → ElectionPublicKey → R DecShare) (ms : List (String × ElectionPublicKey))
    (shares : List (String × DecShare)) (h : (giveShares rec ms shares).1 = .ok ()) (e : String × ElectionPublicKey) (he : e ∈ ms) :
    e.1 ∈ dkeys (giveShares rec ms shares).2 := by
  induction ms generalizing shares with
  | nil => cases he
  | cons m ms ih =>
    obtain ⟨id, k⟩ := m
    unfold giveShares at h ⊢
    split at h
    · rename_i hid
      rw [if_pos hid]
      rcases List.mem_cons.1 he with rfl | he
      · exact (giveShares_keys rec ms shares _ hid).2
      · exact ih _ h he
    · rename_i hid
      rw [if_neg hid]
      cases hr : rec id k with
      | error e => rw [hr] at h; cases h
      | ok sh =>
        rw [hr] at h
        simp only at h ⊢
        rcases List.mem_cons.1 he with rfl | he
        · exact (giveShares_keys rec ms (dset shares id sh) _ (mem_dkeys_dset.2 (Or.inl rfl))).2
        · exact ih _ h he

theorem giveShares_put (rec : String → ElectionPublicKey → R DecShare) (ms : List (String × ElectionPublicKey))
    (hn : (dkeys ms).Nodup) (shares : List (String × DecShare)) (i : String) (sh : DecShare) (h : Reaches rec ms shares i sh) :
    dget (giveShares rec ms shares).2 i = some sh := by
  obtain ⟨hi, k, before, after, rfl, hr, hb⟩ := h
  induction before generalizing shares with
  | nil =>
    rw [List.nil_append]
    unfold giveShares
    rw [if_neg hi, hr]
    simp only
    rw [(giveShares_keys rec after (dset shares i sh) i (mem_dkeys_dset.2 (Or.inl rfl))).1, dget_dset, if_pos rfl]
  | cons m before ih =>
    obtain ⟨id, k'⟩ := m
    have hn' : id ∉ dkeys (before ++ (i, k) :: after) ∧ (dkeys (before ++ (i, k) :: after)).Nodup := List.nodup_cons.1 hn
    have hne : id ≠ i := fun h => hn'.1 (by simp [dkeys, h])
    have hid : id ∉ dkeys before := fun h => hn'.1 (by simp only [dkeys, List.map_append, List.mem_append]; exact Or.inl h)
    obtain ⟨h1, h2⟩ := List.forall_mem_cons.1 hb
    rw [List.cons_append]
    unfold giveShares
    split
    · exact ih _ hi hn'.2 h2
    · rename_i hs
      obtain ⟨sh', hr'⟩ := h1.resolve_left hs
      simp only at hr'
      rw [hr']
      simp only
      refine ih _ ?_ hn'.2 ((allReached_dset _ _ _ _ _ hid).2 h2)
      rw [mem_dkeys_dset]
      rintro (h | h)
      · exact hne h.symm
      · exact hi h

theorem giveShares_keep (rec : String → ElectionPublicKey → R DecShare) (ms : List (String × ElectionPublicKey))
    (hn : (dkeys ms).Nodup) (shares : List (String × DecShare)) (i : String) (h : ∀ sh, ¬ Reaches rec ms shares i sh) :
    dget (giveShares rec ms shares).2 i = dget shares i := by
  by_cases hi : i ∈ dkeys shares
  · exact (giveShares_keys rec ms shares i hi).1
  induction ms generalizing shares with
  | nil => rfl
  | cons m ms ih =>
    obtain ⟨id, k⟩ := m
    have hn' : id ∉ dkeys ms ∧ (dkeys ms).Nodup := List.nodup_cons.1 hn
    unfold giveShares
    split
    · rename_i hs
      refine ih hn'.2 _ (fun sh hr => h sh ?_) hi
      obtain ⟨h1, k', b, a, rfl, h2, h3⟩ := hr
      exact ⟨h1, k', (id, k) :: b, a, rfl, h2, List.forall_mem_cons.2 ⟨Or.inl hs, h3⟩⟩
    · rename_i hs
      cases hr : rec id k with
      | error e => rfl
      | ok sh' =>
        simp only
        have hne : id ≠ i := by
          rintro rfl
          exact h sh' ⟨hi, k, [], ms, rfl, hr, fun e he => by cases he⟩
        have hi' : i ∉ dkeys (dset shares id sh') := by
          rw [mem_dkeys_dset]
          rintro (h | h)
          · exact hne h.symm
          · exact hi h
        rw [ih hn'.2 _ (fun sh hr' => h sh ?_) hi', dget_dset, if_neg hne]
        obtain ⟨h1, k', b, a, rfl, h2, h3⟩ := hr'
        refine ⟨hi, k', (id, k) :: b, a, rfl, h2, List.forall_mem_cons.2 ⟨Or.inr ⟨sh', hr⟩, ?_⟩⟩
        refine (allReached_dset _ _ _ _ _ (fun h => hn'.1 ?_)).1 h3
        simp only [dkeys, List.map_append, List.mem_append]
        exact Or.inl h

theorem step_tallyShares (s : DM) (op : DMOp) (h : ∀ k sh bs, op ≠ .announce k sh bs) (h' : ∀ t, op ≠ .reconstructTally t) :
    (s.step P op).tallyShares = s.tallyShares := by
  cases op with
  | announce k sh bs => exact absurd rfl (h k sh bs)
  | announceMissing k => exact (DM.announceMissing_fields s k).2.1
  | validateMissing ks => rfl
  | receiveTallyComp c => rfl
  | receiveBallotComp cs => rfl
  | reconstructTally t => exact absurd rfl (h' t)
  | reconstructBallots bs => exact (DM.reconstructBallots_fields s bs).2.2.1

theorem tallyShare_keep (s : DM) (op : DMOp) (i : String) (hb : s.Book) (h : ∀ r, ¬ PutsTallyShare P s i op r) :
    dget (s.step P op).tallyShares i = dget s.tallyShares i := by
  by_cases h1 : ∃ k sh bs, op = .announce k sh bs
  · obtain ⟨k, sh, bs, rfl⟩ := h1
    simp only [DM.step]
    by_cases hk : k.ownerId ∈ dkeys s.available
    · rw [DM.announce_of_mem s k sh bs hk]
    · rw [(DM.announce_fields s k sh bs hk).2.2.1, dget_dset, if_neg]
      rintro rfl
      exact h _ (Or.inl ⟨k, sh, bs, rfl, rfl, hk, rfl⟩)
  · by_cases h2 : ∃ t, op = .reconstructTally t
    · obtain ⟨t, rfl⟩ := h2
      simp only [DM.step, DM.reconstructTally]
      cases hl : lagrangeForGuardians P (s.available.map (·.2)) with
      | error e => rfl
      | ok l =>
        simp only
        rw [tallyLoop_eq]
        exact giveShares_keep _ _ hb.missing_nodup _ _ fun sh hr => h _ (Or.inr ⟨t, l, sh, rfl, hl, rfl, hr⟩)
    · rw [step_tallyShares s op (fun k sh bs h => h1 ⟨k, sh, bs, h⟩) (fun t h => h2 ⟨t, h⟩)]

/-- C110: after any calls the share of the tally on record for a guardian is the one that came last: with its first announcement, which
replaces a reconstructed one, or by a reconstruction while it had none. -/
theorem C110_tally_share (P : Params) (ops : List DMOp) (i : String) (sh : DecShare) :
    dget (DM.run P ops).tallyShares i = some sh ↔ LastPut (DM.run P) (fun s => PutsTallyShare P s i) ops sh := by
  refine record_iff (DM.run P) (fun s op => s.step P op) DM.Book DM.run_concat (fun s => dget s.tallyShares i) _ rfl DM.run_book ?_ ?_ ops sh
  · rintro s op r hb (⟨k, sh, bs, rfl, rfl, hk, rfl⟩ | ⟨t, l, sh, rfl, hl, rfl, h⟩)
    · simp only [DM.step]
      rw [(DM.announce_fields s k sh bs hk).2.2.1, dget_dset, if_pos rfl]
    · simp only [DM.step, DM.reconstructTally, hl]
      rw [tallyLoop_eq]
      exact giveShares_put _ _ hb.missing_nodup _ _ _ h
  · exact fun s op hb h => tallyShare_keep s op i hb h

/-- C110: a share of the tally once on record stays there, whatever is delivered, reported missing or reconstructed later, for this or
another tally, until its guardian announces itself for the first time. -/
theorem C110_tally_share_stays (P : Params) (ops more : List DMOp) (i : String) (sh : DecShare)
    (h : dget (DM.run P ops).tallyShares i = some sh) (hm : ∀ k t bs, DMOp.announce k t bs ∈ more → k.ownerId ≠ i) :
    dget (DM.run P (ops ++ more)).tallyShares i = some sh := by
  induction more using List.reverseRecOn with
  | nil => simpa using h
  | append_singleton more op ih =>
    have ih := ih fun k t bs hk => hm k t bs (by simp [hk])
    rw [← List.append_assoc, DM.run_concat, tallyShare_keep _ _ _ (DM.run_book _), ih]
    rintro r (⟨k, t, bs, rfl, hk, -⟩ | ⟨t, l, sh', rfl, -, -, h1, -⟩)
    · exact hm k t bs (by simp) hk
    · exact h1 ((mem_dkeys_iff _ _).2 ⟨sh, ih⟩)

/-- A reconstruction that was made too early is not repaired: the compensation of `b` comes after the first reconstruction, and a second
one, which now has all compensations, leaves the wrong numbers of C16_fails.  Only when `c` turns up itself are they right. -/
theorem C110_early_reconstruction_fails :
    let early := toyCalls [toyPair "a" 1, toyPair "b" 2] [toyPair "c" 3] [(toyPair "a" 1, toyPair "c" 3)] ++
      [.reconstructTally (toyDTally "sz"), .receiveTallyComp (toyComp (toyDTally "sz") (toyPair "b" 2) (toyPair "c" 3))]
    toyDecrypt early = some [("c", [("sx", 0), ("sy", 7)]), ("d", [("sz", 4)])] ∧
    toyDecrypt (early ++ [.announce (toyPair "c" 3).share (toyShare (toyDTally "sz") (toyPair "c" 3)) none]) =
      some [("c", [("sx", 2), ("sy", 1)]), ("d", [("sz", 3)])] := by
  refine ⟨?_, ?_⟩ <;> decide +kernel

/-- The last call that put a share of `c` on record is the reconstruction. -/
example : ∃ sh, LastPut (DM.run extraSmall) (fun s => PutsTallyShare extraSmall s "c")
    (toyCalls [toyPair "a" 1, toyPair "b" 2] [toyPair "c" 3] [(toyPair "a" 1, toyPair "c" 3)] ++ [.reconstructTally (toyDTally "sz")]) sh := by
  simp only [← C110_tally_share]
  exact (mem_dkeys_iff _ _).1 (by decide +kernel)

/-! ### Ballots -/

/-- The share of a ballot on record for a guardian. -/
def DM.ballotShare (s : DM) (ballot i : String) : Option DecShare := (dget s.ballotShares ballot).bind (fun shares => dget shares i)

/-- The part of `PutsBallotShare` about reconstruction. -/
def FillsBallot (P : Params) (s : DM) (lagrange : List (String × Nat)) (bs : List SBallot) (ballot i : String) (sh : DecShare) : Prop :=
  ∃ b before after shares, bs = before ++ b :: after ∧ b.objectId = ballot ∧ (∀ b' ∈ before, b'.objectId ≠ ballot) ∧
    (∀ pre b' post, before = pre ++ b' :: post → (∀ x ∈ pre, x.objectId ≠ b'.objectId) →
      ∃ shares', dget s.ballotShares b'.objectId = some shares' ∧ AllReached (s.ballotRec P lagrange b') s.missing shares') ∧
    dget s.ballotShares ballot = some shares ∧ Reaches (s.ballotRec P lagrange b) s.missing shares i sh

/-- The state after one ballot. -/
def DM.afterBallot (P : Params) (s : DM) (lagrange : List (String × Nat)) (b : SBallot) (shares : List (String × DecShare)) : DM :=
  { s with ballotShares := dset s.ballotShares b.objectId (giveShares (s.ballotRec P lagrange b) s.missing shares).2 }

theorem ballotsLoop_none (s : DM) (lagrange : List (String × Nat)) (b : SBallot) (bs : List SBallot)
    (h : dget s.ballotShares b.objectId = none) : (reconstructBallotsLoop P lagrange (b :: bs) s).2 = s := by
  unfold reconstructBallotsLoop dgetR
  rw [h]

theorem ballotsLoop_error (s : DM) (lagrange : List (String × Nat)) (b : SBallot) (bs : List SBallot) (shares : List (String × DecShare))
    (h : dget s.ballotShares b.objectId = some shares) (hn : (dkeys s.missing).Nodup)
    (hr : ¬ AllReached (s.ballotRec P lagrange b) s.missing shares) :
    (reconstructBallotsLoop P lagrange (b :: bs) s).2 = s.afterBallot P lagrange b shares := by
  unfold reconstructBallotsLoop dgetR
  rw [h]
  simp only
  rw [ballotLoop_eq]
  rw [← giveShares_ok _ _ hn] at hr
  cases hg : (giveShares (s.ballotRec P lagrange b) s.missing shares).1 with
  | ok u => exact absurd hg hr
  | error e => rfl

theorem ballotsLoop_ok (s : DM) (lagrange : List (String × Nat)) (b : SBallot) (bs : List SBallot) (shares : List (String × DecShare))
    (h : dget s.ballotShares b.objectId = some shares) (hn : (dkeys s.missing).Nodup)
    (hr : AllReached (s.ballotRec P lagrange b) s.missing shares) :
    (reconstructBallotsLoop P lagrange (b :: bs) s).2 = (reconstructBallotsLoop P lagrange bs (s.afterBallot P lagrange b shares)).2 := by
  conv_lhs => unfold reconstructBallotsLoop
  unfold dgetR
  rw [h]
  simp only
  rw [ballotLoop_eq, (giveShares_ok _ _ hn _).2 hr]
  rfl

theorem ballotShare_after (s : DM) (lagrange : List (String × Nat)) (b : SBallot) (shares : List (String × DecShare))
    (ballot i : String) :
    (s.afterBallot P lagrange b shares).ballotShare ballot i =
      if b.objectId = ballot then dget (giveShares (s.ballotRec P lagrange b) s.missing shares).2 i else s.ballotShare ballot i := by
  unfold DM.ballotShare DM.afterBallot
  simp only
  rw [dget_dset]
  split <;> rfl

/-- What is filled in the state after a ballot with another id that did not raise. -/
theorem fillsBallot_after (s : DM) (lagrange : List (String × Nat)) (b : SBallot) (bs : List SBallot) (shares : List (String × DecShare))
    (ballot i : String) (sh : DecShare) (h : dget s.ballotShares b.objectId = some shares) (hn : (dkeys s.missing).Nodup)
    (hr : AllReached (s.ballotRec P lagrange b) s.missing shares) (hne : b.objectId ≠ ballot) :
    FillsBallot P (s.afterBallot P lagrange b shares) lagrange bs ballot i sh ↔ FillsBallot P s lagrange (b :: bs) ballot i sh := by
  have hother : ∀ x, x ≠ b.objectId → dget (s.afterBallot P lagrange b shares).ballotShares x = dget s.ballotShares x := by
    intro x hx
    unfold DM.afterBallot
    simp only
    rw [dget_dset, if_neg (Ne.symm hx)]
  have hsame : dget (s.afterBallot P lagrange b shares).ballotShares b.objectId =
      some (giveShares (s.ballotRec P lagrange b) s.missing shares).2 := by
    unfold DM.afterBallot
    simp only
    rw [dget_dset, if_pos rfl]
  constructor
  · rintro ⟨c, before, after, shares', rfl, hc, h1, h2, h3, h4⟩
    rw [hother _ (Ne.symm hne)] at h3
    refine ⟨c, b :: before, after, shares', rfl, hc, List.forall_mem_cons.2 ⟨hne, h1⟩, fun pre b' post he hpre => ?_, h3, h4⟩
    cases pre with
    | nil => cases he; exact ⟨shares, h, hr⟩
    | cons x pre =>
      cases he
      obtain ⟨hx, hpre⟩ := List.forall_mem_cons.1 hpre
      obtain ⟨sh', g1, g2⟩ := h2 pre b' post rfl hpre
      rw [hother _ (Ne.symm hx)] at g1
      exact ⟨sh', g1, g2⟩
  · rintro ⟨c, before, after, shares', he, hc, h1, h2, h3, h4⟩
    cases before with
    | nil => cases he; exact absurd hc hne
    | cons x before =>
      cases he
      refine ⟨c, before, after, shares', rfl, hc, (List.forall_mem_cons.1 h1).2, fun pre b' post he hpre => ?_,
        by rw [hother _ (Ne.symm hne)]; exact h3, h4⟩
      subst he
      by_cases hb : b'.objectId = b.objectId
      · rw [hb]
        exact ⟨_, hsame, fun e hm => Or.inl (giveShares_all _ _ _ ((giveShares_ok _ _ hn _).2 hr) e hm)⟩
      · obtain ⟨sh', g1, g2⟩ := h2 (b :: pre) b' post rfl (List.forall_mem_cons.2 ⟨Ne.symm hb, hpre⟩)
        exact ⟨sh', by rw [hother _ hb]; exact g1, g2⟩

/-- A ballot with this id comes first. -/
theorem fillsBallot_here (s : DM) (lagrange : List (String × Nat)) (b : SBallot) (bs : List SBallot) (shares : List (String × DecShare))
    (i : String) (sh : DecShare) (h : dget s.ballotShares b.objectId = some shares) :
    FillsBallot P s lagrange (b :: bs) b.objectId i sh ↔ Reaches (s.ballotRec P lagrange b) s.missing shares i sh := by
  constructor
  · rintro ⟨c, before, after, shares', he, hc, h1, -, h3, h4⟩
    cases before with
    | nil =>
      cases he
      rw [h] at h3
      cases h3
      exact h4
    | cons x before =>
      cases he
      exact absurd rfl (h1 b List.mem_cons_self)
  · intro hr
    exact ⟨b, [], bs, shares, rfl, rfl, by simp, fun pre b' post he => by simp at he, h, hr⟩

theorem ballotsLoop_spec (lagrange : List (String × Nat)) (bs : List SBallot) (s : DM) (hn : (dkeys s.missing).Nodup) (ballot i : String) :
    (∀ sh, FillsBallot P s lagrange bs ballot i sh → (reconstructBallotsLoop P lagrange bs s).2.ballotShare ballot i = some sh) ∧
    ((∀ sh, ¬ FillsBallot P s lagrange bs ballot i sh) →
      (reconstructBallotsLoop P lagrange bs s).2.ballotShare ballot i = s.ballotShare ballot i) := by
  induction bs generalizing s with
  | nil => exact ⟨fun sh ⟨b, x, y, _, h, _⟩ => by simp at h, fun _ => rfl⟩
  | cons b bs ih =>
    cases h : dget s.ballotShares b.objectId with
    | none =>
      rw [ballotsLoop_none s lagrange b bs h]
      refine ⟨?_, fun _ => rfl⟩
      rintro sh ⟨c, before, after, shares', he, hc, h1, h2, h3, h4⟩
      cases before with
      | nil => cases he; rw [hc, h3] at h; cases h
      | cons x before =>
        cases he
        obtain ⟨sh', g1, -⟩ := h2 [] b before rfl (by simp)
        rw [h] at g1; cases g1
    | some shares =>
      by_cases hr : AllReached (s.ballotRec P lagrange b) s.missing shares
      · rw [ballotsLoop_ok s lagrange b bs shares h hn hr]
        obtain ⟨i1, i2⟩ := ih (s.afterBallot P lagrange b shares) hn
        by_cases hb : b.objectId = ballot
        · subst hb
          have hno : ∀ sh, ¬ FillsBallot P (s.afterBallot P lagrange b shares) lagrange bs b.objectId i sh := by
            rintro sh ⟨c, before, after, shares', rfl, hc, h1, h2, h3, h4⟩
            unfold DM.afterBallot at h3
            simp only at h3
            rw [dget_dset, if_pos rfl] at h3
            cases h3
            obtain ⟨g1, k, x, y, g2, -⟩ := h4
            refine g1 (giveShares_all _ _ _ ((giveShares_ok _ _ hn _).2 hr) (i, k) ?_)
            have : (s.afterBallot P lagrange b shares).missing = s.missing := rfl
            rw [← this, g2]
            simp
          rw [i2 hno, ballotShare_after, if_pos rfl]
          simp only [fillsBallot_here s lagrange b bs shares i _ h]
          refine ⟨fun sh hs => giveShares_put _ _ hn _ _ _ hs, fun hs => ?_⟩
          rw [giveShares_keep _ _ hn _ _ hs]
          unfold DM.ballotShare
          rw [h]; rfl
        · simp only [fillsBallot_after s lagrange b bs shares ballot i _ h hn hr hb] at i1 i2
          refine ⟨i1, fun hs => ?_⟩
          rw [i2 hs, ballotShare_after, if_neg hb]
      · rw [ballotsLoop_error s lagrange b bs shares h hn hr, ballotShare_after]
        by_cases hb : b.objectId = ballot
        · subst hb
          rw [if_pos rfl]
          simp only [fillsBallot_here s lagrange b bs shares i _ h]
          refine ⟨fun sh hs => giveShares_put _ _ hn _ _ _ hs, fun hs => ?_⟩
          rw [giveShares_keep _ _ hn _ _ hs]
          unfold DM.ballotShare
          rw [h]; rfl
        · rw [if_neg hb]
          refine ⟨?_, fun _ => rfl⟩
          rintro sh ⟨c, before, after, shares', he, hc, h1, h2, h3, h4⟩
          cases before with
          | nil => cases he; exact absurd hc hb
          | cons x before =>
            cases he
            obtain ⟨sh', g1, g2⟩ := h2 [] b before rfl (by simp)
            rw [h] at g1; cases g1
            exact absurd g2 hr

/-- The shares an announcement brings. -/
theorem saveFold_share (id : String) (bs : List (String × Option DecShare)) (s : DM) (ballot i : String) :
    (∀ before sh after, bs = before ++ (ballot, some sh) :: after → id = i → (∀ e ∈ after, e.1 = ballot → e.2 = none) →
      (s.saveBallotShares id bs).ballotShare ballot i = some sh) ∧
    ((∀ before sh after, bs = before ++ (ballot, some sh) :: after → id = i → ¬ ∀ e ∈ after, e.1 = ballot → e.2 = none) →
      (s.saveBallotShares id bs).ballotShare ballot i = s.ballotShare ballot i) := by
  induction bs using List.reverseRecOn with
  | nil => exact ⟨fun b sh a h => by simp at h, fun _ => rfl⟩
  | append_singleton bs e ih =>
    obtain ⟨j, o⟩ := e
    have hstep : (s.saveBallotShares id (bs ++ [(j, o)])).ballotShare ballot i =
        if j = ballot ∧ id = i ∧ o.isSome = true then o else (s.saveBallotShares id bs).ballotShare ballot i := by
      unfold DM.saveBallotShares DM.ballotShare
      simp only [List.foldl_append, List.foldl_cons, List.foldl_nil]
      rw [dget_dset]
      by_cases hj : j = ballot
      · subst hj
        simp only [if_true, true_and, Option.bind_some]
        cases o with
        | none =>
          simp only [Option.isSome_none, Bool.false_eq_true, and_false, if_false]
          cases dget _ j <;> rfl
        | some sh =>
          simp only [Option.isSome_some, and_true]
          rw [dget_dset]
          split
          · rfl
          · cases dget _ j <;> rfl
      · rw [if_neg hj]
        simp [hj]
    rw [hstep]
    constructor
    · intro before sh after he hid hafter
      rcases List.eq_nil_or_concat after with rfl | ⟨after, x, rfl⟩
      · obtain ⟨rfl, hx⟩ := List.append_inj' he rfl
        cases hx
        simp [hid]
      · have he' : bs ++ [(j, o)] = (before ++ (ballot, some sh) :: after) ++ [x] := by simpa using he
        obtain ⟨rfl, hx⟩ := List.append_inj' he' rfl
        cases hx
        rw [if_neg]
        · exact ih.1 before sh after rfl hid fun e h => hafter e (by simp [h])
        · rintro ⟨h1, -, h2⟩
          have := hafter (j, o) (by simp) h1
          simp only at this
          rw [this] at h2
          cases h2
    · intro hno
      by_cases hc : j = ballot ∧ id = i ∧ o.isSome = true
      · obtain ⟨rfl, rfl, ho⟩ := hc
        obtain ⟨sh, rfl⟩ := Option.isSome_iff_exists.1 ho
        exact absurd (by simp) (hno bs sh [] rfl rfl)
      · rw [if_neg hc]
        refine ih.2 fun before sh after he hid hafter => ?_
        subst he
        refine hno before sh (after ++ [(j, o)]) (by simp) hid fun e h hj => ?_
        rcases List.mem_append.1 h with h | h
        · exact hafter e h hj
        · rw [List.mem_singleton.1 h] at hj ⊢
          simp only at hj ⊢
          cases o with
          | none => rfl
          | some sh' => exact absurd ⟨hj, hid, rfl⟩ hc

/-- C110: after any calls the share of a ballot on record for a guardian is the one that came last: with its first announcement, or by a
reconstruction while it had none. -/
theorem C110_ballot_share (P : Params) (ops : List DMOp) (ballot i : String) (sh : DecShare) :
    (∃ shares, dget (DM.run P ops).ballotShares ballot = some shares ∧ dget shares i = some sh) ↔
      LastPut (DM.run P) (fun s => PutsBallotShare P s ballot i) ops sh := by
  have hget : ∀ s : DM, (∃ shares, dget s.ballotShares ballot = some shares ∧ dget shares i = some sh) ↔
      s.ballotShare ballot i = some sh := by
    intro s
    unfold DM.ballotShare
    cases dget s.ballotShares ballot <;> simp
  rw [hget]
  refine record_iff (DM.run P) (fun s op => s.step P op) DM.Book DM.run_concat (fun s => s.ballotShare ballot i) _ rfl DM.run_book ?_ ?_ ops sh
  · rintro s op r hb (⟨k, t, sh, x, y, rfl, rfl, hk, rfl, hy⟩ | ⟨b, x, y, l, shares, sh, rfl, hbi, hl, rfl, h1, h2, h3, h4⟩)
    · have := (saveFold_share k.ownerId _ { s with tallyShares := dset s.tallyShares k.ownerId t } ballot k.ownerId).1 x sh y rfl rfl hy
      simp only [DM.step]
      unfold DM.announce
      rw [if_neg hk]
      exact this
    · simp only [DM.step, DM.reconstructBallots, hl]
      exact (ballotsLoop_spec l _ s hb.missing_nodup ballot i).1 sh ⟨b, x, y, shares, rfl, hbi, h1, h2, h3, h4⟩
  · intro s op hb h
    cases op with
    | announce k t bs =>
      simp only [DM.step]
      by_cases hk : k.ownerId ∈ dkeys s.available
      · rw [DM.announce_of_mem s k t bs hk]
      · unfold DM.announce
        rw [if_neg hk]
        cases bs with
        | none => rfl
        | some bs =>
          refine (saveFold_share k.ownerId bs { s with tallyShares := dset s.tallyShares k.ownerId t } ballot i).2 ?_
          rintro x sh y rfl rfl hy
          exact h _ (Or.inl ⟨k, t, sh, x, y, rfl, rfl, hk, rfl, hy⟩)
    | announceMissing k =>
      simp only [DM.step]
      unfold DM.announceMissing
      split <;> rfl
    | validateMissing ks => rfl
    | receiveTallyComp c => rfl
    | receiveBallotComp cs => rfl
    | reconstructTally t =>
      simp only [DM.step, DM.reconstructTally]
      cases lagrangeForGuardians P (s.available.map (·.2)) <;> rfl
    | reconstructBallots bs =>
      simp only [DM.step, DM.reconstructBallots]
      cases hl : lagrangeForGuardians P (s.available.map (·.2)) with
      | error e => rfl
      | ok l =>
        refine (ballotsLoop_spec l bs s hb.missing_nodup ballot i).2 ?_
        rintro sh ⟨b, x, y, shares, rfl, h0, h1, h2, h3, h4⟩
        exact h _ (Or.inr ⟨b, x, y, l, shares, sh, rfl, h0, hl, rfl, h1, h2, h3, h4⟩)

/-! ### Compensations -/

theorem reconstructBallotsLoop_comp (lagrange : List (String × Nat)) (bs : List SBallot) (s : DM) :
    (reconstructBallotsLoop P lagrange bs s).2.compBallot = s.compBallot := by
  induction bs generalizing s with
  | nil => rfl
  | cons b bs ih =>
    unfold reconstructBallotsLoop
    cases dgetR s.ballotShares b.objectId with
    | error e => rfl
    | ok shares =>
      simp only
      cases (reconstructBallotLoop P b lagrange s.compBallot s.missing shares).1 with
      | error e => rfl
      | ok _ => exact ih _

theorem step_comps (s : DM) (op : DMOp) :
    ((∀ c, op ≠ .receiveTallyComp c) → (s.step P op).compTally = s.compTally) ∧
    ((∀ cs, op ≠ .receiveBallotComp cs) → (s.step P op).compBallot = s.compBallot) := by
  cases op with
  | announce k sh bs =>
    simp only [DM.step]
    unfold DM.announce
    split
    · exact ⟨fun _ => rfl, fun _ => rfl⟩
    · cases bs <;> exact ⟨fun _ => rfl, fun _ => rfl⟩
  | announceMissing k =>
    simp only [DM.step]
    unfold DM.announceMissing
    split <;> exact ⟨fun _ => rfl, fun _ => rfl⟩
  | validateMissing ks => exact ⟨fun _ => rfl, fun _ => rfl⟩
  | receiveTallyComp c => exact ⟨fun h => absurd rfl (h c), fun _ => rfl⟩
  | receiveBallotComp cs => exact ⟨fun _ => rfl, fun h => absurd rfl (h cs)⟩
  | reconstructTally t =>
    simp only [DM.step, DM.reconstructTally]
    cases lagrangeForGuardians P (s.available.map (·.2)) <;> exact ⟨fun _ => rfl, fun _ => rfl⟩
  | reconstructBallots bs =>
    refine ⟨fun _ => (DM.reconstructBallots_fields s bs).2.2.2, fun _ => ?_⟩
    simp only [DM.step, DM.reconstructBallots]
    cases lagrangeForGuardians P (s.available.map (·.2)) with
    | error e => rfl
    | ok l => exact reconstructBallotsLoop_comp l bs s

/-- C110: the compensation of a guardian for a missing one on record is the one delivered last. -/
theorem C110_tally_compensation (P : Params) (ops : List DMOp) (g m : String) (c : CompShare) :
    dget (DM.run P ops).compTally (g, m) = some c ↔ LastPut (DM.run P) (fun _ => PutsTallyComp (g, m)) ops c := by
  refine record_iff (DM.run P) (fun s op => s.step P op) (fun _ => True) DM.run_concat (fun s => dget s.compTally (g, m)) _ rfl
    (fun _ => trivial) ?_ ?_ ops c
  · rintro s op r - ⟨c, rfl, hc, rfl⟩
    simp only [DM.step, DM.receiveTallyComp]
    rw [hc, dget_dset, if_pos rfl]
  · intro s op _ h
    by_cases h1 : ∃ c, op = .receiveTallyComp c
    · obtain ⟨c, rfl⟩ := h1
      simp only [DM.step, DM.receiveTallyComp]
      rw [dget_dset, if_neg fun hc => h _ ⟨c, rfl, hc, rfl⟩]
    · rw [(step_comps s op).1 fun c hc => h1 ⟨c, hc⟩]

theorem compFold_other (l : List (String × CompShare)) (d : List (String × List ((String × String) × CompShare))) (ballot : String)
    (pair : String × String) (h : ∀ e ∈ l, (e.1, e.2.guardianId, e.2.missingId) ≠ (ballot, pair)) :
    (dget (l.foldl (fun d e => dset d e.1 (dset ((dget d e.1).getD []) (e.2.guardianId, e.2.missingId) e.2)) d) ballot).bind
      (fun x => dget x pair) = (dget d ballot).bind (fun x => dget x pair) := by
  induction l generalizing d with
  | nil => rfl
  | cons e l ih =>
    obtain ⟨h1, h2⟩ := List.forall_mem_cons.1 h
    rw [List.foldl_cons, ih _ h2, dget_dset]
    split
    · rename_i hb
      rw [Option.bind_some, dget_dset, if_neg fun hp => h1 (by rw [hb, hp]), hb]
      cases dget d ballot <;> rfl
    · rfl

/-- C110: the same for ballots. -/
theorem C110_ballot_compensation (P : Params) (ops : List DMOp) (ballot g m : String) (c : CompShare) :
    (∃ comps, dget (DM.run P ops).compBallot ballot = some comps ∧ dget comps (g, m) = some c) ↔
      LastPut (DM.run P) (fun _ => PutsBallotComp ballot (g, m)) ops c := by
  have hget : ∀ s : DM, (∃ comps, dget s.compBallot ballot = some comps ∧ dget comps (g, m) = some c) ↔
      (dget s.compBallot ballot).bind (fun x => dget x (g, m)) = some c := by
    intro s
    cases dget s.compBallot ballot <;> simp
  rw [hget]
  refine record_iff (DM.run P) (fun s op => s.step P op) (fun _ => True) DM.run_concat
    (fun s => (dget s.compBallot ballot).bind (fun x => dget x (g, m))) _ rfl (fun _ => trivial) ?_ ?_ ops c
  · rintro s op r - ⟨c, x, y, rfl, hc, rfl, hy⟩
    simp only [DM.step, DM.receiveBallotComp, List.foldl_append, List.foldl_cons]
    rw [compFold_other y _ ballot (g, m) hy, dget_dset, if_pos rfl, Option.bind_some, hc, dget_dset, if_pos rfl]
  · intro s op _ h
    by_cases h1 : ∃ cs, op = .receiveBallotComp cs
    · obtain ⟨cs, rfl⟩ := h1
      simp only [DM.step, DM.receiveBallotComp]
      rcases last_split (fun e : String × CompShare => (e.1, e.2.guardianId, e.2.missingId)) (ballot, g, m) cs with hl | ⟨x, e, y, rfl, h2, h3⟩
      · exact compFold_other cs _ ballot (g, m) hl
      · obtain ⟨b, c⟩ := e
        simp only [Prod.mk.injEq] at h2
        obtain ⟨rfl, h4, h5⟩ := h2
        exact absurd ⟨c, x, y, rfl, by rw [h4, h5], rfl, h3⟩ (h (some c))
    · rw [(step_comps s op).2 fun c hc => h1 ⟨c, hc⟩]

/-- A compensation that is delivered twice. -/
example : dget (DM.run extraSmall [.receiveTallyComp ⟨"t", "a", "c", 1, []⟩, .receiveTallyComp ⟨"t", "b", "c", 3, []⟩,
    .receiveTallyComp ⟨"t", "a", "c", 2, []⟩]).compTally ("a", "c") = some ⟨"t", "a", "c", 2, []⟩ := by
  decide +kernel

end EG
