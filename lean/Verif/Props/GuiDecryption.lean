import Verif.Lemmas.GuiDecryption

/-!
# C70: the decryption in the GUI reports what was encrypted

Safety: whatever guardians, administrators and uploading clients do in which order.
-/

namespace EG

variable {E : Env} {parse : List Char → Option SBallot}

/-- The steps of a successful stage 2. -/
theorem s2Compute_ok {maxE : Nat} {net : Nat → Nat → Bool} {db : GuiDb} {d : GuiDecryption} {r : GuiResult}
    {e : ElectionDoc} (he : dget db.elections d.electionId = some e) (h : s2Compute E maxE parse net db d = .ok r) :
    ∃ dm, announceShares e d.shares DM.init = .ok dm ∧
      getTally E e.manifest e.context (db.getBallots parse net d.electionId) false = .ok r.ciphertextTally ∧
      dm.plaintextTally E maxE e.context r.ciphertextTally e.manifest = .ok (some r.tally) ∧
      dm.plaintextBallots E maxE e.context (spoiledOf (db.getBallots parse net d.electionId)) e.manifest
        = .ok (some r.ballots) ∧
      lagrangeForGuardians E.P (dm.available.map (·.2)) = .ok r.lagrange := by
  unfold s2Compute GuiDb.getElection at h
  rw [he] at h
  simp only [bind, Except.bind] at h
  unfold GuiDecryption.getShares at h
  split at h
  · cases h
  next ss hss =>
  split at hss
  · cases hss
  cases hss
  split at h
  · cases h
  next dm hdm =>
  split at h
  · cases h
  next t ht =>
  split at h
  · cases h
  next opt hpt =>
  split at h
  · cases h
  next pt =>
  split at h
  · cases h
  next opt2 hpb =>
  split at h
  · cases h
  next pbs =>
  split at h
  · cases h
  next l hl =>
  cases h
  exact ⟨dm, hdm, ht, hpt, hpb, hl⟩

/-- Two stored ballots with the same id are the same. -/
theorem stored_unique {db : GuiDb} {eid : String} (hdist : db.DistinctBallots)
    (hholds : ∀ d ∈ db.ballots, db.Holds parse d) {d d' : BallotDoc} {b b' : SBallot} (hd : d ∈ db.docsOf eid)
    (hd' : d' ∈ db.docsOf eid) (hb : parse d.contents = some b) (hb' : parse d'.contents = some b')
    (hid : b.objectId = b'.objectId) : b = b' := by
  obtain ⟨h1, h2⟩ := List.mem_filter.1 hd
  obtain ⟨h1', h2'⟩ := List.mem_filter.1 hd'
  obtain ⟨x, -, hx, hxo, -⟩ := hholds d h1
  obtain ⟨x', -, hx', hxo', -⟩ := hholds d' h1'
  rw [hb] at hx
  cases hx
  rw [hb'] at hx'
  cases hx'
  have : d = d' := by
    refine List.inj_on_of_nodup_map hdist h1 h1' ?_
    simp only [beq_iff_eq] at h2 h2'
    rw [Prod.mk.injEq]
    exact ⟨h2.trans h2'.symm, by rw [← hxo, ← hxo', hid]⟩
  subst this
  rw [hb] at hb'
  exact Option.some.inj hb'

/-- Shares that guardians of the team made, from stored ballots. -/
def MadeBy (E : Env) (parse : List Char → Option SBallot) (db : GuiDb) (eid : String) (e : ElectionDoc)
    (team : List Guardian) (x : JoinedShare × Tally) : Prop :=
  ∃ g ∈ team, ∃ bs, JoinOf E e g bs x.2 x.1 ∧ db.Stores parse eid bs

/-- A guardian made a share for just the ciphertexts of the tally `t`, as far as the manifest describes them. -/
def Agreed (made : List (JoinedShare × Tally)) (m : Manifest) (t : Tally) (g : Guardian) : Prop :=
  ∃ x ∈ made, x.1.guardianId = g.id ∧ ∀ c ∈ t.toCts, ∀ s ∈ c.selections, Describes m c.objectId s.objectId →
    ∃ s' ∈ ctSelections x.2.toCts, s'.objectId = s.objectId ∧ s'.ciphertext = s.ciphertext

/-- What a result is worth, given the shares that guardians made. -/
def SoundResult (E : Env) (maxE : Nat) (parse : List Char → Option SBallot) (db : GuiDb) (eid : String) (e : ElectionDoc)
    (team : List Guardian) (made : List (JoinedShare × Tally)) (r : GuiResult) : Prop :=
  (∃ bs, db.Stores parse eid bs ∧ getTally E e.manifest e.context bs false = .ok r.ciphertextTally) ∧
  (Decryptable E.P maxE e.context.elgamalPublicKey e.manifest r.ciphertextTally.toCts →
    (r.tally.Correct E.P e.context.elgamalPublicKey e.manifest r.ciphertextTally.toCts ∧
      ∀ g ∈ team, Agreed made e.manifest r.ciphertextTally g) ∨
      CollisionIn E (joinTexts E e.context.cryptoExtendedBaseHash made r.ciphertextTally)) ∧
  ∀ x ∈ r.ballots, ∃ d ∈ db.docsOf eid, ∃ b, parse d.contents = some b ∧ b.objectId = x.1 ∧ b.state = .spoiled ∧
    (Decryptable E.P maxE e.context.elgamalPublicKey e.manifest b.toCts →
      x.2.Correct E.P e.context.elgamalPublicKey e.manifest b.toCts)

theorem Book.gids {e : ElectionDoc} {used : List JoinedShare} {dm : DM} (hb : Book e used dm)
    (l : List (String × DecShare)) (hk : (l.map (fun x => x.1)).Nodup)
    (hl : ∀ x ∈ l, x.1 = e.orderName x.2.guardianId) : (l.map (fun x => x.2.guardianId)).Nodup := by
  refine List.Nodup.of_map e.orderName ?_
  rw [List.map_map]
  have : l.map (e.orderName ∘ fun x => x.2.guardianId) = l.map (fun x => x.1) :=
    List.map_congr_left (fun x hx => (hl x hx).symm)
  rw [this]
  exact hk

theorem s2_sound (hv : E.P.Valid) {maxE : Nat} {net : Nat → Nat → Bool} {db : GuiDb} {d : GuiDecryption} {r : GuiResult}
    {e : ElectionDoc} {team : List Guardian} (ht : ElectionTeam E.P e team)
    (he : dget db.elections d.electionId = some e) (hdist : db.DistinctBallots)
    (hholds : ∀ d ∈ db.ballots, db.Holds parse d) (made : List (JoinedShare × Tally))
    (hmade : ∀ x ∈ made, MadeBy E parse db d.electionId e team x) (hsh : ∀ s ∈ d.shares, ∃ t, (s, t) ∈ made)
    (h : s2Compute E maxE parse net db d = .ok r) : SoundResult E maxE parse db d.electionId e team made r := by
  obtain ⟨dm, hdm, htal, hpt, hpb, -⟩ := s2Compute_ok he h
  have hread : db.Stores parse d.electionId (db.getBallots parse net d.electionId) := fun b hb =>
    C69_only_stored parse net db d.electionId b hb
  have hnod : ∀ s ∈ d.shares, (dkeys s.ballotShares).Nodup := by
    intro s hs
    obtain ⟨t, hst⟩ := hsh s hs
    obtain ⟨g, -, bs, hj, -⟩ := hmade _ hst
    obtain ⟨sd, hsd⟩ := hj.ballots
    dsimp only at hsd
    rw [hsd]
    exact computeBallotShares_nodup ..
  obtain ⟨used, hbook, hsub, -⟩ := announceShares_book d.shares [] DM.init dm (Book.init e) hnod hdm
  rw [List.nil_append] at hbook
  have hused : ∀ s ∈ used, ∃ t, (s, t) ∈ made := fun s hs => hsh s (hsub.subset hs)
  have hid : ((team.map (fun g => g.electionKeys)).map (fun kp => kp.ownerId)).Nodup := by
    rw [List.map_map]; exact ht.ids
  have hsec : ∀ g ∈ team, secretOf (team.map (fun g => g.electionKeys)) g.id = g.electionKeys.keyPair.secret :=
    fun g hg => secretOf_mem hid (List.mem_map.2 ⟨g, hg, rfl⟩)
  set sec := secretOf (team.map (fun g => g.electionKeys)) with hsecdef
  refine ⟨⟨_, hread, htal⟩, ?_, ?_⟩
  · intro hdec
    unfold DM.plaintextTally at hpt
    split at hpt
    · cases hpt
    next hready =>
    simp only [Bool.or_eq_true, Bool.not_eq_true', not_or, Bool.not_eq_false] at hready
    have hlen : dm.tallyShares.length = team.length := by
      have := hready.2
      unfold readyToDecrypt at this
      rw [beq_iff_eq, ht.count] at this
      exact_mod_cast this
    have hent : ∀ x ∈ dm.tallyShares, ∃ s ∈ used, x = (e.orderName s.guardianId, s.tallyShare) := by
      rw [hbook.tally]
      intro x hx
      obtain ⟨s, hs, rfl⟩ := List.mem_map.1 hx
      exact ⟨s, hs, rfl⟩
    have hown : ∀ s ∈ used, ∃ g ∈ team, s.guardianId = g.id ∧ s.tallyShare.guardianId = g.id ∧ ∃ t, (s, t) ∈ made ∧
        SameIds r.ciphertextTally.toCts t.toCts ∧ GuiShare E e.context.cryptoExtendedBaseHash
          g.electionKeys.keyPair.secret g.electionKeys.keyPair.pub t.toCts s.tallyShare := by
      intro s hs
      obtain ⟨t, hst⟩ := hused s hs
      obtain ⟨g, hg, bs, hj, -⟩ := hmade _ hst
      have hsame := getTally_ids htal hj.tallied
      obtain ⟨sd, hsd⟩ := hj.tally
      obtain ⟨h1, h2⟩ := shareForContests_some (hsame.distinct hdec.ids) hsd
      exact ⟨g, hg, hj.user, h1, t, hst, hsame, h2⟩
    have hgids : (dm.tallyShares.map (fun x => x.2.guardianId)).Nodup := by
      refine hbook.gids dm.tallyShares ?_ ?_
      · rw [hbook.tally, List.map_map]; exact hbook.nodup
      · intro x hx
        obtain ⟨s, hs, rfl⟩ := hent x hx
        obtain ⟨g, -, h1, h2, -⟩ := hown s hs
        show e.orderName s.guardianId = e.orderName s.tallyShare.guardianId
        rw [h1, h2]
    have hK := joint_of_shares hv ht dm.tallyShares hgids (fun x hx => by
      obtain ⟨s, hs, rfl⟩ := hent x hx
      obtain ⟨g, hg, -, h2, -⟩ := hown s hs
      exact ⟨g, hg, h2⟩) hlen
    unfold decryptTally at hpt
    simp only [bind, Except.bind, pure, Except.pure] at hpt
    split at hpt
    · cases hpt
    next v hv' =>
    cases v with
    | none => cases hpt
    | some cs =>
      simp only [Option.map_some, Except.ok.injEq, Option.some.injEq] at hpt
      rw [← hpt]
      have hright := stale_shares_right hv r.ciphertextTally.toCts dm.tallyShares sec (fun i => E.P.g ^ sec i % E.P.p)
        e.manifest (joinTexts E e.context.cryptoExtendedBaseHash made r.ciphertextTally) hgids (fun x hx => by
          obtain ⟨s, hs, rfl⟩ := hent x hx
          obtain ⟨g, hg, h1, h2, t, hst, hsame, ho⟩ := hown s hs
          refine ⟨t.toCts, hsame, ?_, ?_, ?_⟩
          · dsimp only
            rw [h2, hsec g hg, ← ht.keys g hg]
            exact ho
          · intro y hy
            exact List.mem_flatMap.2 ⟨_, hst, List.mem_append_left _ hy⟩
          · intro y hy
            exact List.mem_flatMap.2 ⟨_, hst, List.mem_append_right _ hy⟩) hK hdec r.ciphertextTally.objectId cs hv'
      rcases hright with hright | hright
      swap
      · exact Or.inr hright
      by_cases hT : CollisionIn E (joinTexts E e.context.cryptoExtendedBaseHash made r.ciphertextTally)
      · exact Or.inr hT
      refine Or.inl ⟨hright, fun g hg => ?_⟩
      have hgm : g.id ∈ dm.tallyShares.map (fun x => x.2.guardianId) := by
        have hperm : (dm.tallyShares.map (fun x => x.2.guardianId)).Perm (team.map (fun g => g.id)) := by
          refine List.Subperm.perm_of_length_le (List.subperm_of_subset hgids ?_) (by simp [hlen])
          intro i hi
          obtain ⟨x, hx, rfl⟩ := List.mem_map.1 hi
          obtain ⟨s, hs, rfl⟩ := hent x hx
          obtain ⟨g', hg', -, h2, -⟩ := hown s hs
          exact List.mem_map.2 ⟨g', hg', h2.symm⟩
        exact hperm.mem_iff.2 (List.mem_map.2 ⟨g, hg, rfl⟩)
      obtain ⟨x, hx, hxg⟩ := List.mem_map.1 hgm
      obtain ⟨s, hs, rfl⟩ := hent x hx
      obtain ⟨g', hg', h1, h2, t, hst, hsame, ho⟩ := hown s hs
      rcases stale_shares_agree hv r.ciphertextTally.toCts t.toCts dm.tallyShares e.manifest
        (joinTexts E e.context.cryptoExtendedBaseHash made r.ciphertextTally) hgids _ hx hdec.ids hsame ho
        (fun y hy => List.mem_flatMap.2 ⟨_, hst, List.mem_append_left _ hy⟩)
        (fun y hy => List.mem_flatMap.2 ⟨_, hst, List.mem_append_right _ hy⟩) cs hv' with hag | hag
      · exact ⟨(s, t), hst, h1.trans (h2.symm.trans hxg), hag⟩
      · exact absurd hag hT
  · intro x hx
    unfold DM.plaintextBallots at hpb
    split at hpb
    · cases hpb
    cases hl : plaintextBallotsLoop E maxE dm e.context e.manifest
      (spoiledOf (db.getBallots parse net d.electionId)) [] with
    | error err => rw [hl] at hpb; cases hpb
    | ok rb =>
      rw [hl] at hpb
      simp only [Except.map, Except.ok.injEq, Option.some.injEq] at hpb
      rw [← hpb] at hx
      rcases plaintextBallotsLoop_mem maxE dm e.context e.manifest _ [] rb hl x hx with h | h
      · cases h
      obtain ⟨b, hb, hxid, shares, hget, hready, hdecb⟩ := h
      obtain ⟨hb1, hb2⟩ := List.mem_filter.1 hb
      obtain ⟨doc, hdoc, hparse⟩ := hread b hb1
      refine ⟨doc, hdoc, b, hparse, hxid.symm, by simpa using hb2, ?_⟩
      intro hdec
      have hshares : shares = used.filterMap (fun s => (dget s.ballotShares b.objectId).join.map
          (fun sh => (e.orderName s.guardianId, sh))) := by
        have := hbook.ballots b.objectId
        rwa [hget] at this
      have hent : ∀ y ∈ shares, ∃ g ∈ team, y.1 = e.orderName g.id ∧ y.2.guardianId = g.id ∧
          GuiShare E e.context.cryptoExtendedBaseHash g.electionKeys.keyPair.secret g.electionKeys.keyPair.pub b.toCts
            y.2 := by
        intro y hy
        rw [hshares] at hy
        obtain ⟨s, hs, hy⟩ := List.mem_filterMap.1 hy
        simp only [Option.map_eq_some_iff] at hy
        obtain ⟨sh, hsh', rfl⟩ := hy
        obtain ⟨t, hst⟩ := hused s hs
        obtain ⟨g, hg, bs, hj, hstores⟩ := hmade _ hst
        obtain ⟨sd, hsd⟩ := hj.ballots
        have hget' : dget s.ballotShares b.objectId = some (some sh) := by
          cases hq : dget s.ballotShares b.objectId with
          | none => rw [hq] at hsh'; cases hsh'
          | some z => rw [hq] at hsh'; rw [← hsh']; rfl
        dsimp only at hsd
        rw [hsd] at hget'
        obtain ⟨b', hb', hid', sd', hcomp⟩ := computeBallotShares_get hget'
        obtain ⟨doc', hdoc', hparse'⟩ := hstores b' (List.mem_filter.1 hb').1
        have hbb : b' = b := stored_unique hdist hholds hdoc' hdoc hparse' hparse hid'
        subst hbb
        obtain ⟨h1, h2⟩ := shareForContests_some hdec.ids hcomp.symm
        exact ⟨g, hg, by rw [hj.user], h1, h2⟩
      have hgids : (shares.map (fun x => x.2.guardianId)).Nodup := by
        refine hbook.gids shares ?_ ?_
        · rw [hshares]
          exact (filterMap_keys (fun s => e.orderName s.guardianId) _ used).nodup hbook.nodup
        · intro y hy
          obtain ⟨g, -, h1, h2, -⟩ := hent y hy
          rw [h1, h2]
      have hlen : shares.length = team.length := by
        unfold readyToDecrypt at hready
        rw [beq_iff_eq, ht.count] at hready
        exact_mod_cast hready
      have hK := joint_of_shares hv ht shares hgids (fun y hy => by
        obtain ⟨g, hg, -, h2, -⟩ := hent y hy
        exact ⟨g, hg, h2⟩) hlen
      obtain ⟨ds, hds, hc⟩ := decryptContests_right hv (baseHash := e.context.cryptoExtendedBaseHash)
        b.toCts shares sec (fun i => E.P.g ^ sec i % E.P.p) e.manifest hgids
        (fun y hy => by
          obtain ⟨g, hg, -, h2, ho⟩ := hent y hy
          rw [h2, hsec g hg, ← ht.keys g hg]
          refine ⟨ho.1, ho.2.imp ?_⟩
          rintro s z ⟨h1, h2, pf, h3, h4, h5⟩
          refine ⟨h1, h2, ?_⟩
          simp only [DecSelection.isValid, h3, h4]
          exact h5) hK hdec b.objectId
      unfold decryptBallotWithShares at hdecb
      rw [hds] at hdecb
      simp only [bind, Except.bind, pure, Except.pure, Option.map_some, Except.ok.injEq, Option.some.injEq] at hdecb
      rw [← hdecb]
      exact hc

/-! ### Any order of steps -/

/-- The same manifest, context and guardian records. -/
def SameElection (e e' : ElectionDoc) : Prop :=
  e'.manifest = e.manifest ∧ e'.context = e.context ∧ e'.guardianRecords = e.guardianRecords

theorem GuiDb.Stores.mono {db db' : GuiDb} {eid : String} {bs : List SBallot} (h : db.Stores parse eid bs)
    (hp : db.ballots <+: db'.ballots) : db'.Stores parse eid bs := by
  intro b hb
  obtain ⟨d, hd, h⟩ := h b hb
  obtain ⟨h1, h2⟩ := List.mem_filter.1 hd
  exact ⟨d, List.mem_filter.2 ⟨hp.subset h1, h2⟩, h⟩

theorem MadeBy.mono {db db' : GuiDb} {eid : String} {e : ElectionDoc} {team : List Guardian} {x : JoinedShare × Tally}
    (h : MadeBy E parse db eid e team x) (hp : db.ballots <+: db'.ballots) : MadeBy E parse db' eid e team x := by
  obtain ⟨g, hg, bs, hj, hs⟩ := h
  exact ⟨g, hg, bs, hj, hs.mono hp⟩

theorem SoundResult.mono {maxE : Nat} {db db' : GuiDb} {eid : String} {e : ElectionDoc} {team : List Guardian}
    {made made' : List (JoinedShare × Tally)} {r : GuiResult} (h : SoundResult E maxE parse db eid e team made r)
    (hp : db.ballots <+: db'.ballots) (hm : ∀ x ∈ made, x ∈ made') :
    SoundResult E maxE parse db' eid e team made' r := by
  obtain ⟨⟨bs, h1, h2⟩, h3, h4⟩ := h
  refine ⟨⟨bs, h1.mono hp, h2⟩, fun hd => ?_, fun x hx => ?_⟩
  · rcases h3 hd with h | h
    · refine Or.inl ⟨h.1, fun g hg => ?_⟩
      obtain ⟨x, hx, h⟩ := h.2 g hg
      exact ⟨x, hm x hx, h⟩
    · refine Or.inr (h.mono ?_)
      intro t ht
      obtain ⟨x, hx, h⟩ := List.mem_flatMap.1 ht
      exact List.mem_flatMap.2 ⟨x, hm x hx, h⟩
  · obtain ⟨d, hd, h⟩ := h4 x hx
    obtain ⟨h5, h6⟩ := List.mem_filter.1 hd
    exact ⟨d, List.mem_filter.2 ⟨hp.subset h5, h6⟩, h⟩

/-- What holds after any steps. -/
structure WorldOk (E : Env) (maxE : Nat) (parse : List Char → Option SBallot) (eid : String) (e : ElectionDoc)
    (team : List Guardian) (w : GuiWorld) : Prop where
  election : ∃ e', dget w.db.elections eid = some e' ∧ SameElection e e'
  distinct : w.db.DistinctBallots
  holds : ∀ d ∈ w.db.ballots, w.db.Holds parse d
  id : w.dec.electionId = eid
  made : ∀ x ∈ w.made, MadeBy E parse w.db eid e team x
  shares : ∀ s ∈ w.dec.shares, ∃ t, (s, t) ∈ w.made
  reads : ∀ d ∈ w.reads, d.electionId = eid ∧ ∀ s ∈ d.shares, ∃ t, (s, t) ∈ w.made
  results : ∀ r ∈ w.results, SoundResult E maxE parse w.db eid e team w.made r
  completed : ∀ r, w.dec.completed = some r → r ∈ w.results

theorem JoinOf.same {e e' : ElectionDoc} {g : Guardian} {bs : List SBallot} {t : Tally} {js : JoinedShare}
    (hs : SameElection e e') (h : JoinOf E e' g bs t js) : JoinOf E e g bs t js := by
  obtain ⟨h1, h2, h3, h4, h5⟩ := h
  obtain ⟨s1, s2, -⟩ := hs
  rw [s1, s2] at h3
  rw [s2] at h4 h5
  exact ⟨h1, h2, h3, h4, h5⟩

theorem WorldOk.uploads {maxE : Nat} {eid : String} {e : ElectionDoc} {team : List Guardian} {w : GuiWorld}
    (h : WorldOk E maxE parse eid e team w) (op : UploadOp) :
    WorldOk E maxE parse eid e team { w with db := w.db.step parse op } := by
  have hp : w.db.ballots <+: (w.db.step parse op).ballots := (C69_append_only parse w.db [op]).1
  obtain ⟨h1, h2⟩ := C69_sequence parse w.db [op] h.distinct h.holds
  obtain ⟨e', he', hs⟩ := h.election
  obtain ⟨e'', he'', g1, g2, g3⟩ := (C69_append_only parse w.db [op]).2 eid e' he'
  exact ⟨⟨e'', he'', g1.trans hs.1, g2.trans hs.2.1, g3.trans hs.2.2⟩, h1, h2, h.id,
    fun x hx => (h.made x hx).mono hp, h.shares, h.reads, fun r hr => (h.results r hr).mono hp (fun _ hx => hx),
    h.completed⟩

theorem WorldOk.step (hv : E.P.Valid) {maxE : Nat} {eid : String} {e : ElectionDoc} {team : List Guardian}
    (ht : ElectionTeam E.P e team) {guardianOf : String → Option Guardian} (hf : OwnFiles guardianOf team) {w : GuiWorld}
    (h : WorldOk E maxE parse eid e team w) (ev : GuiEvent) :
    WorldOk E maxE parse eid e team (w.step E maxE parse guardianOf ev) := by
  cases ev with
  | upload uid eid' fn contents => exact h.uploads (.upload uid eid' fn contents)
  | createUpload eid' newId device => exact h.uploads (.create eid' newId device)
  | joinCompute user net seeds =>
    unfold GuiWorld.step
    dsimp only
    split
    · exact h
    next r hr =>
    have hsub : ∀ x ∈ w.made, x ∈ w.made ++ [r] := fun x hx => List.mem_append_left _ hx
    refine ⟨h.election, h.distinct, h.holds, h.id, ?_, ?_, ?_, ?_, h.completed⟩
    · intro x hx
      rcases List.mem_append.1 hx with hx | hx
      · exact h.made x hx
      · rw [List.mem_singleton] at hx
        subst hx
        obtain ⟨e', he', hs⟩ := h.election
        rw [h.id] at hr
        obtain ⟨g, hg, hj⟩ := s1Compute_join (js := x.1) (t := x.2) he' (fun g hg => (hf user g hg).2) hr
        exact ⟨g, (hf user g hg).1, _, hj.same hs, fun b hb => C69_only_stored parse net w.db eid b hb⟩
    · intro s hs
      obtain ⟨t, ht⟩ := h.shares s hs
      exact ⟨t, hsub _ ht⟩
    · intro d hd
      refine ⟨(h.reads d hd).1, fun s hs => ?_⟩
      obtain ⟨t, ht⟩ := (h.reads d hd).2 s hs
      exact ⟨t, hsub _ ht⟩
    · exact fun r' hr' => (h.results r' hr').mono (List.prefix_refl _) hsub
  | joinShare i =>
    unfold GuiWorld.step
    dsimp only
    split
    · exact h
    next r hr =>
    refine ⟨h.election, h.distinct, h.holds, h.id, h.made, ?_, h.reads, h.results, h.completed⟩
    intro s hs
    rcases List.mem_append.1 hs with hs | hs
    · exact h.shares s hs
    · rw [List.mem_singleton] at hs
      subst hs
      exact ⟨r.2, List.mem_of_getElem? hr⟩
  | joinId i =>
    unfold GuiWorld.step
    dsimp only
    split
    · exact h
    · exact ⟨h.election, h.distinct, h.holds, h.id, h.made, h.shares, h.reads, h.results, h.completed⟩
  | adminRead =>
    refine ⟨h.election, h.distinct, h.holds, h.id, h.made, h.shares, ?_, h.results, h.completed⟩
    intro d hd
    rcases List.mem_append.1 hd with hd | hd
    · exact h.reads d hd
    · rw [List.mem_singleton] at hd
      subst hd
      exact ⟨h.id, h.shares⟩
  | adminCompute i net =>
    unfold GuiWorld.step
    dsimp only
    split
    · exact h
    next d hd =>
    split
    · split
      · exact h
      next r hr =>
      refine ⟨h.election, h.distinct, h.holds, h.id, h.made, h.shares, h.reads, ?_, ?_⟩
      · intro r' hr'
        rcases List.mem_append.1 hr' with hr' | hr'
        · exact h.results r' hr'
        · rw [List.mem_singleton] at hr'
          subst hr'
          obtain ⟨hid, hsh⟩ := h.reads d (List.mem_of_getElem? hd)
          obtain ⟨e', he', s1, s2, s3⟩ := h.election
          subst hid
          have ht' : ElectionTeam E.P e' team := by
            obtain ⟨a1, a2, a3, a4, a5, a6⟩ := ht
            exact ⟨a1, a2, by rw [s3]; exact a3, by rw [s2]; exact a4, by rw [s2]; exact a5, by rw [s2]; exact a6⟩
          have := s2_sound hv ht' he' h.distinct h.holds w.made (fun x hx => by
            obtain ⟨g, hg, bs, hj, hst⟩ := h.made x hx
            exact ⟨g, hg, bs, hj.same ⟨s1.symm, s2.symm, s3.symm⟩, hst⟩) hsh hr
          unfold SoundResult at this ⊢
          rw [s1, s2] at this
          exact this
      · intro r' hr'
        exact List.mem_append_left _ (h.completed r' hr')
    · exact h
  | complete i =>
    unfold GuiWorld.step
    dsimp only
    split
    · exact h
    next r hr =>
    refine ⟨h.election, h.distinct, h.holds, h.id, h.made, h.shares, h.reads, h.results, ?_⟩
    intro r' hr'
    cases hr'
    exact List.mem_of_getElem? hr

/-- C70 Whatever uploads, joins and announcements happen in which order, at the same time, and with whatever failures of the
database: a decryption that is stored as completed has the tally of stored ballots, reports for it the encrypted numbers, and
reports for every spoiled ballot in it the encrypted votes of the stored ballot with this id.  Every guardian of the election
joined and decrypted just these ciphertexts: a share that was made before a later ballot came in cannot falsify the result.  Partial: the tally and the ballots are `Decryptable`, and
there is no collision among the texts hashed for the proofs of the tally shares. -/
theorem C70_completed_sound_partial (hv : E.P.Valid) (maxE : Nat) (parse : List Char → Option SBallot) (db : GuiDb)
    (eid : String) (n : Int) (e : ElectionDoc) (he : dget db.elections eid = some e) (team : List Guardian)
    (ht : ElectionTeam E.P e team) (guardianOf : String → Option Guardian) (hf : OwnFiles guardianOf team)
    (hdist : db.DistinctBallots) (hholds : ∀ d ∈ db.ballots, db.Holds parse d) (evs : List GuiEvent) (w : GuiWorld)
    (hw : w = (GuiWorld.start db eid n).run E maxE parse guardianOf evs) (r : GuiResult)
    (hr : w.dec.completed = some r) :
    (∃ bs, w.db.Stores parse eid bs ∧ getTally E e.manifest e.context bs false = .ok r.ciphertextTally) ∧
    (Decryptable E.P maxE e.context.elgamalPublicKey e.manifest r.ciphertextTally.toCts →
      (r.tally.Correct E.P e.context.elgamalPublicKey e.manifest r.ciphertextTally.toCts ∧
        ∀ g ∈ team, ∃ x ∈ w.made, x.1.guardianId = g.id ∧
          ∀ c ∈ r.ciphertextTally.toCts, ∀ s ∈ c.selections, Describes e.manifest c.objectId s.objectId →
            ∃ s' ∈ ctSelections x.2.toCts, s'.objectId = s.objectId ∧ s'.ciphertext = s.ciphertext) ∨
        CollisionIn E (joinTexts E e.context.cryptoExtendedBaseHash w.made r.ciphertextTally)) ∧
    ∀ x ∈ r.ballots, ∃ d ∈ w.db.docsOf eid, ∃ b, parse d.contents = some b ∧ b.objectId = x.1 ∧ b.state = .spoiled ∧
      (Decryptable E.P maxE e.context.elgamalPublicKey e.manifest b.toCts →
        x.2.Correct E.P e.context.elgamalPublicKey e.manifest b.toCts) := by
  have key : ∀ evs, WorldOk E maxE parse eid e team ((GuiWorld.start db eid n).run E maxE parse guardianOf evs) := by
    intro evs
    induction evs using List.reverseRecOn with
    | nil =>
      exact ⟨⟨e, he, rfl, rfl, rfl⟩, hdist, hholds, rfl, fun x hx => (by cases hx), fun x hx => (by cases hx),
        fun x hx => (by cases hx), fun x hx => (by cases hx), fun r hr => (by cases hr)⟩
    | append_singleton evs ev ih =>
      unfold GuiWorld.run
      rw [List.foldl_append]
      exact ih.step hv ht hf ev
  have hok := key evs
  rw [← hw] at hok
  exact hok.results r (hok.completed r hr)

end EG
