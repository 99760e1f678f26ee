import Verif.Props.GuiDecryption
import Verif.Props.GuiTally
import Std.Data.String.ToInt

/-!
# C70: a decryption in the GUI that every guardian joined is completed
-/

namespace EG

variable {E : Env} {parse : List Char → Option SBallot}

theorem ElectionTeam.order {P : Params} {e : ElectionDoc} {team : List Guardian} (ht : ElectionTeam P e team) {g : Guardian}
    (hg : g ∈ team) : e.sequenceOrder g.id = .ok g.electionKeys.sequenceOrder := by
  unfold ElectionDoc.sequenceOrder
  have hn : (e.guardianRecords.map (fun r => r.1)).Nodup := by
    rw [ht.records, List.map_map]; exact ht.ids
  have hm : (g.id, g.electionKeys.sequenceOrder) ∈ e.guardianRecords := by
    rw [ht.records]; exact List.mem_map.2 ⟨g, hg, rfl⟩
  rw [find?_of_nodup (fun r : String × Int => r.1) hn hm]

theorem ElectionTeam.orderName {P : Params} {e : ElectionDoc} {team : List Guardian} (ht : ElectionTeam P e team)
    {g : Guardian} (hg : g ∈ team) : e.orderName g.id = toString g.electionKeys.sequenceOrder := by
  unfold ElectionDoc.orderName
  rw [ht.order hg]

/-- The shares for the spoiled ballots, when they have distinct ids. -/
theorem computeBallotShares_eq (g : Guardian) (bs : List SBallot) (ctx : Context) (seeds : Nat → Nat → Nat → Nat)
    (hn : (bs.map (fun b => b.objectId)).Nodup) :
    g.computeBallotShares E bs ctx seeds = bs.zipIdx.map (fun x =>
      (x.1.objectId, computeBallotShare E true g.electionKeys x.1 ctx (seeds x.2))) := by
  unfold Guardian.computeBallotShares
  rw [foldl_dset_map_fresh (fun x : SBallot × Nat => x.1.objectId)
    (fun x : SBallot × Nat => computeBallotShare E true g.electionKeys x.1 ctx (seeds x.2))]
  · rfl
  · rw [zipIdx_map_fst (fun b : SBallot => b.objectId)]; exact hn
  · intro x _ h; cases h

/-- What is needed of an election so that all of it can be decrypted. -/
structure ReadyToDecrypt (E : Env) (maxE : Nat) (e : ElectionDoc) (team : List Guardian) (bs : List SBallot) (t : Tally) :
    Prop where
  members : team ≠ []
  orders : ∀ g ∈ team, 0 ≤ g.electionKeys.sequenceOrder
  distinct : (team.map (fun g => (g.electionKeys.sequenceOrder : ZMod E.P.q))).Nodup
  quorum : e.context.quorum ≤ team.length
  tallied : getTally E e.manifest e.context bs false = .ok t
  tally : Decryptable E.P maxE e.context.elgamalPublicKey e.manifest t.toCts
  ids : ((spoiledOf bs).map (fun b => b.objectId)).Nodup
  ballots : ∀ b ∈ spoiledOf bs, Decryptable E.P maxE e.context.elgamalPublicKey e.manifest b.toCts

theorem s2_complete (hv : E.P.Valid) {maxE : Nat} {net : Nat → Nat → Bool} {db : GuiDb} {d : GuiDecryption}
    {e : ElectionDoc} {team : List Guardian} (ht : ElectionTeam E.P e team)
    (he : dget db.elections d.electionId = some e) {bs : List SBallot} {t : Tally}
    (hready : ReadyToDecrypt E maxE e team bs t) (hread : db.getBallots parse net d.electionId = bs)
    (hsh : ∀ s ∈ d.shares, ∃ g ∈ team, JoinOf E e g bs t s) (hall : ∀ g ∈ team, ∃ s ∈ d.shares, s.guardianId = g.id) :
    ∃ r, s2Compute E maxE parse net db d = .ok r ∧ r.ciphertextTally = t ∧
      r.tally.Correct E.P e.context.elgamalPublicKey e.manifest t.toCts ∧
      r.ballots.map (fun x => x.1) = (spoiledOf bs).map (fun b => b.objectId) ∧
      (∀ b ∈ spoiledOf bs, ∃ pt, dget r.ballots b.objectId = some pt ∧ pt.objectId = b.objectId ∧
        pt.Correct E.P e.context.elgamalPublicKey e.manifest b.toCts) ∧
      ∀ g ∈ team, toString g.electionKeys.sequenceOrder ∈ dkeys r.lagrange := by
  have hid : ((team.map (fun g => g.electionKeys)).map (fun kp => kp.ownerId)).Nodup := by
    rw [List.map_map]; exact ht.ids
  have hsec : ∀ g ∈ team, secretOf (team.map (fun g => g.electionKeys)) g.id = g.electionKeys.keyPair.secret :=
    fun g hg => secretOf_mem hid (List.mem_map.2 ⟨g, hg, rfl⟩)
  set sec := secretOf (team.map (fun g => g.electionKeys)) with hsecdef
  -- the shares of the ballots
  have hbshare : ∀ g ∈ team, ∀ b ∈ spoiledOf bs, ∀ sd, ∃ sh,
      computeBallotShare E true g.electionKeys b e.context sd = some sh ∧ sh.guardianId = g.id ∧
      ShareFor E e.context.cryptoExtendedBaseHash g.electionKeys.keyPair.secret g.electionKeys.keyPair.pub b.toCts sh := by
    intro g hg b hb sd
    obtain ⟨sh, h1, -, h2, h3⟩ := shareForContests_ok hv g.electionKeys (ht.keys g hg) b.objectId b.toCts e.context sd
      ht.hash (hready.ballots b hb).ids (hready.ballots b hb).elements
    exact ⟨sh, h1, h2, h3⟩
  have hballots : ∀ s ∈ d.shares, ∃ g ∈ team, ∃ sd : Nat → Nat → Nat → Nat, s.guardianId = g.id ∧
      s.ballotShares = (spoiledOf bs).zipIdx.map (fun x =>
        (x.1.objectId, computeBallotShare E true g.electionKeys x.1 e.context (sd x.2))) := by
    intro s hs
    obtain ⟨g, hg, hj⟩ := hsh s hs
    obtain ⟨sd, hsd⟩ := hj.ballots
    exact ⟨g, hg, sd, hj.user, hsd.trans (computeBallotShares_eq g _ _ _ hready.ids)⟩
  have hnod : ∀ s ∈ d.shares, (dkeys s.ballotShares).Nodup := by
    intro s hs
    obtain ⟨g, hg, hj⟩ := hsh s hs
    obtain ⟨sd, hsd⟩ := hj.ballots
    rw [hsd]
    exact computeBallotShares_nodup ..
  have hget : ∀ s ∈ d.shares, ∀ b ∈ spoiledOf bs, ∃ g ∈ team, ∃ sh, s.guardianId = g.id ∧
      dget s.ballotShares b.objectId = some (some sh) ∧ sh.guardianId = g.id ∧
      ShareFor E e.context.cryptoExtendedBaseHash g.electionKeys.keyPair.secret g.electionKeys.keyPair.pub b.toCts sh := by
    intro s hs b hb
    obtain ⟨g, hg, sd, hu, hbs⟩ := hballots s hs
    obtain ⟨x, hx, hxb⟩ : ∃ x ∈ (spoiledOf bs).zipIdx, x.1 = b := by
      have : b ∈ (spoiledOf bs).zipIdx.map Prod.fst := by rw [List.zipIdx_map_fst]; exact hb
      obtain ⟨x, hx, h⟩ := List.mem_map.1 this
      exact ⟨x, hx, h⟩
    obtain ⟨sh, h1, h2, h3⟩ := hbshare g hg b hb (sd x.2)
    refine ⟨g, hg, sh, hu, ?_, h2, h3⟩
    refine dget_of_mem (hnod s hs) ?_
    rw [hbs]
    exact List.mem_map.2 ⟨x, hx, by rw [hxb, h1]⟩
  have hgetShares : d.getShares = .ok d.shares := by
    unfold GuiDecryption.getShares
    rw [if_neg]
    rw [Bool.not_eq_true, List.any_eq_false]
    intro s hs
    rw [Bool.not_eq_true, List.any_eq_false]
    intro y hy
    obtain ⟨g, hg, sd, -, hbs⟩ := hballots s hs
    rw [hbs] at hy
    obtain ⟨x, hx, rfl⟩ := List.mem_map.1 hy
    obtain ⟨sh, h1, -⟩ := hbshare g hg x.1 (mem_of_zipIdx hx) (sd x.2)
    simp only [h1, Option.isNone_some, Bool.false_eq_true, not_false_eq_true]
  -- announcing
  obtain ⟨dm, hdm⟩ := announceShares_ok (e := e) d.shares DM.init (fun s hs => by
    obtain ⟨g, hg, hj⟩ := hsh s hs
    rw [hj.user]
    exact ⟨_, ht.order hg⟩)
  obtain ⟨used, hbook, hsub, hcover⟩ := announceShares_book d.shares [] DM.init dm (Book.init e) hnod hdm
  rw [List.nil_append] at hbook hcover
  have hused : ∀ s ∈ used, s ∈ d.shares := fun s hs => hsub.subset hs
  have hnames : (team.map (fun g => toString g.electionKeys.sequenceOrder)).Nodup := by
    have h1 := List.Nodup.of_map _ hready.distinct
    refine (List.nodup_map_iff_inj_on h1).2 (fun a ha b hb hab => ?_)
    refine List.inj_on_of_nodup_map hready.distinct ha hb ?_
    have := Int.repr_injective hab
    rw [this]
  have hperm : (used.map (fun s => e.orderName s.guardianId)).Perm
      (team.map (fun g => toString g.electionKeys.sequenceOrder)) := by
    refine (List.perm_ext_iff_of_nodup hbook.nodup hnames).2 (fun i => ⟨fun hi => ?_, fun hi => ?_⟩)
    · obtain ⟨s, hs, rfl⟩ := List.mem_map.1 hi
      obtain ⟨g, hg, hj⟩ := hsh s (hused s hs)
      exact List.mem_map.2 ⟨g, hg, by rw [hj.user, ht.orderName hg]⟩
    · obtain ⟨g, hg, rfl⟩ := List.mem_map.1 hi
      obtain ⟨s, hs, hu⟩ := hall g hg
      have := hcover s hs
      rwa [hu, ht.orderName hg] at this
  have hlen : used.length = team.length := by simpa using hperm.length_eq
  have hcomplete : dm.announcementComplete e.context = true := by
    rw [C48_complete_iff, hbook.available, hbook.missing, ht.count, List.length_map, hlen]
    exact ⟨hready.quorum, by simp⟩
  -- the tally
  have htent : ∀ x ∈ dm.tallyShares, ∃ g ∈ team, x.1 = e.orderName g.id ∧ x.2.guardianId = g.id ∧
      ShareFor E e.context.cryptoExtendedBaseHash g.electionKeys.keyPair.secret g.electionKeys.keyPair.pub t.toCts x.2 := by
    rw [hbook.tally]
    intro x hx
    obtain ⟨s, hs, rfl⟩ := List.mem_map.1 hx
    obtain ⟨g, hg, hj⟩ := hsh s (hused s hs)
    obtain ⟨sd, hsd⟩ := hj.tally
    obtain ⟨sh, h1, -, h2, h3⟩ := shareForContests_ok hv g.electionKeys (ht.keys g hg) t.objectId t.toCts e.context sd
      ht.hash hready.tally.ids hready.tally.elements
    have : s.tallyShare = sh := Option.some.inj (hsd.symm.trans h1)
    refine ⟨g, hg, by rw [hj.user], ?_, ?_⟩
    · dsimp only; rw [this]; exact h2
    · dsimp only; rw [this]; exact h3
  have hgids : ∀ l : List (String × DecShare), (l.map (fun x => x.1)).Nodup →
      (∀ x ∈ l, x.1 = e.orderName x.2.guardianId) → (l.map (fun x => x.2.guardianId)).Nodup :=
    fun l h1 h2 => hbook.gids l h1 h2
  have htg : (dm.tallyShares.map (fun x => x.2.guardianId)).Nodup := by
    refine hgids _ ?_ ?_
    · rw [hbook.tally, List.map_map]; exact hbook.nodup
    · intro x hx
      obtain ⟨g, -, h1, h2, -⟩ := htent x hx
      rw [h1, h2]
  have htlen : dm.tallyShares.length = team.length := by rw [hbook.tally, List.length_map, hlen]
  have htK := joint_of_shares hv ht dm.tallyShares htg (fun x hx => by
    obtain ⟨g, hg, -, h2, -⟩ := htent x hx
    exact ⟨g, hg, h2⟩) htlen
  obtain ⟨ds, hds, hcorrect⟩ := decryptContests_right hv (baseHash := e.context.cryptoExtendedBaseHash)
    t.toCts dm.tallyShares sec (fun i => E.P.g ^ sec i % E.P.p) e.manifest htg
    (fun y hy => by
      obtain ⟨g, hg, -, h2, ho⟩ := htent y hy
      rw [h2, hsec g hg, ← ht.keys g hg]
      exact ho) htK hready.tally t.objectId
  have htready : readyToDecrypt e.context dm.tallyShares = true := by
    unfold readyToDecrypt
    rw [htlen, ht.count]
    exact beq_self_eq_true _
  have hpt : dm.plaintextTally E maxE e.context t e.manifest = .ok (some ⟨t.objectId, ds⟩) := by
    unfold DM.plaintextTally decryptTally
    rw [hcomplete, htready, hds]
    rfl
  -- the ballots
  let shs : SBallot → List (String × DecShare) := fun b => (dget dm.ballotShares b.objectId).getD []
  have hshs : ∀ b ∈ spoiledOf bs, shs b = used.filterMap (fun s => (dget s.ballotShares b.objectId).join.map
      (fun sh => (e.orderName s.guardianId, sh))) := fun b _ => hbook.ballots b.objectId
  have hbent : ∀ b ∈ spoiledOf bs, ∀ x ∈ shs b, ∃ g ∈ team, x.1 = e.orderName g.id ∧ x.2.guardianId = g.id ∧
      ShareFor E e.context.cryptoExtendedBaseHash g.electionKeys.keyPair.secret g.electionKeys.keyPair.pub b.toCts x.2 := by
    intro b hb x hx
    rw [hshs b hb] at hx
    obtain ⟨s, hs, hx⟩ := List.mem_filterMap.1 hx
    obtain ⟨g, hg, sh, h1, h2, h3, h4⟩ := hget s (hused s hs) b hb
    rw [h2] at hx
    cases hx
    exact ⟨g, hg, by rw [h1], h3, h4⟩
  have hblen : ∀ b ∈ spoiledOf bs, (shs b).length = team.length := by
    intro b hb
    rw [hshs b hb, ← hlen]
    have : ∀ l : List JoinedShare, (∀ s ∈ l, s ∈ d.shares) →
        (l.filterMap (fun s => (dget s.ballotShares b.objectId).join.map
          (fun sh => (e.orderName s.guardianId, sh)))).length = l.length := by
      intro l hl
      induction l with
      | nil => rfl
      | cons s l ih =>
        obtain ⟨g, hg, sh, h1, h2, h3, h4⟩ := hget s (hl s (List.mem_cons_self ..)) b hb
        rw [List.filterMap_cons, h2]
        show List.length (_ :: _) = _
        rw [List.length_cons, List.length_cons]
        exact congrArg (· + 1) (ih (fun s hs => hl s (List.mem_cons_of_mem _ hs)))
    exact this used hused
  have hbg : ∀ b ∈ spoiledOf bs, ((shs b).map (fun x => x.2.guardianId)).Nodup := by
    intro b hb
    refine hgids _ ?_ ?_
    · rw [hshs b hb]
      exact (filterMap_keys (fun s => e.orderName s.guardianId) _ used).nodup hbook.nodup
    · intro x hx
      obtain ⟨g, -, h1, h2, -⟩ := hbent b hb x hx
      rw [h1, h2]
  have hbdec : ∀ b ∈ spoiledOf bs, ∃ ds, decryptContestsLoop E maxE (shs b) e.context.cryptoExtendedBaseHash e.manifest
      true b.toCts [] = .ok (some ds) ∧
      PlaintextTally.Correct ⟨b.objectId, ds⟩ E.P e.context.elgamalPublicKey e.manifest b.toCts := by
    intro b hb
    have hK := joint_of_shares hv ht (shs b) (hbg b hb) (fun x hx => by
      obtain ⟨g, hg, -, h2, -⟩ := hbent b hb x hx
      exact ⟨g, hg, h2⟩) (hblen b hb)
    exact decryptContests_right hv (baseHash := e.context.cryptoExtendedBaseHash)
      b.toCts (shs b) sec (fun i => E.P.g ^ sec i % E.P.p) e.manifest (hbg b hb)
      (fun y hy => by
        obtain ⟨g, hg, -, h2, ho⟩ := hbent b hb y hy
        rw [h2, hsec g hg, ← ht.keys g hg]
        exact ho) hK (hready.ballots b hb) b.objectId
  choose! pd hpd1 hpd2 using hbdec
  have hloop : plaintextBallotsLoop E maxE dm e.context e.manifest (spoiledOf bs) []
      = .ok ((spoiledOf bs).map (fun b => (b.objectId, (⟨b.objectId, pd b⟩ : PlaintextTally)))) := by
    have := plaintextBallotsLoop_right maxE dm e.context e.manifest shs (fun b => ⟨b.objectId, pd b⟩) (spoiledOf bs) []
      hready.ids (fun b _ h => by cases h) (fun b hb => by
        have hne : shs b ≠ [] := by
          intro h
          have := hblen b hb
          rw [h] at this
          exact hready.members (List.length_eq_zero_iff.1 this.symm)
        refine ⟨?_, hne, ?_, ?_, rfl⟩
        · simp only [shs] at hne ⊢
          cases hg : dget dm.ballotShares b.objectId with
          | none => rw [hg] at hne; exact absurd rfl hne
          | some x => rfl
        · unfold readyToDecrypt
          rw [hblen b hb, ht.count]
          exact beq_self_eq_true _
        · unfold decryptBallotWithShares
          rw [hpd1 b hb]
          rfl)
    simpa using this
  have hpb : dm.plaintextBallots E maxE e.context (spoiledOf bs) e.manifest
      = .ok (some ((spoiledOf bs).map (fun b => (b.objectId, (⟨b.objectId, pd b⟩ : PlaintextTally))))) := by
    unfold DM.plaintextBallots
    rw [hcomplete, hloop]
    rfl
  -- the coefficients
  have hkeys : dm.available.map (·.2) = used.map (fun s => s.named e) := by
    rw [hbook.available, List.map_map]; rfl
  have hkey : ∀ s ∈ used, ∃ g ∈ team, s.guardianId = g.id ∧ (s.named e).sequenceOrder = g.electionKeys.sequenceOrder := by
    intro s hs
    obtain ⟨g, hg, hj⟩ := hsh s (hused s hs)
    refine ⟨g, hg, hj.user, ?_⟩
    unfold JoinedShare.named
    rw [hj.key]
    rfl
  obtain ⟨L, hL, -⟩ := lagrange_right hv [] (used.map (fun s => s.named e))
    (by rw [List.map_map]; exact hbook.nodup)
    (fun k hk => by
      obtain ⟨s, hs, rfl⟩ := List.mem_map.1 hk
      obtain ⟨g, hg, -, h⟩ := hkey s hs
      rw [h]
      exact hready.orders g hg)
    (by
      rw [List.map_map]
      refine (List.nodup_map_iff_inj_on (List.Nodup.of_map _ hbook.nodup)).2 (fun a ha b hb hab => ?_)
      obtain ⟨g, hg, h1, h2⟩ := hkey a ha
      obtain ⟨g', hg', h1', h2'⟩ := hkey b hb
      simp only [Function.comp, h2, h2'] at hab
      have : g = g' := List.inj_on_of_nodup_map hready.distinct hg hg' hab
      refine List.inj_on_of_nodup_map hbook.nodup ha hb ?_
      rw [h1, h1', this])
    (Nat.zero_le _)
  refine ⟨⟨⟨t.objectId, ds⟩, (spoiledOf bs).map (fun b => (b.objectId, (⟨b.objectId, pd b⟩ : PlaintextTally))),
    (used.map (fun s => s.named e)).map (fun k => (k.ownerId, L k)), t⟩, ?_, rfl, hcorrect, ?_, ?_, ?_⟩
  · unfold s2Compute GuiDb.getElection
    rw [he]
    simp only [bind, Except.bind, pure, Except.pure, hgetShares, hdm]
    rw [hread, hready.tallied]
    dsimp only
    rw [hpt]
    dsimp only
    rw [hpb]
    dsimp only
    rw [hkeys, hL]
  · rw [List.map_map]; rfl
  · intro b hb
    refine ⟨⟨b.objectId, pd b⟩, ?_, rfl, hpd2 b hb⟩
    refine dget_of_mem ?_ (List.mem_map.2 ⟨b, hb, rfl⟩)
    rw [dkeys, List.map_map]
    exact hready.ids
  · intro g hg
    rw [dkeys, List.map_map, List.map_map]
    exact hperm.mem_iff.2 (List.mem_map.2 ⟨g, hg, rfl⟩)

/-- Joining works. -/
theorem s1Compute_complete (hv : E.P.Valid) {maxE : Nat} {net : Nat → Nat → Bool} {db : GuiDb} {eid : String}
    {e : ElectionDoc} {team : List Guardian} (ht : ElectionTeam E.P e team) (he : dget db.elections eid = some e)
    {bs : List SBallot} {t : Tally} (hready : ReadyToDecrypt E maxE e team bs t)
    (hread : db.getBallots parse net eid = bs) {g : Guardian} (hg : g ∈ team) (seeds : JoinSeeds) :
    ∃ js, s1Compute E parse net db eid g.id (some g) seeds = .ok (js, t) ∧ JoinOf E e g bs t js := by
  obtain ⟨sh, h1, -⟩ := shareForContests_ok hv g.electionKeys (ht.keys g hg) t.objectId t.toCts e.context seeds.tally
    ht.hash hready.tally.ids hready.tally.elements
  have h1 : g.computeTallyShare E t e.context seeds.tally = some sh := h1
  have h : s1Compute E parse net db eid g.id (some g) seeds
      = .ok (⟨g.id, g.shareKey, sh, g.computeBallotShares E (spoiledOf bs) e.context seeds.ballots⟩, t) := by
    unfold s1Compute GuiDb.getElection
    rw [he]
    simp only [bind, Except.bind, pure, Except.pure]
    rw [hread, hready.tallied]
    dsimp only
    rw [h1]
  exact ⟨_, h, rfl, rfl, hready.tallied, ⟨_, h1⟩, ⟨_, rfl⟩⟩

theorem joinAll_complete (hv : E.P.Valid) {maxE : Nat} {db : GuiDb} {e : ElectionDoc} {team : List Guardian}
    (ht : ElectionTeam E.P e team) {bs : List SBallot} {t : Tally} (hready : ReadyToDecrypt E maxE e team bs t)
    {guardianOf : String → Option Guardian} (hf : OwnFiles guardianOf team)
    (joins : List (String × (Nat → Nat → Bool) × JoinSeeds)) (d : GuiDecryption)
    (he : dget db.elections d.electionId = some e)
    (hj : ∀ j ∈ joins, (guardianOf j.1).isSome ∧ db.getBallots parse j.2.1 d.electionId = bs)
    (hsh : ∀ s ∈ d.shares, ∃ g ∈ team, JoinOf E e g bs t s) :
    ∃ d', joinAll E parse db guardianOf joins d = .ok d' ∧ d'.electionId = d.electionId ∧ d'.guardians = d.guardians ∧
      d'.completed = d.completed ∧ d'.joined = d.joined ++ joins.map (fun j => j.1) ∧
      (∀ s ∈ d'.shares, ∃ g ∈ team, JoinOf E e g bs t s) ∧
      (∀ s ∈ d.shares, s ∈ d'.shares) ∧ ∀ j ∈ joins, ∃ s ∈ d'.shares, s.guardianId = j.1 := by
  induction joins generalizing d with
  | nil => exact ⟨d, rfl, rfl, rfl, rfl, by simp, hsh, fun s hs => hs, fun j hj => (by cases hj)⟩
  | cons j js ih =>
    obtain ⟨h1, h2⟩ := hj j (List.mem_cons_self ..)
    obtain ⟨g, hg⟩ := Option.isSome_iff_exists.1 h1
    obtain ⟨hgt, hgid⟩ := hf _ _ hg
    obtain ⟨s, hs, hjoin⟩ := s1Compute_complete hv ht he hready h2 hgt j.2.2
    have hstep : s1Join E parse j.2.1 db d j.1 (guardianOf j.1) j.2.2 = .ok (d.appendJoined s) := by
      unfold s1Join
      rw [hg, ← hgid, hs]
      rfl
    have hmem : ∀ x ∈ d.shares, x ∈ (d.appendJoined s).shares := fun x hx => List.mem_append_left _ hx
    obtain ⟨d', g1, g2, g3, g4, g5, g6, g7, g8⟩ := ih (d.appendJoined s) he
      (fun j hj' => hj j (List.mem_cons_of_mem _ hj')) (fun x hx => by
        rcases List.mem_append.1 hx with hx | hx
        · exact hsh x hx
        · rw [List.mem_singleton] at hx
          subst hx
          exact ⟨g, hgt, hjoin⟩)
    refine ⟨d', ?_, g2, g3, g4, ?_, g6, fun x hx => g7 x (hmem x hx), ?_⟩
    · unfold joinAll at g1 ⊢
      rw [List.foldlM_cons, hstep]
      exact g1
    · rw [g5]
      show (d.joined ++ [s.guardianId]) ++ _ = _
      rw [hjoin.user, hgid]
      simp
    · intro x hx
      rcases List.mem_cons.1 hx with rfl | hx
      · exact ⟨s, g7 s (List.mem_append_right _ (List.mem_singleton.2 rfl)), hjoin.user.trans hgid⟩
      · exact g8 x hx

theorem spoiledOf_submitted (E : Env) (vs : List VotedBallot) : spoiledOf (vs.map (fun v => submitBallot E v.enc v.state))
    = (vs.filter (fun v => decide (v.state = .spoiled))).map (fun v => submitBallot E v.enc v.state) := by
  unfold spoiledOf
  rw [List.filter_map]
  rfl

/-- What has happened when every guardian joined and an administrator opened the decryption. -/
structure Decrypted (E : Env) (maxE : Nat) (parse : List Char → Option SBallot) (db : GuiDb) (eid : String) (e : ElectionDoc)
    (m : Manifest) (im : InternalManifest) (team : List Guardian) (vs : List VotedBallot) (net : Nat → Nat → Bool)
    (e' : ElectionDoc) (t : Tally) (d : GuiDecryption) (r : GuiResult) : Prop where
  election : dget db.elections eid = some e'
  same : e'.manifest = m ∧ e'.context = e.context
  guardians : ElectionTeam E.P e' team
  ready : ReadyToDecrypt E maxE e' team ((firsts vs).map (fun v => submitBallot E v.enc v.state)) t
  read : ∀ net' : Nat → Nat → Bool, (∀ n, ∃ k < 3, net' n k = true) →
    db.getBallots parse net' eid = (firsts vs).map (fun v => submitBallot E v.enc v.state)
  id : d.electionId = eid
  shares : ∀ s ∈ d.shares, ∃ g ∈ team, JoinOf E e' g ((firsts vs).map (fun v => submitBallot E v.enc v.state)) t s
  all : ∀ g ∈ team, ∃ s ∈ d.shares, s.guardianId = g.id
  stage : tryRunStage2 E maxE parse net db d true = (.ok true, d.setCompleted r)
  status : (d.setCompleted r).status = .complete
  result : s2Compute E maxE parse net db d = .ok r
  reports : ∀ pt : PlaintextTally, pt.Correct E.P e.context.elgamalPublicKey m t.toCts →
    ∀ cid sid n, pt.Reports cid sid n ↔ ∃ d ∈ im.contests, d.objectId = cid ∧
      sid ∈ d.ballotSelections.map SelectionDescription.objectId ∧ n = electionResult im vs d sid

theorem decryption_core (hv : E.P.Valid) (hpq : (E.P.q - 1) * (E.P.q - 1) < E.P.p) (maxE : Nat)
    (hmax1 : 1 ≤ maxE) (json : ContestData → Bytes) (m : Manifest) (im : InternalManifest) (hem : ElectionReady E m im)
    -- the election and its guardians
    (parse : List Char → Option SBallot) (db : GuiDb) (eid : String) (e : ElectionDoc)
    (hdb : dget db.elections eid = some e) (hm : e.manifest = m) (hhash : e.context.manifestHash = im.manifestHash)
    (team : List Guardian) (ht : ElectionTeam E.P e team) (hteam : team ≠ [])
    (horders : ∀ g ∈ team, 0 ≤ g.electionKeys.sequenceOrder)
    (hdistinct : (team.map (fun g => (g.electionKeys.sequenceOrder : ZMod E.P.q))).Nodup)
    (hquorum : e.context.quorum ≤ team.length)
    (guardianOf : String → Option Guardian) (hf : OwnFiles guardianOf team)
    -- the uploads
    (hempty : db.docsOf eid = []) (ops : List UploadOp)
    (hend : ∀ d ∈ (db.run parse ops).docsOf eid, d.contents.getLast? = some '}') (vs : List VotedBallot)
    (hvs : ∀ v ∈ vs, v.Encrypted E json im e.context ∧ ∃ d, im.StyleHas v.plain.styleId d)
    (hops : uploadedTo parse im.manifestHash eid ops = vs.map (fun v => submitBallot E v.enc v.state))
    (hsmall : (counted vs).length < E.P.q) (hmax : (counted vs).length ≤ maxE)
    -- the decryption
    (joins : List (String × (Nat → Nat → Bool) × JoinSeeds))
    (hjoins : ∀ j ∈ joins, (guardianOf j.1).isSome ∧ ∀ n, ∃ k < 3, j.2.1 n k = true)
    (hall : ∀ g ∈ team, ∃ j ∈ joins, j.1 = g.id) (net : Nat → Nat → Bool) (hnet : ∀ n, ∃ k < 3, net n k = true) :
    ∃ e' t d r, joinAll E parse (db.run parse ops) guardianOf joins (GuiDecryption.create eid team.length) = .ok d ∧
      Decrypted E maxE parse (db.run parse ops) eid e m im team vs net e' t d r := by
  have hres : isValidResidue E.P e.context.elgamalPublicKey = true := by
    rw [ht.joint]
    exact jointKey_residue hv team _ _ ht.keys
  have hreads : ∀ net' : Nat → Nat → Bool, (∀ n, ∃ k < 3, net' n k = true) →
      (db.run parse ops).getBallots parse net' eid = (firsts vs).map (fun v => submitBallot E v.enc v.state) :=
    fun net' h => (C69_uploads_tally_partial hv hpq maxE json m im hem e.context hres hhash parse net' h db eid e hdb rfl
      hempty ops hend vs hvs hops hsmall hmax).1
  obtain ⟨hread, t, htal, -, -, hdec, hrep⟩ := C69_uploads_tally_partial hv hpq maxE json m im hem e.context hres hhash
    parse net hnet db eid e hdb rfl hempty ops hend vs hvs hops hsmall hmax
  obtain ⟨e', he', g1, g2, g3⟩ := (C69_append_only parse db ops).2 eid e hdb
  have ht' : ElectionTeam E.P e' team := by
    obtain ⟨a1, a2, a3, a4, a5, a6⟩ := ht
    exact ⟨a1, a2, by rw [g3]; exact a3, by rw [g2]; exact a4, by rw [g2]; exact a5, by rw [g2]; exact a6⟩
  have hspoiled : spoiledOf ((firsts vs).map (fun v => submitBallot E v.enc v.state))
      = ((firsts vs).filter (fun v => decide (v.state = .spoiled))).map (fun v => submitBallot E v.enc v.state) := by
    unfold spoiledOf
    rw [List.filter_map]
    rfl
  have hcore : ∀ v ∈ firsts vs, _ := fun v hv' =>
    ballot_core hv hpq maxE hmax1 json m im hem e.context hres v (hvs v (firsts_subset vs v hv')).1
  have hids : ((firsts vs).map (fun v => v.enc.objectId)).Nodup := by
    rw [List.map_congr_left (fun v hv' => (hcore v hv').2.1)]
    exact firsts_nodup vs
  have hready : ReadyToDecrypt E maxE e' team ((firsts vs).map (fun v => submitBallot E v.enc v.state)) t := by
    refine ⟨hteam, horders, hdistinct, by rw [g2]; exact hquorum, ?_, ?_, ?_, ?_⟩
    · rw [g1, g2, hm, ← hread]; exact htal
    · rw [g1, g2, hm]; exact hdec
    · rw [hspoiled, List.map_map]
      exact hids.sublist (List.filter_sublist.map _)
    · rw [hspoiled, g1, g2, hm]
      intro b hb
      obtain ⟨v, hv', rfl⟩ := List.mem_map.1 hb
      exact (hcore v (List.mem_filter.1 hv').1).1
  obtain ⟨d, hd, d1, d2, d3, d4, d5, -, d7⟩ := joinAll_complete hv (parse := parse) (db := db.run parse ops) ht' hready hf
    joins (GuiDecryption.create eid team.length) he' (fun j hj => ⟨(hjoins j hj).1, hreads _ (hjoins j hj).2⟩)
    (fun s hs => (by cases hs))
  obtain ⟨r, hr, -⟩ := s2_complete hv (parse := parse) (net := net) (db := db.run parse ops) (d := d) ht'
    (by rw [d1]; exact he') hready (by rw [d1]; exact hread) d5 (fun g hg => by
      obtain ⟨j, hj, hid⟩ := hall g hg
      obtain ⟨s, hs, h⟩ := d7 j hj
      exact ⟨s, hs, h.trans hid⟩)
  have hjoined : (team.length : Int) ≤ d.joined.length := by
    have hsub : (team.map (fun g => g.id)).Subperm d.joined := by
      refine List.subperm_of_subset ht.ids ?_
      intro i hi
      obtain ⟨g, hg, rfl⟩ := List.mem_map.1 hi
      obtain ⟨j, hj, hid⟩ := hall g hg
      rw [d4]
      exact List.mem_append_right _ (List.mem_map.2 ⟨j, hj, hid⟩)
    have := hsub.length_le
    rw [List.length_map] at this
    exact_mod_cast this
  have hgn : d.guardians = team.length := d2
  have hnone : d.completed = none := d3
  refine ⟨e', t, d, r, hd, he', ⟨g1.trans hm, g2⟩, ht', hready, hreads, d1, d5, ?_, ?_, ?_, hr, hrep⟩
  · intro g hg
    obtain ⟨j, hj, hid⟩ := hall g hg
    obtain ⟨s, hs, h⟩ := d7 j hj
    exact ⟨s, hs, h.trans hid⟩
  · unfold tryRunStage2 s2ShouldRun
    rw [hgn, hnone, hr]
    simp [hjoined]
  · unfold GuiDecryption.status GuiDecryption.setCompleted
    simp only [hgn]
    rw [if_neg (by omega)]
    rfl

/-- C70 Every guardian joins, in any order and also repeatedly, then an administrator opens the decryption: it is completed,
and it reports the election result of the uploaded ballots and the votes of every spoiled ballot, the first of each id.
Partial: the ballots are properly encrypted, the files end with `}`, the database answers, and no ballot is uploaded after
the first guardian joined (see `C70_late_ballot_fails`). -/
theorem C70_decryption_completes_partial (hv : E.P.Valid) (hpq : (E.P.q - 1) * (E.P.q - 1) < E.P.p) (maxE : Nat)
    (hmax1 : 1 ≤ maxE) (json : ContestData → Bytes) (m : Manifest) (im : InternalManifest) (hem : ElectionReady E m im)
    -- the election and its guardians
    (parse : List Char → Option SBallot) (db : GuiDb) (eid : String) (e : ElectionDoc)
    (hdb : dget db.elections eid = some e) (hm : e.manifest = m) (hhash : e.context.manifestHash = im.manifestHash)
    (team : List Guardian) (ht : ElectionTeam E.P e team) (hteam : team ≠ [])
    (horders : ∀ g ∈ team, 0 ≤ g.electionKeys.sequenceOrder)
    (hdistinct : (team.map (fun g => (g.electionKeys.sequenceOrder : ZMod E.P.q))).Nodup)
    (hquorum : e.context.quorum ≤ team.length)
    (guardianOf : String → Option Guardian) (hf : OwnFiles guardianOf team)
    -- the uploads
    (hempty : db.docsOf eid = []) (ops : List UploadOp)
    (hend : ∀ d ∈ (db.run parse ops).docsOf eid, d.contents.getLast? = some '}') (vs : List VotedBallot)
    (hvs : ∀ v ∈ vs, v.Encrypted E json im e.context ∧ ∃ d, im.StyleHas v.plain.styleId d)
    (hops : uploadedTo parse im.manifestHash eid ops = vs.map (fun v => submitBallot E v.enc v.state))
    (hsmall : (counted vs).length < E.P.q) (hmax : (counted vs).length ≤ maxE)
    -- the decryption
    (joins : List (String × (Nat → Nat → Bool) × JoinSeeds))
    (hjoins : ∀ j ∈ joins, (guardianOf j.1).isSome ∧ ∀ n, ∃ k < 3, j.2.1 n k = true)
    (hall : ∀ g ∈ team, ∃ j ∈ joins, j.1 = g.id) (net : Nat → Nat → Bool) (hnet : ∀ n, ∃ k < 3, net n k = true) :
    ∃ d d' r, joinAll E parse (db.run parse ops) guardianOf joins (GuiDecryption.create eid team.length) = .ok d ∧
      tryRunStage2 E maxE parse net (db.run parse ops) d true = (.ok true, d') ∧
      d'.completed = some r ∧ d'.status = .complete ∧
      (∀ cid sid n, r.tally.Reports cid sid n ↔ ∃ c ∈ im.contests, c.objectId = cid ∧
        sid ∈ c.ballotSelections.map SelectionDescription.objectId ∧ n = electionResult im vs c sid) ∧
      (∀ i, i ∈ dkeys r.ballots ↔ ∃ v ∈ firsts vs, v.state = .spoiled ∧ v.plain.objectId = i) ∧
      (∀ v ∈ firsts vs, v.state = .spoiled → ∃ pt, dget r.ballots v.plain.objectId = some pt ∧
        ∀ cid sid n, pt.Reports cid sid n ↔ ∃ c ∈ im.contests, c.objectId = cid ∧
          im.onStyle v.plain.styleId c = true ∧ sid ∈ c.ballotSelections.map SelectionDescription.objectId ∧
          n = v.plain.votesFor im c sid) := by
  obtain ⟨e', t, d, r, hd, h⟩ := decryption_core hv hpq maxE hmax1 json m im hem parse db eid e hdb hm hhash team ht hteam horders hdistinct hquorum guardianOf hf hempty ops hend vs hvs hops hsmall hmax joins hjoins hall net hnet
  have hres : isValidResidue E.P e.context.elgamalPublicKey = true := by
    rw [ht.joint]
    exact jointKey_residue hv team _ _ ht.keys
  have hcore : ∀ v ∈ firsts vs, _ := fun v hv' =>
    ballot_core hv hpq maxE hmax1 json m im hem e.context hres v (hvs v (firsts_subset vs v hv')).1
  have hspoiled := spoiledOf_submitted E (firsts vs)
  obtain ⟨r', hr', -, r2, r3, r4, -⟩ := s2_complete hv h.guardians (by rw [h.id]; exact h.election) h.ready
    (by rw [h.id]; exact h.read net hnet) h.shares h.all
  rw [h.result] at hr'
  cases hr'
  rw [h.same.1, h.same.2] at r2 r4
  refine ⟨d, d.setCompleted r, r, hd, h.stage, rfl, h.status, ?_, ?_, ?_⟩
  · exact h.reports r.tally r2
  · intro i
    have : dkeys r.ballots = ((firsts vs).filter (fun v => decide (v.state = .spoiled))).map (fun v => v.enc.objectId) := by
      unfold dkeys
      rw [r3, hspoiled, List.map_map]
      rfl
    rw [this]
    constructor
    · intro h
      obtain ⟨v, hv', rfl⟩ := List.mem_map.1 h
      obtain ⟨h1, h2⟩ := List.mem_filter.1 hv'
      exact ⟨v, h1, by simpa using h2, (hcore v h1).2.1.symm⟩
    · rintro ⟨v, h1, h2, rfl⟩
      exact List.mem_map.2 ⟨v, List.mem_filter.2 ⟨h1, by simpa using h2⟩, (hcore v h1).2.1⟩
  · intro v hv' hs
    obtain ⟨pt, h1, h2, h3⟩ := r4 (submitBallot E v.enc v.state) (by
      rw [hspoiled]
      exact List.mem_map.2 ⟨v, List.mem_filter.2 ⟨hv', by simpa using hs⟩, rfl⟩)
    refine ⟨pt, ?_, (hcore v hv').2.2 pt h3⟩
    rw [← (hcore v hv').2.1]
    exact h1

end EG
