import Verif.Lemmas.QuorumShares

/-!
# The shares that the mediator holds after a tally ceremony by a quorum
-/

namespace EG

variable {E : Env}

theorem getValidBallotShares_mem {α : Type} (l : List (String × Option α)) :
    ∀ e ∈ getValidBallotShares l, (e.1, some e.2) ∈ l := by
  unfold getValidBallotShares
  have key : ∀ (l : List (String × Option α)) (d : List (String × α)),
      ∀ e ∈ l.foldl (fun d e => match e.2 with | some s => dset d e.1 s | none => d) d, e ∈ d ∨ (e.1, some e.2) ∈ l := by
    intro l
    induction l with
    | nil => exact fun d e he => .inl he
    | cons a l ih =>
      intro d e he
      rw [List.foldl_cons] at he
      rcases ih _ e he with h | h
      · cases ha : a.2 with
        | none => rw [ha] at h; exact .inl h
        | some s =>
          rw [ha] at h
          rcases mem_dset h with rfl | h
          · refine .inr ?_
            rw [← ha]
            exact List.mem_cons_self
          · exact .inl h
      · exact .inr (List.mem_cons_of_mem _ h)
  intro e he
  rcases key l [] e he with h | h
  · cases h
  · exact h

theorem announceAvailable_own {sd : TallySeeds} {ctx : Context} {gs : List Guardian} {t : Tally} {bs : List SBallot} (l : List Guardian)
    (hl : ∀ g ∈ l, g ∈ gs) (dm dm' : DM) (hd : dm.Own E ctx gs t bs) (h : announceAvailable E sd ctx t bs l dm = .ok dm') :
    dm'.Own E ctx gs t bs := by
  induction l generalizing dm with
  | nil => cases h; exact hd
  | cons g l ih =>
    unfold announceAvailable at h
    simp only [bind, Except.bind] at h
    cases hs : g.computeTallyShare E t ctx (sd.tally g.id) with
    | none => rw [hs] at h; cases h
    | some sh =>
      rw [hs] at h
      refine ih (fun x hx => hl x (List.mem_cons_of_mem _ hx)) _ (announce_own_list hd g (hl g List.mem_cons_self) hs _ ?_) h
      intro e he s hes
      obtain ⟨x, hx, rfl⟩ := List.mem_map.1 he
      have := getValidBallotShares_mem _ x hx
      cases hes
      exact computeBallotShares_mem (E := E) g bs ctx _ _ this _ rfl

theorem announceMissing_own {ctx : Context} {gs : List Guardian} {t : Tally} {bs : List SBallot} (l : List ElectionPublicKey) (dm : DM)
    (hd : dm.Own E ctx gs t bs) : (l.foldl DM.announceMissing dm).Own E ctx gs t bs := by
  induction l generalizing dm with
  | nil => exact hd
  | cons k l ih =>
    rw [List.foldl_cons]
    refine ih _ ?_
    unfold DM.announceMissing
    split
    · exact hd
    · exact ⟨hd.once, hd.tally, hd.ballots⟩

/-- The compensated shares that the mediator holds were computed by guardians. -/
structure DM.Comps (E : Env) (ctx : Context) (gs : List Guardian) (all : List ElectionPublicKey) (t : Tally) (bs : List SBallot)
    (dm : DM) : Prop where
  tally : ∀ e ∈ dm.compTally, CompMade E ctx gs all t.toCts e.1 e.2
  ballots : ∀ e ∈ dm.compBallot, ∀ x ∈ e.2, ∃ b ∈ bs, b.objectId = e.1 ∧ CompMade E ctx gs all b.toCts x.1 x.2

/-- What the exchange of compensated shares does not change. -/
structure DM.SameShares (a b : DM) : Prop where
  available : b.available = a.available
  missing : b.missing = a.missing
  tallyShares : b.tallyShares = a.tallyShares
  ballotShares : b.ballotShares = a.ballotShares

theorem DM.SameShares.trans {a b c : DM} (h : a.SameShares b) (h' : b.SameShares c) : a.SameShares c :=
  ⟨h'.available.trans h.available, h'.missing.trans h.missing, h'.tallyShares.trans h.tallyShares, h'.ballotShares.trans h.ballotShares⟩

theorem compMade_name {ctx : Context} {g : Guardian} {k : ElectionPublicKey} {y : Nat} {id : String} {cs : List CtContest}
    {seeds : Nat → Nat → Nat} {c : CompShare} (h : compForContests E true y g.shareKey k id cs ctx seeds = some c) :
    (c.guardianId, c.missingId) = (g.id, k.ownerId) := by
  obtain ⟨h1, h2, -⟩ := compForContests_parts h
  rw [h1, h2]
  rfl

theorem compBallotLoop_mem {g : Guardian} {y : Option Nat} {k : ElectionPublicKey} {ctx : Context} {seeds : Nat → Nat → Nat → Nat}
    (l : List (SBallot × Nat)) (d r : List (String × Option CompShare)) (h : compBallotLoop E g y k ctx seeds l d = .ok r) :
    ∀ e ∈ r, e ∈ d ∨ ∃ x ∈ l, x.1.objectId = e.1 ∧ ∃ c, e.2 = compForContests E true c g.shareKey k x.1.objectId x.1.toCts ctx (seeds x.2) := by
  induction l generalizing d with
  | nil => cases h; exact fun e he => .inl he
  | cons a l ih =>
    obtain ⟨b, i⟩ := a
    unfold compBallotLoop at h
    simp only [bind, Except.bind] at h
    cases hy : getOptional y with
    | error e => rw [hy] at h; cases h
    | ok c =>
      rw [hy] at h
      intro e he
      rcases ih _ h e he with h1 | ⟨x, hx, h1⟩
      · rcases mem_dset h1 with rfl | h1
        · exact .inr ⟨(b, i), List.mem_cons_self, rfl, c, rfl⟩
        · exact .inl h1
      · exact .inr ⟨x, List.mem_cons_of_mem _ hx, h1⟩

theorem computeCompBallotShares_mem {loads : Bytes → R (List Char)} {g : Guardian} {k : ElectionPublicKey} {bs : List SBallot}
    {ctx : Context} {seeds : Nat → Nat → Nat → Nat} {r : List (String × Option CompShare)}
    (hk : dget g.guardianKeys k.ownerId = some k) (h : g.computeCompBallotShares E loads k.ownerId bs ctx seeds = .ok r) :
    ∀ e ∈ r, ∀ c, e.2 = some c → ∃ b ∈ bs, b.objectId = e.1 ∧
      ∃ y sd, compForContests E true y g.shareKey k b.objectId b.toCts ctx sd = some c := by
  have hinit : ∀ (l : List SBallot) (d : List (String × Option CompShare)), (∀ e ∈ d, e.2 = none) →
      ∀ e ∈ l.foldl (fun d b => dset d b.objectId none) d, e.2 = none := by
    intro l
    induction l with
    | nil => exact fun d hd => hd
    | cons b l ih =>
      intro d hd
      refine ih _ (fun e he => ?_)
      rcases mem_dset he with rfl | he
      · rfl
      · exact hd e he
  unfold Guardian.computeCompBallotShares at h
  simp only [hk] at h
  intro e he c hc
  cases hb : dget g.guardianBackups k.ownerId with
  | none =>
    rw [hb] at h
    cases h
    have := hinit bs [] (by simp) e he
    rw [hc] at this
    cases this
  | some b =>
    rw [hb] at h
    simp only [bind, Except.bind] at h
    cases hy : g.decryptBackup E loads b with
    | error e => rw [hy] at h; cases h
    | ok y =>
      rw [hy] at h
      rcases compBallotLoop_mem _ _ _ h e he with h1 | ⟨x, hx, h1, c', h2⟩
      · have := hinit bs [] (by simp) e h1
        rw [hc] at this
        cases this
      · exact ⟨x.1, mem_of_zipIdx hx, h1, c', _, by rw [← h2]; exact hc⟩

theorem receiveBallotComp_comps {ctx : Context} {gs : List Guardian} {all : List ElectionPublicKey} {t : Tally} {bs : List SBallot}
    {g : Guardian} (hg : g ∈ gs) {k : ElectionPublicKey} (hk : k ∈ all) (l : List (String × CompShare))
    (hl : ∀ e ∈ l, ∃ b ∈ bs, b.objectId = e.1 ∧ ∃ y sd, compForContests E true y g.shareKey k b.objectId b.toCts ctx sd = some e.2)
    (dm : DM) (hd : dm.Comps E ctx gs all t bs) : (dm.receiveBallotComp l).Comps E ctx gs all t bs := by
  refine ⟨hd.tally, ?_⟩
  unfold DM.receiveBallotComp
  simp only
  have hb := hd.ballots
  generalize dm.compBallot = d at hb
  induction l generalizing d with
  | nil => exact hb
  | cons a l ih =>
    rw [List.foldl_cons]
    refine ih (fun e he => hl e (List.mem_cons_of_mem _ he)) _ (fun e he => ?_)
    rcases mem_dset he with rfl | he
    · intro x hx
      rcases mem_dset hx with rfl | hx
      · obtain ⟨b, hb', h1, y, sd, h2⟩ := hl a List.mem_cons_self
        refine ⟨b, hb', h1, ?_⟩
        simp only [compMade_name h2]
        exact ⟨g, hg, rfl, k, hk, rfl, y, _, sd, h2⟩
      · cases hg' : dget d a.1 with
        | none => rw [hg'] at hx; cases hx
        | some z =>
          rw [hg'] at hx
          exact hb _ (mem_of_dget hg') x hx
    · exact hb e he

theorem sendCompensation_comps {loads : Bytes → R (List Char)} {sd : TallySeeds} {ctx : Context} {gs : List Guardian}
    {all : List ElectionPublicKey} {t : Tally} {bs : List SBallot} {g : Guardian} (hg : g ∈ gs) (ks : List ElectionPublicKey)
    (hks : ∀ k ∈ ks, k ∈ all ∧ dget g.guardianKeys k.ownerId = some k) (dm dm' : DM) (hd : dm.Comps E ctx gs all t bs)
    (h : sendCompensation E loads sd ctx t bs g ks dm = .ok dm') : dm'.Comps E ctx gs all t bs ∧ dm.SameShares dm' := by
  induction ks generalizing dm with
  | nil => cases h; exact ⟨hd, rfl, rfl, rfl, rfl⟩
  | cons k ks ih =>
    obtain ⟨hk, hgk⟩ := hks k List.mem_cons_self
    unfold sendCompensation at h
    simp only [bind, Except.bind] at h
    cases hs : g.computeCompTallyShare E loads k.ownerId t ctx (sd.compTally g.id k.ownerId) with
    | error e => rw [hs] at h; cases h
    | ok share =>
      rw [hs] at h
      simp only at h
      cases hb : g.computeCompBallotShares E loads k.ownerId bs ctx (sd.compBallot g.id k.ownerId) with
      | error e => rw [hb] at h; cases h
      | ok bshares =>
        rw [hb] at h
        simp only at h
        have hmem := computeCompBallotShares_mem hgk hb
        have hl : ∀ e ∈ getValidBallotShares bshares, ∃ b ∈ bs, b.objectId = e.1 ∧
            ∃ y sd, compForContests E true y g.shareKey k b.objectId b.toCts ctx sd = some e.2 :=
          fun e he => hmem _ (getValidBallotShares_mem _ e he) e.2 rfl
        have hdm1 : (match (generalizing := false) share with | some sh => dm.receiveTallyComp sh | none => dm).Comps E ctx gs all t bs ∧
            dm.SameShares (match (generalizing := false) share with | some sh => dm.receiveTallyComp sh | none => dm) := by
          cases share with
          | none => exact ⟨hd, rfl, rfl, rfl, rfl⟩
          | some sh =>
            refine ⟨⟨fun e he => ?_, hd.ballots⟩, rfl, rfl, rfl, rfl⟩
            rcases mem_dset he with rfl | he
            · unfold Guardian.computeCompTallyShare at hs
              rw [hgk] at hs
              cases hbk : dget g.guardianBackups k.ownerId with
              | none => rw [hbk] at hs; cases hs
              | some b =>
                rw [hbk] at hs
                simp only [bind, Except.bind, pure, Except.pure] at hs
                cases hy : g.decryptBackup E loads b with
                | error e => rw [hy] at hs; cases hs
                | ok o =>
                  rw [hy] at hs
                  cases o with
                  | none => cases hs
                  | some y =>
                    have hs : compForContests E true y g.shareKey k t.objectId t.toCts ctx (sd.compTally g.id k.ownerId) = some sh :=
                      Except.ok.inj hs
                    simp only [compMade_name hs]
                    exact ⟨g, hg, rfl, k, hk, rfl, y, _, _, hs⟩
            · exact hd.tally e he
        obtain ⟨h1, h2⟩ := ih (fun x hx => hks x (List.mem_cons_of_mem _ hx)) _
          (receiveBallotComp_comps hg hk _ hl _ hdm1.1) h
        have h3 : ∀ (d : DM) l, d.SameShares (d.receiveBallotComp l) := fun _ _ => ⟨rfl, rfl, rfl, rfl⟩
        exact ⟨h1, hdm1.2.trans ((h3 _ _).trans h2)⟩

theorem compensations_comps {loads : Bytes → R (List Char)} {sd : TallySeeds} {ctx : Context} {gs : List Guardian}
    {all : List ElectionPublicKey} {t : Tally} {bs : List SBallot} (ks : List ElectionPublicKey) (l : List Guardian)
    (hl : ∀ g ∈ l, g ∈ gs ∧ ∀ k ∈ ks, k ∈ all ∧ dget g.guardianKeys k.ownerId = some k) (dm dm' : DM)
    (hd : dm.Comps E ctx gs all t bs)
    (h : l.foldlM (fun m g => sendCompensation E loads sd ctx t bs g ks m) dm = .ok dm') :
    dm'.Comps E ctx gs all t bs ∧ dm.SameShares dm' := by
  induction l generalizing dm with
  | nil => cases h; exact ⟨hd, rfl, rfl, rfl, rfl⟩
  | cons g l ih =>
    rw [List.foldlM_cons] at h
    simp only [bind, Except.bind] at h
    cases hs : sendCompensation E loads sd ctx t bs g ks dm with
    | error e => rw [hs] at h; cases h
    | ok dm1 =>
      rw [hs] at h
      obtain ⟨h1, h2⟩ := sendCompensation_comps (hl g List.mem_cons_self).1 ks (hl g List.mem_cons_self).2 _ _ hd hs
      obtain ⟨h3, h4⟩ := ih (fun x hx => hl x (List.mem_cons_of_mem _ hx)) _ h1 h
      exact ⟨h3, h2.trans h4⟩

/-! ### The reconstruction -/

theorem reconstructTallyLoop_made {P : Params} {t : Tally} {L : List (String × Nat)} {comps : List ((String × String) × CompShare)}
    (ms : List (String × ElectionPublicKey)) (shares : List (String × DecShare)) :
    ∀ e ∈ (reconstructTallyLoop P t L comps ms shares).2, e ∈ shares ∨ ∃ k, (e.1, k) ∈ ms ∧
      reconstructShare P k t.objectId t.toCts (filterByMissing e.1 comps) L = .ok e.2 := by
  induction ms generalizing shares with
  | nil => exact fun e he => .inl he
  | cons m ms ih =>
    obtain ⟨id, k⟩ := m
    have lift : ∀ (sh : List (String × DecShare)) (e : String × DecShare), (e ∈ sh ∨ ∃ k', (e.1, k') ∈ ms ∧
        reconstructShare P k' t.objectId t.toCts (filterByMissing e.1 comps) L = .ok e.2) → e ∈ sh ∨ ∃ k', (e.1, k') ∈ (id, k) :: ms ∧
        reconstructShare P k' t.objectId t.toCts (filterByMissing e.1 comps) L = .ok e.2 := by
      rintro sh e (h | ⟨k', h1, h2⟩)
      · exact .inl h
      · exact .inr ⟨k', List.mem_cons_of_mem _ h1, h2⟩
    unfold reconstructTallyLoop
    split
    · exact fun e he => lift _ _ (ih shares e he)
    · cases hr : reconstructShare P k t.objectId t.toCts (filterByMissing id comps) L with
      | error e => exact fun e he => .inl he
      | ok sh =>
        intro e he
        rcases lift _ _ (ih (dset shares id sh) e he) with h | h
        · rcases mem_dset h with rfl | h
          · exact .inr ⟨k, List.mem_cons_self, hr⟩
          · exact .inl h
        · exact .inr h

theorem reconstructBallotLoop_made {P : Params} {b : SBallot} {L : List (String × Nat)}
    {comps : List (String × List ((String × String) × CompShare))}
    (ms : List (String × ElectionPublicKey)) (shares : List (String × DecShare)) :
    ∀ e ∈ (reconstructBallotLoop P b L comps ms shares).2, e ∈ shares ∨ ∃ k, (e.1, k) ∈ ms ∧ ∃ cs, dget comps b.objectId = some cs ∧
      reconstructShare P k b.objectId b.toCts (filterByMissing e.1 cs) L = .ok e.2 := by
  induction ms generalizing shares with
  | nil => exact fun e he => .inl he
  | cons m ms ih =>
    obtain ⟨id, k⟩ := m
    have lift : ∀ (sh : List (String × DecShare)) (e : String × DecShare), (e ∈ sh ∨ ∃ k', (e.1, k') ∈ ms ∧ ∃ cs, dget comps b.objectId = some cs ∧
        reconstructShare P k' b.objectId b.toCts (filterByMissing e.1 cs) L = .ok e.2) → e ∈ sh ∨ ∃ k', (e.1, k') ∈ (id, k) :: ms ∧
        ∃ cs, dget comps b.objectId = some cs ∧ reconstructShare P k' b.objectId b.toCts (filterByMissing e.1 cs) L = .ok e.2 := by
      rintro sh e (h | ⟨k', h1, h2⟩)
      · exact .inl h
      · exact .inr ⟨k', List.mem_cons_of_mem _ h1, h2⟩
    unfold reconstructBallotLoop
    split
    · exact fun e he => lift _ _ (ih shares e he)
    · unfold dgetR
      cases hc : dget comps b.objectId with
      | none => exact fun e he => .inl he
      | some cs =>
        simp only
        cases hr : reconstructShare P k b.objectId b.toCts (filterByMissing id cs) L with
        | error e => exact fun e he => .inl he
        | ok sh =>
          intro e he
          rcases lift _ _ (ih (dset shares id sh) e he) with h | ⟨k', h1, cs', h2, h3⟩
          · rcases mem_dset h with rfl | h
            · exact .inr ⟨k, List.mem_cons_self, cs, rfl, hr⟩
            · exact .inl h
          · rw [hc] at h2
            cases h2
            exact .inr ⟨k', h1, cs, rfl, h3⟩

/-- Every share of a ballot was there before, or was rebuilt from the compensated shares. -/
theorem reconstructBallotsLoop_made {P : Params} {L : List (String × Nat)} (l : List SBallot) (s : DM) :
    ∀ e ∈ (reconstructBallotsLoop P L l s).2.ballotShares, ∀ x ∈ e.2, (∃ old ∈ s.ballotShares, old.1 = e.1 ∧ x ∈ old.2) ∨
      ∃ b ∈ l, b.objectId = e.1 ∧ ∃ k, (x.1, k) ∈ s.missing ∧ ∃ cs, dget s.compBallot b.objectId = some cs ∧
        reconstructShare P k b.objectId b.toCts (filterByMissing x.1 cs) L = .ok x.2 := by
  induction l generalizing s with
  | nil => exact fun e he x hx => .inl ⟨e, he, rfl, hx⟩
  | cons b l ih =>
    unfold reconstructBallotsLoop
    unfold dgetR
    cases hg : dget s.ballotShares b.objectId with
    | none => exact fun e he x hx => .inl ⟨e, he, rfl, hx⟩
    | some shares =>
      simp only
      have step : ∀ e ∈ dset s.ballotShares b.objectId (reconstructBallotLoop P b L s.compBallot s.missing shares).2, ∀ x ∈ e.2,
          (∃ old ∈ s.ballotShares, old.1 = e.1 ∧ x ∈ old.2) ∨
          ∃ b' ∈ b :: l, b'.objectId = e.1 ∧ ∃ k, (x.1, k) ∈ s.missing ∧ ∃ cs, dget s.compBallot b'.objectId = some cs ∧
            reconstructShare P k b'.objectId b'.toCts (filterByMissing x.1 cs) L = .ok x.2 := by
        intro e he x hx
        rcases mem_dset he with rfl | he
        · rcases reconstructBallotLoop_made _ _ x hx with h | h
          · exact .inl ⟨_, mem_of_dget hg, rfl, h⟩
          · exact .inr ⟨b, List.mem_cons_self, rfl, h⟩
        · exact .inl ⟨e, he, rfl, hx⟩
      cases hr : (reconstructBallotLoop P b L s.compBallot s.missing shares).1 with
      | error e => exact step
      | ok _ =>
        simp only
        intro e he x hx
        rcases ih _ e he x hx with ⟨old, h1, h2, h3⟩ | ⟨b', h1, h2⟩
        · rw [← h2]
          exact step old h1 x h3
        · exact .inr ⟨b', List.mem_cons_of_mem _ h1, h2⟩

/-- The shares after a tally ceremony with compensation. -/
theorem setup_rebuilt (hv : E.P.Valid) {loads : Bytes → R (List Char)} {quorum : Nat}
    {rands : String → List (Nat × Nat)} {kps : List ElectionKeyPair} (ht : Team E quorum rands kps) {sd : TallySeeds} {ctx : Context}
    (hctx : ctx.quorum = quorum ∧ ctx.numberOfGuardians = kps.length) (hh : ctx.cryptoExtendedBaseHash < E.P.q)
    {t : Tally} {bs : List SBallot} (hbs : (bs.map (fun b => b.objectId)).Nodup) (hrt : Readable E.P t.toCts)
    (hrb : ∀ b ∈ bs, Readable E.P b.toCts) {avs : List (Guardian × ElectionKeyPair)} (hp : Present E loads rands kps avs)
    (hmany : quorum ≤ avs.length) {keys : List ElectionPublicKey} (hkeys : keys.Perm (kps.map (fun kp => kp.share))) {m : DM}
    (h : performCompensatedSetup E loads sd ctx t bs (avs.map Prod.fst) keys DM.init = .ok m) :
    m.available = avs.map (fun x => (x.2.ownerId, x.2.share)) ∧ ∃ L, lagrangeForGuardians E.P (m.available.map (·.2)) = .ok L ∧
      Rebuilt E ctx (avs.map Prod.fst) (kps.map (fun kp => kp.share)) L t.toCts m.tallyShares ∧
      ∀ b ∈ bs, ∀ shares, dget m.ballotShares b.objectId = some shares →
        Rebuilt E ctx (avs.map Prod.fst) (kps.map (fun kp => kp.share)) L b.toCts shares := by
  obtain ⟨o1, ms', b1, b2, b3, b4, b5, b6, b7, b8⟩ := tallyAnnouncement_spec hv ht sd ctx hh t bs hbs hrt hrb avs hp keys hkeys
  obtain ⟨ops, ⟨m0, ms, a1, a2, a3⟩, hops, hcomplete, hc1, hc2⟩ := setup_calls hv loads quorum rands kps ht sd ctx hctx hh t bs
    hbs hrt hrb avs hp hmany keys hkeys
  rw [b1] at a1
  obtain rfl : DM.run E.P o1 = m0 := Except.ok.inj a1
  have hms : ms = ms' := by
    rw [← a2, b6, List.map_map]
    exact List.map_id _
  subst hms
  set gs := avs.map Prod.fst with hgs
  set all := kps.map (fun kp => kp.share) with hall
  have hgid : gs.map Guardian.id = avs.map (fun x => x.2.ownerId) := by
    rw [hgs, List.map_map]
    refine List.map_congr_left (fun x hx => ?_)
    show x.1.electionKeys.ownerId = _
    rw [(hp.equipped x hx).2.own]
  have hown : (DM.run E.P o1).Own E ctx gs t bs := by
    have h1 := b1
    unfold tallyAnnouncement at h1
    simp only [bind, Except.bind, pure, Except.pure] at h1
    cases h2 : announceAvailable E sd ctx t bs gs DM.init with
    | error e => rw [h2] at h1; cases h1
    | ok d =>
      rw [h2] at h1
      rw [← Except.ok.inj h1]
      exact announceMissing_own _ _ (announceAvailable_own gs (fun g hg => hg) _ _ (DM.own_init ctx gs t bs) h2)
  have hnocomp : (DM.run E.P o1).Comps E ctx gs all t bs := by
    have h1 := fun p => DM.run_received (P := E.P) o1 p
    rw [b3] at h1
    refine ⟨fun e he => absurd ((h1 e.1).1 (List.mem_map_of_mem he)) (by simp), fun e he x hx => ?_⟩
    have h2 : (DM.run E.P o1).compBallot = [] := by
      have h3 := b1
      unfold tallyAnnouncement at h3
      simp only [bind, Except.bind, pure, Except.pure] at h3
      cases h4 : announceAvailable E sd ctx t bs gs DM.init with
      | error e => rw [h4] at h3; cases h3
      | ok d =>
        rw [h4] at h3
        rw [← Except.ok.inj h3]
        have k1 : ∀ (l : List ElectionPublicKey) (d : DM), (l.foldl DM.announceMissing d).compBallot = d.compBallot := by
          intro l
          induction l with
          | nil => exact fun d => rfl
          | cons k l ih =>
            intro d
            rw [List.foldl_cons, ih]
            unfold DM.announceMissing
            split <;> rfl
        have k2 : ∀ (l : List Guardian) (d d' : DM), announceAvailable E sd ctx t bs l d = .ok d' → d'.compBallot = d.compBallot := by
          intro l
          induction l with
          | nil => intro d d' h; cases h; rfl
          | cons g l ih =>
            intro d d' h
            unfold announceAvailable at h
            simp only [bind, Except.bind] at h
            cases hs : getOptional (g.computeTallyShare E t ctx (sd.tally g.id)) with
            | error e => rw [hs] at h; cases h
            | ok sh =>
              rw [hs] at h
              rw [ih _ _ h]
              unfold DM.announce
              split <;> rfl
        rw [k1, k2 _ _ _ h4]
        rfl
    rw [h2] at he
    cases he
  have hl : ∀ g ∈ gs, g ∈ gs ∧ ∀ k ∈ ms, k ∈ all ∧ dget g.guardianKeys k.ownerId = some k := by
    intro g hg
    refine ⟨hg, fun k hk => ?_⟩
    obtain ⟨x, hx, rfl⟩ := List.mem_map.1 hg
    obtain ⟨kp, hkp, rfl, -⟩ := b7 k hk
    exact ⟨List.mem_map_of_mem hkp, (hp.equipped x hx).2.keys kp hkp⟩
  obtain ⟨hcomps, hsame⟩ := compensations_comps ms gs hl _ _ hnocomp a3
  set m1 := DM.run E.P ops with hm1
  have hav1 : m1.available = avs.map (fun x => (x.2.ownerId, x.2.share)) := hsame.available.trans b5
  have hmi1 : m1.missing = ms.map (fun k => (k.ownerId, k)) := hsame.missing.trans b6
  have hown1 : m1.Own E ctx gs t bs :=
    ⟨by rw [hsame.tallyShares]; exact hown.once, by rw [hsame.tallyShares]; exact hown.tally,
      by rw [hsame.ballotShares]; exact hown.ballots⟩
  have hpermIds : ∀ l : List String, l.Nodup → (∀ i, i ∈ l ↔ i ∈ dkeys m1.available) → l.Perm (gs.map Guardian.id) := by
    intro l hl' hi
    have hd : dkeys m1.available = gs.map Guardian.id := by
      rw [hav1, hgid]
      simp only [dkeys, List.map_map]
      rfl
    rw [List.perm_ext_iff_of_nodup hl' (by rw [hgid]; exact hp.once)]
    intro i
    rw [hi i, hd]
  have hmissing : ∀ i k, (i, k) ∈ m1.missing → k ∈ all ∧ k.ownerId = i ∧ i ∈ dkeys m1.missing := by
    intro i k hik
    have := List.mem_map_of_mem (f := Prod.fst) hik
    rw [hmi1] at hik
    obtain ⟨k', hk', he⟩ := List.mem_map.1 hik
    cases he
    obtain ⟨kp, hkp, rfl, -⟩ := b7 k hk'
    exact ⟨List.mem_map_of_mem hkp, rfl, this⟩
  -- the reconstruction
  unfold performCompensatedSetup at h
  rw [b1] at h
  simp only [bind, Except.bind] at h
  unfold exchangeCompensation at h
  simp only [bind, Except.bind, pure, Except.pure, a2, a3] at h
  cases hL : lagrangeForGuardians E.P (m1.available.map (·.2)) with
  | error e =>
    have : m1.reconstructTally E.P t = (.error e, m1) := by unfold DM.reconstructTally; rw [hL]
    rw [this] at h
    cases h
  | ok L =>
  set r1 := reconstructTallyLoop E.P t L m1.compTally m1.missing m1.tallyShares with hr1
  have e1 : m1.reconstructTally E.P t = (r1.1, { m1 with tallyShares := r1.2 }) := by unfold DM.reconstructTally; rw [hL]
  rw [e1] at h
  cases hr1' : r1.1 with
  | error e => rw [hr1'] at h; cases h
  | ok u =>
  rw [hr1'] at h
  simp only at h
  set m2 : DM := { m1 with tallyShares := r1.2 } with hm2
  set r2 := reconstructBallotsLoop E.P L bs m2 with hr2
  have e2 : m2.reconstructBallots E.P bs = r2 := by unfold DM.reconstructBallots; rw [hL]
  rw [e2] at h
  cases hr2' : r2.1 with
  | error e => rw [hr2'] at h; cases h
  | ok u' =>
  rw [hr2'] at h
  obtain rfl : r2.2 = m := Except.ok.inj h
  obtain ⟨f1, f2, f3, -⟩ := reconstructBallotsLoop_fields (P := E.P) L bs m2
  have hbook := reconstructBallotsLoop_book (P := E.P) L bs m2
  rw [← hr2] at f1 f2 f3 hbook
  have hav2 : r2.2.available = m1.available := f1
  refine ⟨hav2.trans hav1, L, by rw [hav2]; exact hL, ?_, ?_⟩
  · rw [f3]
    obtain ⟨k1, k2, k3⟩ := reconstructTallyLoop_keys (P := E.P) t L m1.compTally m1.missing m1.tallyShares
    have hnd : (dkeys r1.2).Nodup := k3 hown1.once
    have hname : ∀ e ∈ r1.2, e.2.guardianId = e.1 ∧
        ((∃ g ∈ gs, g.id = e.2.guardianId ∧ ∃ id seeds, shareForContests E true g.electionKeys id t.toCts ctx seeds = some e.2) ∨
        ∃ k ∈ all, k.ownerId = e.2.guardianId ∧ ∃ id comps, reconstructShare E.P k id t.toCts comps L = .ok e.2 ∧
          (dkeys comps).Perm (gs.map Guardian.id) ∧ ∀ x ∈ comps, CompMade E ctx gs all t.toCts (x.1, k.ownerId) x.2) := by
      intro e he
      rcases reconstructTallyLoop_made _ _ e he with h1 | ⟨k, hk, h1⟩
      · obtain ⟨g, hg, hid, i, seeds, hs⟩ := hown1.tally e h1
        have hgi := shareForContests_guardian hs
        exact ⟨hgi.trans hid, .inl ⟨g, hg, hgi.symm, i, seeds, hs⟩⟩
      · obtain ⟨hk1, hk2, hk3⟩ := hmissing _ _ hk
        obtain ⟨hg1, -, -⟩ := reconstructShare_selections hrt.1 h1
        refine ⟨hg1.trans hk2, .inr ⟨k, hk1, hg1.symm, _, _, h1, ?_, ?_⟩⟩
        · obtain ⟨s1, s2, -⟩ := filterByMissing_spec e.1 m1.compTally
          exact hpermIds _ s1 (fun i => by rw [s2 i, hm1, DM.run_received]; exact hc1 _ hk3 i)
        · intro x hx
          obtain ⟨-, -, s3⟩ := filterByMissing_spec e.1 m1.compTally
          have := hcomps.tally _ (s3 x hx)
          rw [hk2]
          exact this
    refine ⟨?_, fun e he => (hname e he).2⟩
    have : r1.2.map (fun e => e.2.guardianId) = dkeys r1.2 := List.map_congr_left (fun e he => (hname e he).1)
    show (r1.2.map _).Nodup
    rw [this]
    exact hnd
  · intro b hb shares hsh
    have hbk1 : ∀ b' ∈ bs, b'.objectId = b.objectId → b' = b := fun b' hb' he => List.inj_on_of_nodup_map hbs hb' hb he
    have hname : ∀ x ∈ shares, x.2.guardianId = x.1 ∧
        ((∃ g ∈ gs, g.id = x.2.guardianId ∧ ∃ id seeds, shareForContests E true g.electionKeys id b.toCts ctx seeds = some x.2) ∨
        ∃ k ∈ all, k.ownerId = x.2.guardianId ∧ ∃ id comps, reconstructShare E.P k id b.toCts comps L = .ok x.2 ∧
          (dkeys comps).Perm (gs.map Guardian.id) ∧ ∀ z ∈ comps, CompMade E ctx gs all b.toCts (z.1, k.ownerId) z.2) := by
      intro x hx
      rcases reconstructBallotsLoop_made bs m2 _ (mem_of_dget hsh) x hx with ⟨old, h1, h2, h3⟩ | ⟨b', hb', h1, k, hk, cs, h2, h3⟩
      · obtain ⟨g, hg, hid, b', hb', he, seeds, hs⟩ := (hown1.ballots old h1).2 x h3
        obtain rfl := hbk1 b' hb' (he.trans h2)
        have hgi := shareForContests_guardian hs
        exact ⟨hgi.trans hid, .inl ⟨g, hg, hgi.symm, _, seeds, hs⟩⟩
      · obtain rfl := hbk1 b' hb' h1
        obtain ⟨hk1, hk2, hk3⟩ := hmissing _ _ hk
        obtain ⟨hg1, -, -⟩ := reconstructShare_selections (hrb b' hb).1 h3
        have h2 : dget m1.compBallot b'.objectId = some cs := h2
        refine ⟨hg1.trans hk2, .inr ⟨k, hk1, hg1.symm, _, _, h3, ?_, ?_⟩⟩
        · obtain ⟨s1, s2, -⟩ := filterByMissing_spec x.1 cs
          refine hpermIds _ s1 (fun i => ?_)
          have hrec := (DM.run_ballotHonest ops (fun op hop => (hops op hop).2)).2 b' hb (i, x.1)
          rw [← hm1, h2] at hrec
          rw [s2 i, ← hc2 b' hb _ hk3 i]
          exact hrec
        · intro z hz
          obtain ⟨-, -, s3⟩ := filterByMissing_spec x.1 cs
          obtain ⟨b'', hb'', he, hmade⟩ := hcomps.ballots _ (mem_of_dget h2) _ (s3 z hz)
          obtain rfl := hbk1 b'' hb'' he
          rw [hk2]
          exact hmade
    refine ⟨?_, fun x hx => (hname x hx).2⟩
    have : shares.map (fun e => e.2.guardianId) = dkeys shares := List.map_congr_left (fun e he => (hname e he).1)
    rw [this]
    have hbb : m2.BallotBook := DM.run_ballotBook (P := E.P) ops
    exact ((hbook hbb).2 _ (mem_of_dget hsh)).1

end EG
