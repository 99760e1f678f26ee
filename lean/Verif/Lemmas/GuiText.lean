import Verif.Spec.GuiText
import Verif.Lemmas.SerializeShares
import Verif.Lemmas.SerializeFields

/-!
# The GUI with texts does what the GUI with values does
-/

namespace EG

variable {E : Env}

/-! ### Reading the documents -/

theorem mapM_cond {α β : Type} {e : Err} {f : β → R α} {g : α → β} {c : α → Bool} {l : List α}
    (h : ∀ x ∈ l, f (g x) = if c x then .error e else .ok x) : (l.map g).mapM f = if l.any c then .error e else .ok l := by
  induction l with
  | nil => rfl
  | cons x xs ih =>
    rw [List.map_cons, List.mapM_cons, h x List.mem_cons_self, ih (fun y hy => h y (List.mem_cons_of_mem _ hy)), List.any_cons]
    cases c x
    · cases xs.any c <;> rfl
    · rfl

theorem JoinedDoc.read_toDoc {P : Params} {s : JoinedShare} (h : s.Typed P) :
    s.toDoc.read P = if s.ballotShares.any (fun b => b.2.isNone) then .error .type else .ok s := by
  obtain ⟨h1, h2, h3⟩ := h
  have hb : (s.ballotShares.map (fun b => (b.1, b.2.map (toRaw DecShare.toJson)))).mapM (readBallotShare P) =
      if s.ballotShares.any (fun b => b.2.isNone) then .error .type else .ok s.ballotShares := by
    refine mapM_cond fun x hx => ?_
    obtain ⟨id, o⟩ := x
    cases o with
    | none => rfl
    | some sh =>
      simp only [readBallotShare, Option.map_some, raw_trip (DecShare.trip (h3 _ hx sh rfl)), bind, Except.bind, pure, Except.pure]
      rfl
  unfold JoinedDoc.read JoinedShare.toDoc
  simp only
  rw [raw_trip (ElectionPublicKey.trip h1), raw_trip (DecShare.trip h2), hb]
  simp only [bind, Except.bind, pure, Except.pure]
  cases s.ballotShares.any (fun b => b.2.isNone) <;> rfl

theorem shares_read {P : Params} {d : GuiDecryption} (h : ∀ s ∈ d.shares, s.Typed P) :
    d.toText.shares.mapM (JoinedDoc.read P) = d.getShares :=
  mapM_cond fun s hs => JoinedDoc.read_toDoc (h s hs)

theorem ResultDoc.read_toDoc {P : Params} {r : GuiResult} (h : r.Typed P) :
    r.toDoc.read P = .ok (r.tally, r.ballots.map (·.2), r.lagrange, r.ciphertextTally.publish) := by
  obtain ⟨h1, h2, h3, h4⟩ := h
  have hb : (r.ballots.map (fun b => (b.1, toRaw PlaintextTally.toJson b.2))).mapM (fun b => fromRaw (PlaintextTally.ofJson P) b.2) =
      .ok (r.ballots.map (·.2)) := by
    rw [List.mapM_map]
    refine mapM_ok _ _ _ (fun b hb => ?_)
    exact raw_trip (PlaintextTally.trip (h2 b hb))
  unfold ResultDoc.read GuiResult.toDoc
  simp only
  rw [raw_trip (PlaintextTally.trip h1), hb, raw_trip (lagrange_trip h3.1 h3.2), raw_trip (PublishedTally.trip (t := r.ciphertextTally.publish) h4)]
  rfl

/-! ### What guardians and administrators compute -/

theorem getBallots_typed {P : Params} {net : Nat → Nat → Bool} {db : GuiDb} {eid : String} :
    ∀ b ∈ db.getBallots (parseSubmitted P) net eid, b.toCBallot.Typed P := by
  intro b hb
  unfold GuiDb.getBallots at hb
  obtain ⟨x, -, hx⟩ := List.mem_filterMap.1 hb
  have : ∀ outs c, fetchWithRetry (parseSubmitted P) c outs = some b → parseSubmitted P c = some b := by
    intro outs c h
    induction outs with
    | nil => cases h
    | cons o outs ih =>
      unfold fetchWithRetry at h
      split at h
      · rename_i hf
        cases h
        unfold fetchBallot at hf
        split at hf
        · cases hf
        · split at hf
          · cases hf
          · split at hf
            · cases hf
            · split at hf
              · cases hf
              · cases hf; assumption
      · cases h
      · exact ih h
  have := this _ _ hx
  unfold parseSubmitted at this
  cases hr : fromRaw (SBallot.ofJson P) x.1.contents with
  | error e => rw [hr] at this; cases this
  | ok b' =>
    rw [hr] at this
    cases this
    exact raw_reads (SBallot.reads P) hr

theorem tally_cts {t : Tally} (h : DictOf (TallyContest.Typed E.P) t.contests) : CtsTyped E.P t.toCts := by
  intro c hc
  obtain ⟨e, he, rfl⟩ := List.mem_map.1 hc
  obtain ⟨h1, -, h3⟩ := h.2 e he
  refine ⟨h1, fun s hs => ?_⟩
  obtain ⟨x, hx, rfl⟩ := List.mem_map.1 hs
  exact (h3 x hx).2

theorem ballot_cts {b : SBallot} (h : b.toCBallot.Typed E.P) : CtsTyped E.P b.toCts := by
  intro c hc
  obtain ⟨x, hx, rfl⟩ := List.mem_map.1 hc
  obtain ⟨h1, h2, -⟩ := h.2.2.1 x hx
  refine ⟨h1, fun s hs => ?_⟩
  obtain ⟨y, hy, rfl⟩ := List.mem_map.1 hs
  exact (h2 y hy).2.1

theorem loaded_typed {P : Params} {files : String → Option (List Char)} {n k : Int} {id : String} {g : Guardian}
    (h : loadGuardianText P files n k id = some g) : g.shareKey.Typed P := by
  unfold loadGuardianText at h
  split at h
  · cases h
  · split at h
    · cases h
    · rename_i r hr
      cases h
      obtain ⟨⟨⟨-, h1⟩, h2⟩, -⟩ := raw_reads (PrivateGuardianRecord.reads P) hr
      refine ⟨h1, fun c hc => ?_, fun c hc => ?_⟩
      · obtain ⟨x, hx, rfl⟩ := List.mem_map.1 hc
        exact (h2 x hx).2.1
      · obtain ⟨x, hx, rfl⟩ := List.mem_map.1 hc
        exact (h2 x hx).2.2

theorem s1Compute_typed (hv : E.P.Valid) {net : Nat → Nat → Bool} {db : GuiDb} {eid user : String} {g : Option Guardian} {seeds : JoinSeeds}
    {r : JoinedShare × Tally} (hg : ∀ x ∈ g, x.electionKeys.keyPair.pub < E.P.p)
    (h : s1Compute E (parseSubmitted E.P) net db eid user g seeds = .ok r) :
    r.1.SharesTyped E.P ∧ ∃ x ∈ g, r.1.key = x.shareKey := by
  simp only [s1Compute, bindOk] at h
  obtain ⟨e, -, h⟩ := h
  cases g with
  | none => cases h
  | some g =>
    have hk := hg g rfl
    simp only [bindOk] at h
    obtain ⟨t, ht, h⟩ := h
    split at h
    · cases h
    · rename_i sh hsh
      cases h
      have hcts := tally_cts (getTally_typed hv.one_lt_p hv.q_pos ht)
      refine ⟨⟨shareForContests_typed hv hk (fun c hc => (hcts c hc).1) hsh, ?_⟩, g, rfl, rfl⟩
      have hb : ∀ b ∈ spoiledOf (db.getBallots (parseSubmitted E.P) net eid), b.toCBallot.Typed E.P :=
        fun b hb => getBallots_typed b (List.mem_of_mem_filter hb)
      have : DictOf (fun o : Option DecShare => ∀ sh ∈ o, sh.Typed E.P)
          (g.computeBallotShares E (spoiledOf (db.getBallots (parseSubmitted E.P) net eid)) e.context seeds.ballots) := by
        refine DictOf.foldl (fun d x hx hd => hd.dset _ fun sh hsh => ?_) (DictOf.nil _)
        have hx' : x.1 ∈ spoiledOf (db.getBallots (parseSubmitted E.P) net eid) := by
          obtain ⟨_, -, hi⟩ := List.mem_zipIdx (x := x.1) (i := x.2) hx
          rw [hi]
          exact List.getElem_mem _
        exact shareForContests_typed hv hk (fun c hc => (ballot_cts (hb _ hx') c hc).1) hsh
      exact this.2

/-- The shares of a mediator. -/
def DM.SharesTyped (P : Params) (s : DM) : Prop :=
  (∀ e ∈ s.tallyShares, e.2.Typed P) ∧ ∀ e ∈ s.ballotShares, ∀ x ∈ e.2, x.2.Typed P

theorem announce_typed {P : Params} {dm : DM} {k : ElectionPublicKey} {share : DecShare} {bs : List (String × Option DecShare)}
    (hd : dm.SharesTyped P) (h2 : share.Typed P) (h3 : ∀ b ∈ bs, ∀ sh ∈ b.2, sh.Typed P) : (dm.announce k share (some bs)).SharesTyped P := by
  unfold DM.announce
  split
  · exact hd
  · refine ⟨fun x hx => ?_, ?_⟩
    · rcases mem_dset hx with h' | h'
      · rw [h']; exact h2
      · exact hd.1 x h'
    · have : ∀ (bs : List (String × Option DecShare)), (∀ b ∈ bs, ∀ sh ∈ b.2, sh.Typed P) →
          ∀ (d : List (String × List (String × DecShare))), (∀ e ∈ d, ∀ x ∈ e.2, x.2.Typed P) → ∀ id : String,
          ∀ e ∈ bs.foldl (fun d e => dset d e.1 (match e.2 with
            | some sh => dset ((dget d e.1).getD []) id sh
            | none => (dget d e.1).getD [])) d, ∀ x ∈ e.2, x.2.Typed P := by
        intro bs hbs
        induction bs with
        | nil => exact fun d hd _ => hd
        | cons b bs ih =>
          intro d hd id
          refine ih (fun b' hb' => hbs b' (List.mem_cons_of_mem _ hb')) _ ?_ id
          have hold : ∀ x ∈ (dget d b.1).getD [], x.2.Typed P := by
            intro x hx
            cases hg : dget d b.1 with
            | none => rw [hg] at hx; cases hx
            | some l => rw [hg] at hx; exact hd _ (mem_of_dget hg) x hx
          intro e he x hx
          rcases mem_dset he with h' | h'
          · rw [h'] at hx
            simp only at hx
            split at hx
            · rename_i sh hsh
              rcases mem_dset hx with h' | h'
              · rw [h']; exact hbs b List.mem_cons_self sh hsh
              · exact hold x h'
            · exact hold x hx
          · exact hd e h' x hx
      exact this _ h3 _ hd.2 _

theorem announceShares_typed {P : Params} {e : ElectionDoc} {ss : List JoinedShare} (h : ∀ s ∈ ss, s.SharesTyped P) {dm dm' : DM}
    (hd : dm.SharesTyped P) (hr : announceShares e ss dm = .ok dm') : dm'.SharesTyped P := by
  induction ss generalizing dm with
  | nil => cases hr; exact hd
  | cons s ss ih =>
    simp only [announceShares, bindOk] at hr
    obtain ⟨o, -, hr⟩ := hr
    refine ih (fun s hs => h s (List.mem_cons_of_mem _ hs)) ?_ hr
    obtain ⟨h2, h3⟩ := h s List.mem_cons_self
    exact announce_typed hd h2 h3

theorem plaintextBallots_typed (hp : 1 < E.P.p) {maxE : Nat} {dm : DM} {ctx : Context} {m : Manifest} (hd : dm.SharesTyped E.P)
    {bs : List SBallot} (hb : ∀ b ∈ bs, b.toCBallot.Typed E.P) {d r : List (String × PlaintextTally)} (h : ∀ e ∈ d, e.2.Typed E.P)
    (hr : plaintextBallotsLoop E maxE dm ctx m bs d = .ok r) : ∀ e ∈ r, e.2.Typed E.P := by
  induction bs generalizing d with
  | nil => cases hr; exact h
  | cons b bs ih =>
    have hb' : ∀ b ∈ bs, b.toCBallot.Typed E.P := fun x hx => hb x (List.mem_cons_of_mem _ hx)
    unfold plaintextBallotsLoop at hr
    split at hr
    · exact ih hb' h hr
    · rename_i shares hs
      split at hr
      · exact ih hb' h hr
      · rw [bindOk] at hr
        obtain ⟨p, hp1, hp2⟩ := hr
        cases p with
        | none => exact ih hb' h hp2
        | some p =>
          refine ih hb' (fun e he => ?_) hp2
          rcases mem_dset he with h' | h'
          · rw [h']
            simp only [decryptBallotWithShares, bindOk, pureOk] at hp1
            obtain ⟨o, ho, hp1⟩ := hp1
            cases o with
            | none => cases hp1
            | some cs =>
              cases hp1
              exact decryptContests_typed hp (hd.2 _ (mem_of_dget hs)) (ballot_cts (hb b List.mem_cons_self)) (DictOf.nil _) ho
          · exact h e h'

theorem s2Compute_typed (hv : E.P.Valid) {maxE : Nat} {net : Nat → Nat → Bool} {db : GuiDb} {d : GuiDecryption} {r : GuiResult}
    (hs : ∀ s ∈ d.shares, s.SharesTyped E.P) (h : s2Compute E maxE (parseSubmitted E.P) net db d = .ok r) : r.Typed E.P := by
  simp only [s2Compute, bindOk] at h
  obtain ⟨e, -, shares, hsh, dm, hdm, t, ht, pt, hpt, h⟩ := h
  have hshares : ∀ s ∈ shares, s.SharesTyped E.P := by
    unfold GuiDecryption.getShares at hsh
    split at hsh
    · cases hsh
    · cases hsh; exact hs
  have hdt : dm.SharesTyped E.P := announceShares_typed hshares ⟨by simp [DM.init], by simp [DM.init]⟩ hdm
  have htt := getTally_typed hv.one_lt_p hv.q_pos ht
  cases pt with
  | none => cases h
  | some pt =>
    simp only [bindOk] at h
    obtain ⟨pbs, hpbs, h⟩ := h
    cases pbs with
    | none => cases h
    | some pbs =>
      simp only [bindOk, pureOk] at h
      obtain ⟨l, hl, rfl⟩ := h
      refine ⟨?_, ?_, lagrange_typed hv.one_lt_q hl, htt⟩
      · unfold DM.plaintextTally at hpt
        split at hpt
        · cases hpt
        · simp only [decryptTally, bindOk, pureOk] at hpt
          obtain ⟨o, ho, hpt⟩ := hpt
          cases o with
          | none => cases hpt
          | some cs =>
            cases hpt
            exact decryptContests_typed hv.one_lt_p hdt.1 (tally_cts htt) (DictOf.nil _) ho
      · unfold DM.plaintextBallots at hpbs
        split at hpbs
        · cases hpbs
        · cases hx : plaintextBallotsLoop E maxE dm e.context e.manifest (spoiledOf (db.getBallots (parseSubmitted E.P) net d.electionId)) [] with
          | error e => rw [hx] at hpbs; cases hpbs
          | ok x =>
            rw [hx] at hpbs
            cases hpbs
            exact plaintextBallots_typed hv.one_lt_p hdt (fun b hb => getBallots_typed b (List.mem_of_mem_filter hb)) (by simp) hx

/-! ### Worlds -/

/-- Everything that a world holds has its elements in range. -/
structure GuiWorld.Typed (P : Params) (w : GuiWorld) : Prop where
  made : ∀ r ∈ w.made, r.1.Typed P
  shares : ∀ s ∈ w.dec.shares, s.Typed P
  completed : ∀ r ∈ w.dec.completed, r.Typed P
  reads : ∀ d ∈ w.reads, ∀ s ∈ d.shares, s.Typed P
  results : ∀ r ∈ w.results, r.Typed P

theorem start_typed (P : Params) (db : GuiDb) (eid : String) (n : Int) : (GuiWorld.start db eid n).Typed P := by
  constructor <;> simp [GuiWorld.start, GuiDecryption.create]

theorem step_typed (hv : E.P.Valid) {maxE : Nat} {guardianOf : String → Option Guardian}
    (hg : ∀ u, ∀ g ∈ guardianOf u, g.shareKey.Typed E.P) {w : GuiWorld} (h : w.Typed E.P) (ev : GuiEvent) :
    (w.step E maxE (parseSubmitted E.P) guardianOf ev).Typed E.P := by
  obtain ⟨h1, h2, h3, h4, h5⟩ := h
  cases ev with
  | upload uid eid fn c => exact ⟨h1, h2, h3, h4, h5⟩
  | createUpload eid newId device => exact ⟨h1, h2, h3, h4, h5⟩
  | joinCompute user net seeds =>
    simp only [GuiWorld.step]
    split
    · exact ⟨h1, h2, h3, h4, h5⟩
    · rename_i r hr
      refine ⟨fun x hx => ?_, h2, h3, h4, h5⟩
      rcases List.mem_append.1 hx with h | h
      · exact h1 x h
      · rw [List.mem_singleton.1 h]
        obtain ⟨h6, g, hgm, h7⟩ := s1Compute_typed hv (fun g hg' => (hg user g hg').1) hr
        exact ⟨h7 ▸ hg user g hgm, h6⟩
  | joinShare i =>
    simp only [GuiWorld.step]
    split
    · exact ⟨h1, h2, h3, h4, h5⟩
    · rename_i r hr
      refine ⟨h1, fun x hx => ?_, h3, h4, h5⟩
      rcases List.mem_append.1 hx with h | h
      · exact h2 x h
      · rw [List.mem_singleton.1 h]
        exact h1 r (List.mem_of_getElem? hr)
  | joinId i =>
    simp only [GuiWorld.step]
    split
    · exact ⟨h1, h2, h3, h4, h5⟩
    · exact ⟨h1, h2, h3, h4, h5⟩
  | adminRead =>
    refine ⟨h1, h2, h3, fun x hx => ?_, h5⟩
    rcases List.mem_append.1 hx with h | h
    · exact h4 x h
    · rw [List.mem_singleton.1 h]
      exact h2
  | adminCompute i net =>
    simp only [GuiWorld.step]
    split
    · exact ⟨h1, h2, h3, h4, h5⟩
    · rename_i d hd
      split
      · split
        · exact ⟨h1, h2, h3, h4, h5⟩
        · rename_i r hr
          refine ⟨h1, h2, h3, h4, fun x hx => ?_⟩
          rcases List.mem_append.1 hx with h | h
          · exact h5 x h
          · rw [List.mem_singleton.1 h]
            exact s2Compute_typed hv (fun s hs => (h4 d (List.mem_of_getElem? hd) s hs).2) hr
      · exact ⟨h1, h2, h3, h4, h5⟩
  | complete i =>
    simp only [GuiWorld.step]
    split
    · exact ⟨h1, h2, h3, h4, h5⟩
    · rename_i r hr
      refine ⟨h1, h2, fun x hx => ?_, h4, h5⟩
      cases hx
      exact h5 r (List.mem_of_getElem? hr)

theorem s2ComputeText_eq {maxE : Nat} {net : Nat → Nat → Bool} {db : GuiDb} {d : GuiDecryption} {parse : List Char → Option SBallot}
    (h : ∀ s ∈ d.shares, s.Typed E.P) : s2ComputeText E maxE parse net db d.toText = s2Compute E maxE parse net db d := by
  unfold s2ComputeText s2Compute
  rw [shares_read h]
  rfl

theorem step_text {maxE : Nat} {guardianOf : String → Option Guardian} {parse : List Char → Option SBallot} {w : GuiWorld}
    (h : w.Typed E.P) (ev : GuiEvent) :
    w.toText.step E maxE parse guardianOf ev = (w.step E maxE parse guardianOf ev).toText := by
  cases ev with
  | upload uid eid fn c => rfl
  | createUpload eid newId device => rfl
  | joinCompute user net seeds =>
    simp only [TextWorld.step, GuiWorld.step, GuiWorld.toText, GuiDecryption.toText]
    cases s1Compute E parse net w.db w.dec.electionId user (guardianOf user) seeds <;> rfl
  | joinShare i =>
    simp only [TextWorld.step, GuiWorld.step, GuiWorld.toText, GuiDecryption.toText]
    cases w.made[i]?
    · rfl
    · simp [GuiDecryption.pushShare]
  | joinId i =>
    simp only [TextWorld.step, GuiWorld.step, GuiWorld.toText, GuiDecryption.toText]
    cases w.made[i]? <;> rfl
  | adminRead => simp [TextWorld.step, GuiWorld.step, GuiWorld.toText]
  | adminCompute i net =>
    have hr : w.toText.reads[i]? = w.reads[i]?.map GuiDecryption.toText := by simp [GuiWorld.toText]
    simp only [TextWorld.step, GuiWorld.step]
    rw [hr]
    cases hi : w.reads[i]? with
    | none => rfl
    | some d =>
      have hs : d.toText.shouldRun true = s2ShouldRun d true := by
        unfold TextDecryption.shouldRun s2ShouldRun
        cases hc : d.completed <;> simp only [GuiDecryption.toText, hc] <;> rfl
      simp only [Option.map_some]
      rw [hs, s2ComputeText_eq (h.reads d (List.mem_of_getElem? hi))]
      cases s2ShouldRun d true with
      | false => rfl
      | true =>
        simp only [GuiWorld.toText, if_true]
        cases s2Compute E maxE parse net w.db d <;> rfl
  | complete i =>
    simp only [TextWorld.step, GuiWorld.step, GuiWorld.toText, GuiDecryption.toText]
    cases w.results[i]? <;> rfl

theorem run_text (hv : E.P.Valid) {maxE : Nat} {guardianOf : String → Option Guardian} (hg : ∀ u, ∀ g ∈ guardianOf u, g.shareKey.Typed E.P)
    (evs : List GuiEvent) {w : GuiWorld} (h : w.Typed E.P) :
    w.toText.run E maxE (parseSubmitted E.P) guardianOf evs = (w.run E maxE (parseSubmitted E.P) guardianOf evs).toText ∧
      (w.run E maxE (parseSubmitted E.P) guardianOf evs).Typed E.P := by
  induction evs generalizing w with
  | nil => exact ⟨rfl, h⟩
  | cons ev evs ih =>
    obtain ⟨h1, h2⟩ := ih (step_typed hv hg h ev)
    refine ⟨?_, h2⟩
    rw [← step_text h ev] at h1
    exact h1

/-! ### Records -/

theorem manifest_trip {m : Manifest} (hm : m.Typed) (hp : ∀ c ∈ m.contests, c.primaryPartyIds = none) :
    fromRaw Manifest.ofJson (toRaw Manifest.toJson m) = .ok m := by
  rw [fromRaw, toRaw, jsonLoads_dumps' _ (Manifest.reads hm).1]
  have : m.withoutPrimaryParties = m := by
    unfold Manifest.withoutPrimaryParties
    have : m.contests.map (fun c => { c with primaryPartyIds := none }) = m.contests := by
      conv_rhs => rw [← List.map_id m.contests]
      refine List.map_congr_left (fun c hc => ?_)
      rw [← hp c hc]
      rfl
    rw [this]
  rw [← this]
  conv_lhs => rw [this]
  exact (Manifest.reads hm).2

theorem readAll_trip {α : Type} {enc : α → Json} {dec : Json → R α} {l : List (String × α)} (h : ∀ e ∈ l, fromRaw dec (toRaw enc e.2) = .ok e.2) :
    readAll dec (l.map (fun e => (e.1, toRaw enc e.2))) = .ok l := by
  unfold readAll
  rw [List.mapM_map]
  have := mapM_ok ((fun e : String × List Char => (do return (e.1, ← fromRaw dec e.2) : R (String × α))) ∘ fun e : String × α => (e.1, toRaw enc e.2))
    id l (fun e he => by
      simp only [Function.comp, h e he]
      rfl)
  rw [List.map_id] at this
  exact this

theorem record_trip {P : Params} {r : ElectionRecord} (h : r.Typed P) (allow : Bool) (votes : Int) :
    (r.toTexts allow votes).read P = .ok r := by
  have hc := raw_trip (ContextFile.trip (c := ⟨r.context, r.extendedData, allow, votes⟩) h.context h.extendedData)
  simp only [RecordTexts.read, ElectionRecord.toTexts, manifest_trip h.manifest h.parties, hc, raw_trip (Constants.trip r.constants),
    raw_trip (lagrange_trip h.coefficients.1 h.coefficients.2),
    readAll_trip (fun e (_ : e ∈ r.devices) => raw_trip (Device.trip e.2)),
    readAll_trip (fun e he => raw_trip (GuardianRecord.trip (h.guardians e he))),
    readAll_trip (fun e he => raw_trip (SBallot.trip (h.submitted e he))),
    readAll_trip (fun e he => raw_trip (PlaintextTally.trip (h.spoiled e he))),
    raw_trip (PublishedTally.trip h.encryptedTally), raw_trip (PlaintextTally.trip h.tally), bind, Except.bind, pure, Except.pure]

theorem writeAll_mem {α : Type} {pre : String} {id : α → String} {l : List α} : ∀ e ∈ writeAll pre id l, e.2 ∈ l :=
  (DictOf.foldl (p := fun x => x ∈ l) (fun _ _ hx hd => hd.dset _ hx) (DictOf.nil _)).2

theorem listRaw_reads {α : Type} {dec : Json → R α} {ok : α → Prop} (hd : Reads dec ok) {raw : List Char} {l : List α}
    (h : fromListRaw dec raw = .ok l) : ∀ a ∈ l, ok a := by
  unfold fromListRaw at h
  rw [bindOk] at h
  obtain ⟨j, hj, h⟩ := h
  have hdist := jsonLoads_distinct hj
  split at h
  · rename_i xs
    have := mapM_reads h
    intro a ha
    obtain ⟨x, hx, hxa⟩ := forall₂_left this.flip ha
    exact hd x a ((distinctItems_iff xs).1 hdist x hx) hxa
  · cases h; simp
  · split at h
    · cases h; simp
    · cases h
  · cases h

end EG
