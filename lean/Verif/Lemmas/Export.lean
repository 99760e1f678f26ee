import Verif.Spec.Export
import Verif.Lemmas.Cli
import Verif.Props.VerifyDecryption
import Verif.Props.Cli

/-!
# Lemmas for the election record
-/

namespace EG

variable {E : Env}

/-! ### Where the entries of a decryption come from -/

theorem decryptSelectionsLoop_origin (maxE : Nat) (shares : List (String × DecShare)) (baseHash : Nat)
    (ids : List String) (l : List CtSelection) (d r : List (String × PTSelection))
    (h : decryptSelectionsLoop E maxE shares baseHash ids true l d = .ok (some r)) :
    ∀ e ∈ r, e ∈ d ∨ ∃ s ∈ l, e.1 = s.objectId ∧ s.objectId ∈ ids ∧
      decryptSelectionWithShares E maxE s (getSharesForSelection s.objectId shares) baseHash = .ok (some e.2) := by
  induction l generalizing d with
  | nil =>
    simp only [decryptSelectionsLoop, Except.ok.injEq, Option.some.injEq] at h
    subst h; exact fun e he => Or.inl he
  | cons s l ih =>
    unfold decryptSelectionsLoop at h
    split at h
    · intro e he
      rcases ih _ h e he with h | ⟨s', hs', h⟩
      · exact Or.inl h
      · exact Or.inr ⟨s', List.mem_cons_of_mem _ hs', h⟩
    · rename_i hin
      simp only [bind, Except.bind, pure, Except.pure] at h
      cases hp : decryptSelectionWithShares E maxE s (getSharesForSelection s.objectId shares) baseHash with
      | error e => rw [hp] at h; cases h
      | ok o =>
        cases o with
        | none => rw [hp] at h; cases h
        | some p =>
          rw [hp] at h
          have hpid : p.objectId = s.objectId := by
            unfold decryptSelectionWithShares at hp
            split at hp
            · cases hp
            · simp only [bind, Except.bind, pure, Except.pure] at hp
              cases hd : divP E.P s.ciphertext.data
                  (multPs E.P ((getSharesForSelection s.objectId shares).map (fun e => e.2.2.share))) with
              | error e => rw [hd] at hp; cases hp
              | ok v =>
                rw [hd] at hp
                simp only at hp
                cases hl : dlog E.P maxE v with
                | error e => rw [hl] at hp; cases hp
                | ok n =>
                  rw [hl] at hp
                  simp only [Except.ok.injEq, Option.some.injEq] at hp
                  subst hp; rfl
          intro e he
          rcases ih _ h e he with h | ⟨s', hs', h⟩
          · rcases mem_dset h with rfl | h
            · refine Or.inr ⟨s, List.mem_cons_self, hpid, ?_, hp⟩
              by_contra hc
              exact hin ⟨hc, rfl⟩
            · exact Or.inl h
          · exact Or.inr ⟨s', List.mem_cons_of_mem _ hs', h⟩

theorem decryptContestsLoop_origin (maxE : Nat) (shares : List (String × DecShare)) (baseHash : Nat)
    (m : Manifest) (cs : List CtContest) (d r : List (String × PTContest))
    (h : decryptContestsLoop E maxE shares baseHash m true cs d = .ok (some r)) :
    ∀ e ∈ r, e ∈ d ∨ ∃ c ∈ cs, e.1 = c.objectId ∧ ∀ x ∈ e.2.selections, ∃ s ∈ c.selections, x.1 = s.objectId ∧
      Describes m c.objectId s.objectId ∧
      decryptSelectionWithShares E maxE s (getSharesForSelection s.objectId shares) baseHash = .ok (some x.2) := by
  induction cs generalizing d with
  | nil =>
    simp only [decryptContestsLoop, Except.ok.injEq, Option.some.injEq] at h
    subst h; exact fun e he => Or.inl he
  | cons c cs ih =>
    unfold decryptContestsLoop at h
    split at h
    · intro e he
      rcases ih _ h e he with h | ⟨s', hs', h⟩
      · exact Or.inl h
      · exact Or.inr ⟨s', List.mem_cons_of_mem _ hs', h⟩
    · rename_i desc hdesc
      simp only [decryptContestWithShares, bind, Except.bind, pure, Except.pure] at h
      cases hp : decryptSelectionsLoop E maxE shares baseHash (desc.ballotSelections.map (fun s => s.objectId)) true
          c.selections [] with
      | error e => rw [hp] at h; cases h
      | ok o =>
        cases o with
        | none => rw [hp] at h; cases h
        | some x =>
          rw [hp] at h
          intro e he
          rcases ih _ h e he with h | ⟨s', hs', h⟩
          · rcases mem_dset h with rfl | h
            · refine Or.inr ⟨c, List.mem_cons_self, rfl, fun y hy => ?_⟩
              rcases decryptSelectionsLoop_origin _ _ _ _ _ _ _ hp y hy with h1 | ⟨s, hs, h1, h2, h3⟩
              · cases h1
              · refine ⟨s, hs, h1, ⟨desc, ?_, h2⟩, h3⟩
                rw [← contestDescriptions_get]
                exact hdesc
            · exact Or.inl h
          · exact Or.inr ⟨s', List.mem_cons_of_mem _ hs', h⟩

/-! ### Shares that guardians computed themselves -/

theorem shareForContests_guardian {up : Bool} {kp : ElectionKeyPair} {id : String} {cs : List CtContest} {ctx : Context}
    {seeds : Nat → Nat → Nat} {sh : DecShare} (h : shareForContests E up kp id cs ctx seeds = some sh) : sh.guardianId = kp.ownerId := by
  unfold shareForContests at h
  rw [Option.map_eq_some_iff] at h
  obtain ⟨r, -, rfl⟩ := h
  rfl

/-- The shares of some contests, each computed by a guardian, and by none twice. -/
structure Own (E : Env) (ctx : Context) (gs : List Guardian) (cs : List CtContest) (shares : List (String × DecShare)) : Prop where
  once : (shares.map (fun e => e.2.guardianId)).Nodup
  made : ∀ e ∈ shares, ∃ g ∈ gs, g.id = e.2.guardianId ∧ ∃ id seeds, shareForContests E true g.electionKeys id cs ctx seeds = some e.2

/-- Shares that are kept under a name of the guardian. -/
theorem own_of_names {ctx : Context} {gs : List Guardian} {cs : List CtContest} {shares : List (String × DecShare)}
    (name : String → String) (hn : (dkeys shares).Nodup)
    (hm : ∀ e ∈ shares, ∃ g ∈ gs, name g.id = e.1 ∧ ∃ id seeds, shareForContests E true g.electionKeys id cs ctx seeds = some e.2) :
    Own E ctx gs cs shares := by
  refine ⟨?_, fun e he => ?_⟩
  · refine List.Nodup.of_map name ?_
    rw [List.map_map]
    have : shares.map (name ∘ fun e => e.2.guardianId) = dkeys shares := List.map_congr_left (fun e he => by
      obtain ⟨g, -, h1, id, sd, h2⟩ := hm e he
      rw [Function.comp_apply, shareForContests_guardian h2]
      exact h1)
    rw [this]
    exact hn
  · obtain ⟨g, hg, h1, id, sd, h2⟩ := hm e he
    exact ⟨g, hg, (shareForContests_guardian h2).symm, id, sd, h2⟩

/-- The number shown for a selection follows from the shares, if each of them has one share of the selection. -/
theorem follows_of_shares (hv : E.P.Valid) {maxE baseHash : Nat} {shares : List (String × DecShare)} {s : CtSelection}
    (hlt : s.ciphertext.data < E.P.p) (honce : (shares.map (fun e => e.2.guardianId)).Nodup)
    (hmade : ∀ e ∈ shares, (e.2.allSelections.map (fun x => x.objectId)).Nodup ∧
      ∃ x ∈ e.2.allSelections, x.objectId = s.objectId ∧ x.guardianId = e.2.guardianId) {p : PTSelection}
    (h : decryptSelectionWithShares E maxE s (getSharesForSelection s.objectId shares) baseHash = .ok (some p)) :
    p.Follows E.P (shares.map (fun e => e.2.guardianId)) s.ciphertext := by
  have : Fact E.P.p.Prime := ⟨hv.p_prime⟩
  classical
  let pick : DecShare → DecSelection := fun sh =>
    if h : ∃ x ∈ sh.allSelections, x.objectId = s.objectId ∧ x.guardianId = sh.guardianId then Classical.choose h
    else ⟨"", "", 0, none, none⟩
  have hpick : ∀ e ∈ shares, pick e.2 ∈ e.2.allSelections ∧ (pick e.2).objectId = s.objectId ∧
      (pick e.2).guardianId = e.2.guardianId := by
    intro e he
    obtain ⟨-, h⟩ := hmade e he
    simp only [pick, dif_pos h]
    have := Classical.choose_spec h
    exact ⟨this.1, this.2.1, this.2.2⟩
  have heq : getSharesForSelection s.objectId shares
      = shares.map (fun e => (e.2.guardianId, (e.2.publicKey, pick e.2))) := by
    unfold getSharesForSelection
    rw [foldl_getShares pick shares [] (fun e he => ⟨(hmade e he).1, (hpick e he).1, (hpick e he).2.1⟩)
      honce (by simp [dkeys])]
    rfl
  unfold decryptSelectionWithShares at h
  split at h
  · cases h
  · simp only [bind, Except.bind, pure, Except.pure] at h
    cases hd : divP E.P s.ciphertext.data
        (multPs E.P ((getSharesForSelection s.objectId shares).map (fun e => e.2.2.share))) with
    | error e => rw [hd] at h; cases h
    | ok w =>
      rw [hd] at h
      simp only at h
      cases hl : dlog E.P maxE w with
      | error e => rw [hl] at h; cases h
      | ok n =>
        rw [hl] at h
        simp only [Except.ok.injEq, Option.some.injEq] at h
        subst h
        refine ⟨rfl, ?_, ?_, ?_⟩
        · show (((getSharesForSelection s.objectId shares).map (fun e => e.2.2)).map (fun x => x.guardianId)).Perm _
          rw [heq, List.map_map, List.map_map]
          have : shares.map (((fun x : DecSelection => x.guardianId) ∘ fun e : String × (Nat × DecSelection) => e.2.2) ∘
              fun e => (e.2.guardianId, (e.2.publicKey, pick e.2))) = shares.map (fun e => e.2.guardianId) :=
            List.map_congr_left (fun e he => (hpick e he).2.2)
          rw [this]
        · show w = _
          exact ((dlog_ok_iff hv.one_lt_p hl).2).symm
        · show w * (((getSharesForSelection s.objectId shares).map (fun e => e.2.2)).map (fun x => x.share)).prod % E.P.p = _
          unfold divP at hd
          simp only [bind, Except.bind, pure, Except.pure] at hd
          cases hi : invert (multPs E.P ((getSharesForSelection s.objectId shares).map (fun e => e.2.2.share))) E.P.p with
          | error e => rw [hi] at hd; cases hd
          | ok i =>
            rw [hi] at hd
            cases hd
            obtain ⟨hne, hic⟩ := invert_cast hv.p_prime hi
            rw [← castP_inj (Nat.mod_lt _ hv.p_pos) hlt, ZMod.natCast_mod, Nat.cast_mul, multP_cast, hic, List.map_map]
            have hp : ((((getSharesForSelection s.objectId shares).map
                ((fun x : DecSelection => x.share) ∘ fun e => e.2.2)).prod : Nat) : ZMod E.P.p)
                = ((multPs E.P ((getSharesForSelection s.objectId shares).map (fun e => e.2.2.share)) : Nat) : ZMod E.P.p) := by
              rw [multPs_cast, Nat.cast_list_prod]
              rfl
            rw [hp, mul_assoc, inv_mul_cancel₀ hne, mul_one]

/-- The number shown for a selection follows from the shares. -/
theorem follows_of_decrypt (hv : E.P.Valid) {maxE : Nat} {ctx : Context} (hh : ctx.cryptoExtendedBaseHash < E.P.q) {gs : List Guardian}
    (hk : ∀ g ∈ gs, g.electionKeys.keyPair.pub = E.P.g ^ g.electionKeys.keyPair.secret % E.P.p)
    {cs : List CtContest} (hr : Readable E.P cs) {shares : List (String × DecShare)} (ho : Own E ctx gs cs shares) {s : CtSelection}
    (hs : s ∈ ctSelections cs) {p : PTSelection}
    (h : decryptSelectionWithShares E maxE s (getSharesForSelection s.objectId shares) ctx.cryptoExtendedBaseHash = .ok (some p)) :
    p.Follows E.P (shares.map (fun e => e.2.guardianId)) s.ciphertext := by
  refine follows_of_shares hv ?_ ho.once ?_ h
  · have := (hr.2 s hs).2
    unfold isValidResidue inBoundsP at this
    simp only [Bool.and_eq_true, decide_eq_true_eq] at this
    omega
  have hmade : ∀ e ∈ shares, (e.2.allSelections.map (fun x => x.objectId)).Nodup ∧
      ∃ x ∈ e.2.allSelections, x.objectId = s.objectId ∧ x.guardianId = e.2.guardianId := by
    intro e he
    obtain ⟨g, hg, hid, id, seeds, hsh⟩ := ho.made e he
    obtain ⟨sh, h1, -, h3, h4⟩ := shareForContests_ok hv g.electionKeys (hk g hg) id cs ctx seeds hh hr.1 hr.2
    rw [hsh] at h1
    cases h1
    have hown := shareForContests_own true g.electionKeys id cs ctx seeds e.2 hsh [(g.electionKeys.ownerId, g.electionKeys.share)]
      ⟨g.electionKeys.share, by simp [dget], rfl⟩
    refine ⟨?_, ?_⟩
    · rw [forall₂_map_eq (fun s : CtSelection => s.objectId) (fun s : DecSelection => s.objectId) h4.selections
        (fun a b h => h.1)]
      exact hr.1.selections
    · obtain ⟨x, hx, hx1, -⟩ := forall₂_exists h4.selections hs
      refine ⟨x, hx, hx1, ?_⟩
      obtain ⟨-, k, hk1, -⟩ := hown x hx
      have := mem_of_dget hk1
      simp only [List.mem_singleton, Prod.mk.injEq] at this
      rw [this.1]
      exact hid
  exact hmade

/-- The shares that a mediator of `decrypt` holds: each computed by the guardian under whose id it is kept. -/
structure DM.Own (E : Env) (ctx : Context) (gs : List Guardian) (t : Tally) (bs : List SBallot) (dm : DM) : Prop where
  once : (dkeys dm.tallyShares).Nodup
  tally : ∀ e ∈ dm.tallyShares, ∃ g ∈ gs, g.id = e.1 ∧ ∃ id seeds,
    shareForContests E true g.electionKeys id t.toCts ctx seeds = some e.2
  ballots : ∀ e ∈ dm.ballotShares, (dkeys e.2).Nodup ∧ ∀ x ∈ e.2, ∃ g ∈ gs, g.id = x.1 ∧ ∃ b ∈ bs, b.objectId = e.1 ∧
    ∃ seeds, shareForContests E true g.electionKeys b.objectId b.toCts ctx seeds = some x.2

theorem computeBallotShares_mem (g : Guardian) (bs : List SBallot) (ctx : Context) (seeds : Nat → Nat → Nat → Nat)
    (e : String × Option DecShare) (he : e ∈ g.computeBallotShares E bs ctx seeds) (sh : DecShare) (hs : e.2 = some sh) :
    ∃ b ∈ bs, b.objectId = e.1 ∧ ∃ sd, shareForContests E true g.electionKeys b.objectId b.toCts ctx sd = some sh := by
  unfold Guardian.computeBallotShares at he
  have key : ∀ (l : List (SBallot × Nat)) (d : List (String × Option DecShare)),
      e ∈ l.foldl (fun d e => dset d e.1.objectId (computeBallotShare E true g.electionKeys e.1 ctx (seeds e.2))) d →
      e ∈ d ∨ ∃ x ∈ l, e = (x.1.objectId, computeBallotShare E true g.electionKeys x.1 ctx (seeds x.2)) := by
    intro l
    induction l with
    | nil => exact fun d h => Or.inl h
    | cons a l ih =>
      intro d h
      rcases ih _ h with h | ⟨x, hx, h⟩
      · rcases mem_dset h with h | h
        · exact Or.inr ⟨a, List.mem_cons_self, h⟩
        · exact Or.inl h
      · exact Or.inr ⟨x, List.mem_cons_of_mem _ hx, h⟩
  rcases key _ _ he with h | ⟨x, hx, rfl⟩
  · cases h
  · exact ⟨x.1, mem_of_zipIdx hx, rfl, seeds x.2, hs⟩

theorem announce_own_list {ctx : Context} {gs : List Guardian} {t : Tally} {bs : List SBallot} {dm : DM} (hd : dm.Own E ctx gs t bs)
    (g : Guardian) (hg : g ∈ gs) {seeds : Nat → Nat → Nat} {sh : DecShare} (hsh : g.computeTallyShare E t ctx seeds = some sh)
    (l : List (String × Option DecShare)) (hmem : ∀ e ∈ l, ∀ s, e.2 = some s → ∃ b ∈ bs, b.objectId = e.1 ∧
      ∃ sd, shareForContests E true g.electionKeys b.objectId b.toCts ctx sd = some s) :
    (dm.announce g.shareKey sh (some l)).Own E ctx gs t bs := by
  by_cases hk : g.shareKey.ownerId ∈ dkeys dm.available
  · rw [DM.announce_of_mem _ _ _ _ hk]; exact hd
  · refine ⟨?_, ?_, ?_⟩
    · rw [(DM.announce_fields _ _ _ _ hk).2.2.1]
      exact dset_nodup hd.once _ _
    · rw [(DM.announce_fields _ _ _ _ hk).2.2.1]
      intro e he
      rcases mem_dset he with rfl | he
      · exact ⟨g, hg, rfl, _, _, hsh⟩
      · exact hd.tally e he
    · have hb : (dm.announce g.shareKey sh (some l)).ballotShares
          = l.foldl (fun d e =>
            let old := (dget d e.1).getD []
            dset d e.1 (match e.2 with | some sh => dset old g.shareKey.ownerId sh | none => old)) dm.ballotShares := by
        unfold DM.announce
        rw [if_neg hk]
        rfl
      rw [hb]
      clear hb
      have hd' := hd.ballots
      generalize dm.ballotShares = d at hd'
      induction l generalizing d with
      | nil => exact hd'
      | cons a l ih =>
        rw [List.foldl_cons]
        refine ih (fun e he => hmem e (List.mem_cons_of_mem _ he)) _ (fun e he => ?_)
        rcases mem_dset he with rfl | he
        · have hold : (dkeys ((dget d a.1).getD [])).Nodup ∧ ∀ x ∈ (dget d a.1).getD [], ∃ g ∈ gs, g.id = x.1 ∧
              ∃ b ∈ bs, b.objectId = a.1 ∧
              ∃ seeds, shareForContests E true g.electionKeys b.objectId b.toCts ctx seeds = some x.2 := by
            cases hg : dget d a.1 with
            | none => simp [dkeys]
            | some x => exact hd' _ (mem_of_dget hg)
          cases ha : a.2 with
          | none => exact hold
          | some s =>
            refine ⟨dset_nodup hold.1 _ _, fun x hx => ?_⟩
            rcases mem_dset hx with rfl | hx
            · obtain ⟨b, hb, h1, h2⟩ := hmem a List.mem_cons_self s ha
              exact ⟨g, hg, rfl, b, hb, h1, h2⟩
            · exact hold.2 x hx
        · exact hd' e he

theorem announce_own {ctx : Context} {gs : List Guardian} {t : Tally} {bs : List SBallot} {dm : DM} (hd : dm.Own E ctx gs t bs)
    (g : Guardian) (hg : g ∈ gs) {seeds : Nat → Nat → Nat} {sh : DecShare} (hsh : g.computeTallyShare E t ctx seeds = some sh)
    (bseeds : Nat → Nat → Nat → Nat) :
    (dm.announce g.shareKey sh (some (g.computeBallotShares E bs ctx bseeds))).Own E ctx gs t bs :=
  announce_own_list hd g hg hsh _ (fun e he s hs => computeBallotShares_mem (E := E) g bs ctx bseeds e he s hs)

theorem cliAnnounce_own {sd : TallySeeds} {ctx : Context} {gs : List Guardian} {t : Tally} {bs : List SBallot} (l : List Guardian)
    (hl : ∀ g ∈ l, g ∈ gs) (dm dm' : DM) (hd : dm.Own E ctx gs t bs) (h : cliAnnounce E sd ctx t bs l dm = .ok dm') :
    dm'.Own E ctx gs t bs := by
  induction l generalizing dm with
  | nil => cases h; exact hd
  | cons g l ih =>
    unfold cliAnnounce at h
    simp only [bind, Except.bind] at h
    cases hs : g.computeTallyShare E t ctx (sd.tally g.id) with
    | none => rw [hs] at h; cases h
    | some sh =>
      rw [hs] at h
      exact ih (fun x hx => hl x (List.mem_cons_of_mem _ hx)) _ (announce_own hd g (hl g List.mem_cons_self) hs _) h

theorem DM.own_init (ctx : Context) (gs : List Guardian) (t : Tally) (bs : List SBallot) : DM.init.Own E ctx gs t bs :=
  ⟨by simp [DM.init, dkeys], by simp [DM.init], by simp [DM.init]⟩

/-- As many shares as guardians are shares of all guardians. -/
theorem own_perm {ctx : Context} {gs : List Guardian} {cs : List CtContest}
    {shares : List (String × DecShare)} (ho : Own E ctx gs cs shares) (hlen : shares.length = gs.length) :
    (shares.map (fun e => e.2.guardianId)).Perm (gs.map Guardian.id) := by
  refine (List.subperm_of_subset ho.once (fun x hx => ?_)).perm_of_length_le (by simp [hlen])
  obtain ⟨e, he, rfl⟩ := List.mem_map.1 hx
  obtain ⟨g, hg, hid, -⟩ := ho.made e he
  exact List.mem_map.2 ⟨g, hg, hid⟩

/-- Everything about a decryption by all guardians that an auditor can check, except that every described selection is shown. -/
theorem inOrder_of_decrypt (hv : E.P.Valid) {maxE : Nat} {ctx : Context} (hh : ctx.cryptoExtendedBaseHash < E.P.q) {gs : List Guardian}
    (hk : ∀ g ∈ gs, g.electionKeys.keyPair.pub = E.P.g ^ g.electionKeys.keyPair.secret % E.P.p) (hn : (gs.map Guardian.id).Nodup)
    {cs : List CtContest} (hr : Readable E.P cs) {shares : List (String × DecShare)} (ho : Own E ctx gs cs shares)
    (hlen : shares.length = gs.length) {m : Manifest} {r : List (String × PTContest)} {id : String}
    (h : decryptContestsLoop E maxE shares ctx.cryptoExtendedBaseHash m true cs [] = .ok (some r))
    (v : RecordView) (hm : v.manifest = m) (hc : v.context = ctx)
    (hg : (v.guardians.map (fun r => (r.guardianId, r.publicKey))).Perm (gs.map (fun g => (g.id, g.electionKeys.keyPair.pub))))
    (hshown : ∀ c ∈ cs, ∀ s ∈ c.selections, Describes m c.objectId s.objectId →
      ∃ n, PlaintextTally.Reports ⟨id, r⟩ c.objectId s.objectId n) :
    PlaintextTally.InOrder ⟨id, r⟩ E v cs := by
  have hgid : (v.guardians.map GuardianRecord.guardianId).Perm (gs.map Guardian.id) := by
    have := hg.map Prod.fst
    rw [List.map_map, List.map_map] at this
    exact this
  have hids : (v.guardians.map GuardianRecord.guardianId).Nodup := hgid.nodup_iff.2 hn
  have hperm := own_perm ho hlen
  have horig : ∀ cid sid ps, PlaintextTally.Shows ⟨id, r⟩ cid sid ps → ∃ c ∈ cs, cid = c.objectId ∧ ∃ s ∈ c.selections,
      sid = s.objectId ∧ Describes m c.objectId s.objectId ∧
      decryptSelectionWithShares E maxE s (getSharesForSelection s.objectId shares) ctx.cryptoExtendedBaseHash = .ok (some ps) := by
    rintro cid sid ps ⟨pc, h1, h2⟩
    rcases decryptContestsLoop_origin _ _ _ _ _ _ _ h _ (mem_of_dget h1) with h3 | ⟨c, hc, h3, h4⟩
    · cases h3
    · obtain ⟨s, hs, h5, h6, h7⟩ := h4 _ (mem_of_dget h2)
      exact ⟨c, hc, h3, s, hs, h5, h6, h7⟩
  refine ⟨?_, ?_, ?_⟩
  · rw [hc]
    refine verify_own maxE shares ctx m true cs r id v.keys h (fun e he => ?_)
    obtain ⟨g, hg', -, i, seeds, hs⟩ := ho.made e he
    obtain ⟨r, hr, hrg⟩ := List.mem_map.1 (hg.mem_iff.2 (List.mem_map_of_mem hg'))
    obtain ⟨hr1, hr2⟩ := Prod.mk.inj hrg
    refine shareForContests_own true g.electionKeys i cs ctx seeds e.2 hs v.keys ⟨r.toKey, ?_, hr2⟩
    refine dget_of_mem ?_ (List.mem_map.2 ⟨r, hr, Prod.ext hr1 rfl⟩)
    unfold RecordView.keys dkeys
    rw [List.map_map]
    exact hids
  · rw [hm]
    intro c hc' s hs hd
    obtain ⟨n, pc, ps, h1, h2, -⟩ := hshown c hc' s hs hd
    refine ⟨ps, ⟨pc, h1, h2⟩, ?_⟩
    obtain ⟨c', hc'', e1, s', hs', e2, -, h3⟩ := horig _ _ _ ⟨pc, h1, h2⟩
    have hss : s' = s := by
      have hmem : ∀ c ∈ cs, ∀ s ∈ c.selections, s ∈ ctSelections cs := fun c hc s hs => List.mem_flatMap.2 ⟨c, hc, hs⟩
      exact List.inj_on_of_nodup_map hr.1.selections (hmem c' hc'' s' hs') (hmem c hc' s hs) e2.symm
    subst hss
    have hf := follows_of_decrypt hv hh hk hr ho (List.mem_flatMap.2 ⟨c, hc', hs⟩) h3
    exact ⟨hf.message, hf.guardians.trans (hperm.trans hgid.symm), hf.value, hf.product⟩
  · rw [hm]
    intro cid sid ps hs
    obtain ⟨c, hc', e1, s, hs', e2, e3, -⟩ := horig _ _ _ hs
    refine ⟨c, hc', s, hs', e1.symm, e2.symm, ?_⟩
    rw [e1, e2]
    exact e3

end EG
