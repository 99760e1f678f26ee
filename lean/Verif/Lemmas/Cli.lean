import Verif.Spec.Cli
import Verif.Props.WholeElection
import Verif.Props.Names
import Verif.Props.GuiElection
import Verif.Lemmas.GuiDecryption

/-!
# Lemmas about the commands of the CLI
-/

namespace EG

variable {E : Env}

/-! ### The announcements -/

theorem getValid_all_some {α : Type} (l : List (String × Option α)) (hn : (dkeys l).Nodup) (hs : ∀ e ∈ l, e.2.isSome) :
    (getValidBallotShares l).map (fun e => (e.1, some e.2)) = l := by
  unfold getValidBallotShares
  suffices gen : ∀ (l : List (String × Option α)) (d : List (String × α)), (dkeys l).Nodup → (∀ e ∈ l, e.2.isSome) →
      (∀ e ∈ l, e.1 ∉ dkeys d) →
      (l.foldl (fun d e => match e.2 with | some s => dset d e.1 s | none => d) d).map (fun e => (e.1, some e.2))
        = d.map (fun e => (e.1, some e.2)) ++ l by
    exact (gen l [] hn hs (by simp [dkeys])).trans (by simp)
  intro l
  induction l with
  | nil => simp
  | cons e l ih =>
    intro d hn hs hd
    obtain ⟨k, v⟩ := e
    simp only [dkeys, List.map_cons, List.nodup_cons] at hn
    have hv := hs (k, v) List.mem_cons_self
    cases v with
    | none => cases hv
    | some s =>
      rw [List.foldl_cons]
      simp only
      rw [ih _ hn.2 (fun e he => hs e (List.mem_cons_of_mem _ he)) ?_, dset_fresh _ (hd _ List.mem_cons_self)]
      · simp
      · intro e he hc
        rw [dset_fresh _ (hd _ List.mem_cons_self)] at hc
        simp only [dkeys, List.map_append, List.map_cons, List.map_nil, List.mem_append, List.mem_singleton] at hc
        rcases hc with hc | hc
        · exact hd e (List.mem_cons_of_mem _ he) hc
        · exact hn.1 (hc ▸ List.mem_map_of_mem he)

/-- The guardians' shares of the ballots are all there, so leaving out those that are not changes nothing. -/
theorem cliAnnounce_eq (hv : E.P.Valid) {loads : Bytes → R (List Char)} {quorum : Nat}
    {rands : String → List (Nat × Nat)} {kps : List ElectionKeyPair} (ht : Team E quorum rands kps) (sd : TallySeeds)
    (ctx : Context) (hh : ctx.cryptoExtendedBaseHash < E.P.q) (t : Tally) (bs : List SBallot)
    (hbs : (bs.map (fun b => b.objectId)).Nodup) (hrb : ∀ b ∈ bs, Readable E.P b.toCts)
    (avs : List (Guardian × ElectionKeyPair))
    (heq : ∀ x ∈ avs, x.2 ∈ kps ∧ x.1.Equipped E loads rands kps x.2) (m : DM) :
    cliAnnounce E sd ctx t bs (avs.map Prod.fst) m = announceAvailable E sd ctx t bs (avs.map Prod.fst) m := by
  induction avs generalizing m with
  | nil => rfl
  | cons x avs ih =>
    obtain ⟨hx1, hx2⟩ := heq x (List.mem_cons_self ..)
    have hown : x.1.electionKeys = x.2 := hx2.own
    have hk : x.2.keyPair.pub = E.P.g ^ x.2.keyPair.secret % E.P.p := (C47_key_pair (ht.generated x.2 hx1)).2.2.2.2
    have hshares : x.1.computeBallotShares E bs ctx (sd.ballot x.1.id) = bs.zipIdx.map (fun e => (e.1.objectId,
        computeBallotShare E true x.1.electionKeys e.1 ctx (sd.ballot x.1.id e.2))) := by
      unfold Guardian.computeBallotShares
      have hmap : bs.zipIdx.map (fun e => e.1.objectId) = bs.map (fun b => b.objectId) := by
        have : bs.zipIdx.map (fun e => e.1.objectId) = (bs.zipIdx.map Prod.fst).map (fun b => b.objectId) := by
          rw [List.map_map]; rfl
        rw [this, List.zipIdx_map_fst]
      rw [foldl_dset_map (fun e : SBallot × Nat => e.1.objectId) _ _ _ (by rw [hmap]; exact hbs) (by simp [dkeys])]
      rfl
    have hkeys : (dkeys (x.1.computeBallotShares E bs ctx (sd.ballot x.1.id))).Nodup := by
      have := (dget_foldl_ballots (fun e : SBallot × Nat =>
        computeBallotShare E true x.1.electionKeys e.1 ctx (sd.ballot x.1.id e.2)) bs hbs [] (by simp [dkeys])).1
      exact this
    have hsome : ∀ e ∈ x.1.computeBallotShares E bs ctx (sd.ballot x.1.id), e.2.isSome := by
      intro e he
      rw [hshares] at he
      obtain ⟨⟨b, i⟩, hb, rfl⟩ := List.mem_map.1 he
      have hb' : b ∈ bs := by
        have := List.mem_map_of_mem (f := Prod.fst) hb
        rwa [List.zipIdx_map_fst] at this
      obtain ⟨shb, k1, -⟩ := shareForContests_ok hv x.2 hk b.objectId b.toCts ctx (sd.ballot x.1.id i) hh (hrb b hb').1
        (hrb b hb').2
      rw [← hown] at k1
      show (computeBallotShare E true x.1.electionKeys b ctx (sd.ballot x.1.id i)).isSome
      have : computeBallotShare E true x.1.electionKeys b ctx (sd.ballot x.1.id i) = some shb := k1
      rw [this]
      rfl
    rw [List.map_cons]
    unfold cliAnnounce announceAvailable
    simp only [bind, Except.bind]
    rw [getValid_all_some _ hkeys hsome]
    cases getOptional (x.1.computeTallyShare E t ctx (sd.tally x.1.id)) with
    | error e => rfl
    | ok sh => exact ih (fun y hy => heq y (List.mem_cons_of_mem _ hy)) _

theorem performDecryptionSetup_eq (sd : TallySeeds) (ctx : Context) (t : Tally) (bs : List SBallot) (gs : List Guardian) (m : DM) :
    performDecryptionSetup E sd ctx t bs gs m = announceAvailable E sd ctx t bs gs m := by
  unfold performDecryptionSetup tallyAnnouncement
  have : (gs.map Guardian.shareKey).filter (fun k => decide (k.ownerId ∉ gs.map Guardian.id)) = [] := by
    refine List.filter_eq_nil_iff.2 (fun k hk => ?_)
    obtain ⟨g, hg, rfl⟩ := List.mem_map.1 hk
    simp only [decide_not, Bool.not_eq_true', decide_eq_false_iff_not, not_not]
    exact List.mem_map.2 ⟨g, hg, rfl⟩
  rw [this]
  cases announceAvailable E sd ctx t bs gs m <;> rfl

/-- `decrypt` with all guardians of a key ceremony. -/
theorem cliDecrypt_spec (hv : E.P.Valid) (loads : Bytes → R (List Char)) (quorum : Nat) (hq : 0 < quorum)
    (rands : String → List (Nat × Nat)) (kps : List ElectionKeyPair) (ht : Team E quorum rands kps)
    (horders : (kps.map (fun kp => kp.sequenceOrder)).Nodup) (sd : TallySeeds) (ctx : Context)
    (hctx : ctx.quorum = quorum ∧ ctx.numberOfGuardians = kps.length) (hh : ctx.cryptoExtendedBaseHash < E.P.q)
    (maxE : Nat) (man : Manifest) (t : Tally) (bs : List SBallot) (hbs : (bs.map (fun b => b.objectId)).Nodup)
    (hdt : Decryptable E.P maxE (combinePublicKeys E.P (kps.map (fun kp => kp.share.key))) man t.toCts)
    (hdb : ∀ b ∈ bs, Decryptable E.P maxE (combinePublicKeys E.P (kps.map (fun kp => kp.share.key))) man b.toCts)
    (avs : List (Guardian × ElectionKeyPair)) (hp : Present E loads rands kps avs)
    (hall : (avs.map Prod.snd).Perm kps) (hmany : quorum ≤ kps.length) :
    ∃ res, cliDecrypt E sd maxE ctx t bs (avs.map Prod.fst) man = .ok res ∧
      res.tally.Correct E.P (combinePublicKeys E.P (kps.map (fun kp => kp.share.key))) man t.toCts ∧
      List.Forall₂ (fun (b : SBallot) (e : String × PlaintextTally) => e.1 = b.objectId ∧ e.2.objectId = b.objectId ∧
        e.2.Correct E.P (combinePublicKeys E.P (kps.map (fun kp => kp.share.key))) man b.toCts) bs res.spoiled ∧
      res.tally.FromManifest man ∧ (∀ e ∈ res.spoiled, e.2.FromManifest man) ∧
      lagrangeForGuardians E.P (avs.map (fun x => x.2.share)) = .ok res.lagrange := by
  obtain ⟨dm, h1, ⟨pt, h2, -, h4⟩, pts, h5, h6⟩ := C66_all_present_partial hv loads quorum hq rands kps ht horders sd ctx hctx hh
    maxE man t bs hbs hdt hdb avs hp hall hmany
  have hkeys : ((avs.map Prod.fst).map Guardian.shareKey).Perm (kps.map (fun kp => kp.share)) := by
    have : (avs.map Prod.fst).map Guardian.shareKey = (avs.map Prod.snd).map (fun kp => kp.share) := by
      rw [List.map_map, List.map_map]
      refine List.map_congr_left (fun x hx => ?_)
      show x.1.electionKeys.share = _
      rw [(hp.equipped x hx).2.own]
      rfl
    rw [this]
    exact hall.map _
  obtain ⟨ops, ms, a1, -, -, -, a5, -⟩ := tallyAnnouncement_spec hv ht sd ctx hh t bs hbs hdt.readable
    (fun b hb => (hdb b hb).readable) avs hp _ hkeys
  have hdm : dm = DM.run E.P ops := by
    have : performDecryptionSetup E sd ctx t bs (avs.map Prod.fst) DM.init = .ok (DM.run E.P ops) := a1
    rw [h1] at this
    exact Except.ok.inj this
  rw [performDecryptionSetup_eq] at h1
  rw [← cliAnnounce_eq hv ht sd ctx hh t bs hbs (fun b hb => (hdb b hb).readable) avs hp.equipped] at h1
  have hav : dm.available.map (fun e => e.2) = avs.map (fun x => x.2.share) := by
    rw [hdm, a5, List.map_map]
    rfl
  have hshared := ht.sharedKeys hv horders
  have hperm : (avs.map (fun x => x.2.share)).Perm (kps.map (fun kp => kp.share)) := by
    have := hall.map (fun kp : ElectionKeyPair => kp.share)
    rwa [List.map_map] at this
  obtain ⟨L, hL, -⟩ := lagrange_right hv [] (avs.map (fun x => x.2.share))
    (by rw [(hperm.map _).nodup_iff]; exact hshared.ids)
    (fun k hk => hshared.nonneg k (hperm.subset hk))
    (by rw [(hperm.map _).nodup_iff]; exact hshared.orders) (by simp)
  refine ⟨⟨pt, pts, t, (avs.map (fun x => x.2.share)).map (fun k => (k.ownerId, L k))⟩, ?_, h4, h6, ?_, ?_, hL⟩
  · unfold cliDecrypt
    simp only [h1, bind, Except.bind, hav, hL, h2, h5, getOptional, pure, Except.pure]
  · have h2' := h2
    unfold DM.plaintextTally at h2'
    split at h2'
    · cases h2'
    · exact C73_tally_from_manifest h2'
  · have h5' := h5
    unfold DM.plaintextBallots at h5'
    split at h5'
    · cases h5'
    · intro e he
      cases hloop : plaintextBallotsLoop E maxE dm ctx man bs [] with
      | error e => rw [hloop] at h5'; cases h5'
      | ok r =>
        rw [hloop] at h5'
        have : r = pts := by simpa [Except.map] using h5'
        subst this
        rcases plaintextBallotsLoop_mem maxE dm ctx man bs [] r hloop e he with h | ⟨b, -, -, sh, -, -, h⟩
        · simp at h
        · exact C73_ballot_from_manifest h

/-! ### The ballots -/

/-- A ballot that `encrypt` returned. -/
def VotedBallot.Of (E : Env) (json : ContestData → Bytes) (im : InternalManifest) (ctx : Context) (spoilId : Option String)
    (v : VotedBallot) : Prop :=
  v.Encrypted E json im ctx ∧ v.state = if some v.plain.objectId = spoilId then .spoiled else .cast

theorem encryptLoop_sound (json : ContestData → Bytes) (im : InternalManifest) (ctx : Context) (spoilId : Option String)
    (calls : List (PlaintextBallot × Nat × Int)) (seed : Nat) (cs : List CBallot)
    (h : encryptLoop E json im ctx seed calls = .ok cs) :
    ∃ vs : List VotedBallot, cs = vs.map (fun v => v.enc) ∧ vs.map (fun v => v.plain) = calls.map (fun c => c.1) ∧
      ∀ v ∈ vs, v.Of E json im ctx spoilId := by
  induction calls generalizing seed cs with
  | nil => cases h; exact ⟨[], rfl, rfl, by simp⟩
  | cons c calls ih =>
    obtain ⟨b, nonce, now⟩ := c
    unfold encryptLoop mediatorEncrypt at h
    simp only [bind, Except.bind, pure, Except.pure] at h
    cases he : encryptBallot E json b im ctx seed nonce now with
    | error e => rw [he] at h; cases h
    | ok o =>
      rw [he] at h
      cases o with
      | none => cases h
      | some c =>
        simp only [getOptional] at h
        cases hl : encryptLoop E json im ctx c.code calls with
        | error e => rw [hl] at h; cases h
        | ok cs' =>
          rw [hl] at h
          cases h
          obtain ⟨vs, h1, h2, h3⟩ := ih c.code cs' hl
          refine ⟨⟨b, seed, nonce, now, false, c, if some b.objectId = spoilId then .spoiled else .cast⟩ :: vs, ?_, ?_, ?_⟩
          · rw [List.map_cons, h1]
          · rw [List.map_cons, h2]; rfl
          · intro v hv
            rcases List.mem_cons.1 hv with rfl | hv
            · exact ⟨he, rfl⟩
            · exact h3 v hv

theorem encryptLoop_ok (json : ContestData → Bytes) (im : InternalManifest) (ctx : Context)
    (calls : List (PlaintextBallot × Nat × Int)) (seed : Nat)
    (h : ∀ c ∈ calls, ∀ seed, ∃ e, encryptBallot E json c.1 im ctx seed c.2.1 c.2.2 = .ok (some e)) :
    ∃ cs, encryptLoop E json im ctx seed calls = .ok cs := by
  induction calls generalizing seed with
  | nil => exact ⟨[], rfl⟩
  | cons c calls ih =>
    obtain ⟨b, nonce, now⟩ := c
    obtain ⟨e, he⟩ := h _ List.mem_cons_self seed
    obtain ⟨cs, hcs⟩ := ih e.code (fun c hc => h c (List.mem_cons_of_mem _ hc))
    refine ⟨e :: cs, ?_⟩
    unfold encryptLoop mediatorEncrypt
    dsimp only at he
    simp only [he, hcs, bind, Except.bind, pure, Except.pure, getOptional]

theorem firsts_of_nodup (vs : List VotedBallot) (hn : (vs.map (fun v => v.plain.objectId)).Nodup) : firsts vs = vs := by
  induction vs with
  | nil => rfl
  | cons v vs ih =>
    rw [List.map_cons, List.nodup_cons] at hn
    unfold firsts
    rw [ih hn.2, List.filter_eq_self.2]
    intro w hw
    simp only [ne_eq, decide_eq_true_eq]
    intro hc
    exact hn.1 (List.mem_map.2 ⟨w, hw, hc⟩)

theorem submitBallot_objectId (b : CBallot) (st : BallotBoxState) : (submitBallot E b st).objectId = b.objectId := rfl

/-- Casting or spoiling valid ballots one after the other. -/
theorem castAndSpoil_iff (im : InternalManifest) (ctx : Context) (spoilId : Option String) (vs : List VotedBallot)
    (hid : ∀ v ∈ vs, v.enc.objectId = v.plain.objectId)
    (hval : ∀ v ∈ vs, ballotIsValidForElection E v.enc im ctx true = .ok true)
    (hst : ∀ v ∈ vs, v.state = if some v.plain.objectId = spoilId then .spoiled else .cast) (store store' : Store SBallot) :
    castAndSpoil E im ctx spoilId (vs.map (fun v => v.enc)) store = .ok store' ↔
      (vs.map (fun v => v.plain.objectId)).Nodup ∧ (∀ v ∈ vs, v.plain.objectId ∉ dkeys store) ∧
      store' = store ++ vs.map (fun v => (v.plain.objectId, submitBallot E v.enc v.state)) := by
  induction vs generalizing store with
  | nil =>
    unfold castAndSpoil
    simp [eq_comm]
  | cons v vs ih =>
    have h1 := hid v List.mem_cons_self
    have h2 := hval v List.mem_cons_self
    have h3 := hst v List.mem_cons_self
    have hbox : (if some v.enc.objectId = spoilId then boxSpoil E im ctx store v.enc else boxCast E im ctx store v.enc)
        = submitBallotToBox E v.enc v.state im ctx store := by
      rw [h3, h1]
      by_cases hs : some v.plain.objectId = spoilId
      · rw [if_pos hs, if_pos hs]; rfl
      · rw [if_neg hs, if_neg hs]; rfl
    rw [List.map_cons]
    unfold castAndSpoil
    simp only [hbox]
    unfold submitBallotToBox
    rw [h2, h1]
    cases hg : Store.get store v.plain.objectId with
    | some b =>
      simp only [bind, Except.bind, getOptional]
      have hm : v.plain.objectId ∈ dkeys store := (mem_dkeys_iff _ _).2 ⟨b, hg⟩
      constructor
      · intro h; cases h
      · rintro ⟨-, h, -⟩; exact absurd hm (h v List.mem_cons_self)
    | none =>
      have hm : v.plain.objectId ∉ dkeys store := (dget_eq_none_iff _ _).1 hg
      have hset : Store.set store v.plain.objectId (submitBallot E v.enc v.state)
          = store ++ [(v.plain.objectId, submitBallot E v.enc v.state)] := dset_fresh _ hm
      simp only [submitBallot_objectId, h1, hset]
      have hget : Store.get (store ++ [(v.plain.objectId, submitBallot E v.enc v.state)]) v.plain.objectId
          = some (submitBallot E v.enc v.state) := by
        rw [← hset]
        unfold Store.get Store.set
        rw [dget_dset, if_pos rfl]
      rw [hget]
      simp only [bind, Except.bind, getOptional]
      rw [ih (fun w hw => hid w (List.mem_cons_of_mem _ hw)) (fun w hw => hval w (List.mem_cons_of_mem _ hw))
        (fun w hw => hst w (List.mem_cons_of_mem _ hw))]
      simp only [dkeys, List.map_append, List.map_cons, List.map_nil, List.mem_append, List.mem_singleton, not_or,
        List.nodup_cons, List.append_assoc, List.singleton_append]
      constructor
      · rintro ⟨a, b, c⟩
        refine ⟨⟨?_, a⟩, ?_, c⟩
        · intro hc
          obtain ⟨w, hw, he⟩ := List.mem_map.1 hc
          exact (b w hw).2 he
        · intro w hw
          rcases List.mem_cons.1 hw with rfl | hw
          · exact hm
          · exact (b w hw).1
      · rintro ⟨⟨a, a'⟩, b, c⟩
        exact ⟨a', fun w hw => ⟨b w (List.mem_cons_of_mem _ hw), fun hc => a (List.mem_map.2 ⟨w, hw, hc⟩)⟩, c⟩

/-- The results for some ballots with distinct ids: tally, decryption and printing, as `e2e` and `import-ballots` do them. -/
theorem cli_results (hv : E.P.Valid) (hpq : (E.P.q - 1) * (E.P.q - 1) < E.P.p)
    (loads : Bytes → R (List Char)) (quorum : Nat) (hq : 0 < quorum)
    (rands : String → List (Nat × Nat)) (kps : List ElectionKeyPair) (ht : Team E quorum rands kps)
    (horders : (kps.map (fun kp => kp.sequenceOrder)).Nodup) (sd : TallySeeds) (ctx : Context)
    (hctx : ctx.quorum = quorum ∧ ctx.numberOfGuardians = kps.length) (hh : ctx.cryptoExtendedBaseHash < E.P.q)
    (hkey : ctx.elgamalPublicKey = combinePublicKeys E.P (kps.map (fun kp => kp.share.key)))
    (maxE : Nat) (hmaxE : 1 ≤ maxE) (json : ContestData → Bytes) (m : Manifest) (im : InternalManifest) (he : ElectionReady E m im)
    (avs : List (Guardian × ElectionKeyPair)) (hp : Present E loads rands kps avs)
    (hall : (avs.map Prod.snd).Perm kps) (hmany : quorum ≤ kps.length) (vs : List VotedBallot)
    (hn : (vs.map (fun v => v.plain.objectId)).Nodup)
    (hvs : ∀ v ∈ vs, v.Encrypted E json im ctx ∧ ∃ d, im.StyleHas v.plain.styleId d)
    (hsmall : (vs.filter (fun v => decide (v.state = .cast))).length < E.P.q)
    (hmax : (vs.filter (fun v => decide (v.state = .cast))).length ≤ maxE) :
    ∃ t res out, cliTally E im ctx (vs.map (fun v => submitBallot E v.enc v.state)) = .ok t ∧
      cliDecrypt E sd maxE ctx t ((vs.filter (fun v => decide (v.state = .spoiled))).map (fun v => submitBallot E v.enc v.state))
        (avs.map Prod.fst) m = .ok res ∧
      res.Right im ((vs.filter (fun v => decide (v.state = .cast))).map (fun v => v.plain))
        ((vs.filter (fun v => decide (v.state = .spoiled))).map (fun v => v.plain)) ∧
      printElectionResults m res.tally res.spoiled = .ok out ∧ res.Printed m out := by
  have hf := firsts_of_nodup vs hn
  have hres : isValidResidue E.P ctx.elgamalPublicKey = true := by
    have := combined_residue hv (ht.sharedKeys hv horders)
    rw [List.map_map] at this
    rw [hkey]
    exact this
  have hcnt : counted vs = vs.filter (fun v => decide (v.state = .cast)) := by unfold counted; rw [hf]
  obtain ⟨hbox, t, htally, -, -, hdec, -, hrep⟩ := election_core hv hpq maxE json m im he ctx hres vs hvs (by rw [hcnt]; exact hsmall)
    (by rw [hcnt]; exact hmax)
  rw [hbox] at htally
  have hstore : (stored E vs).all = vs.map (fun v => submitBallot E v.enc v.state) := by
    unfold stored Store.all
    rw [hf, List.map_map]
    rfl
  have hct : cliTally E im ctx (vs.map (fun v => submitBallot E v.enc v.state)) = .ok t := by
    unfold tallyBallots at htally
    unfold cliTally
    rw [← hstore]
    revert htally
    rcases (newTally E "election-results" im).batchAppend E im ctx true (stored E vs).all true with ⟨r, t'⟩
    cases r with
    | error e => intro h; cases h
    | ok b =>
      cases b with
      | false => intro h; cases h
      | true => intro h; cases h; rfl
  set sp := vs.filter (fun v => decide (v.state = .spoiled)) with hsp
  have hin : ∀ v ∈ sp, v ∈ vs := fun v hv' => (List.mem_filter.1 hv').1
  have hball := fun v (hv' : v ∈ sp) =>
    ballot_core hv hpq maxE hmaxE json m im he ctx hres v (hvs v (hin v hv')).1
  have hbsid : ∀ v ∈ sp, (submitBallot E v.enc v.state).objectId = v.plain.objectId := fun v hv' => (hball v hv').2.1
  obtain ⟨res, hd1, hd2, hd3, hd4, hd5, -⟩ := cliDecrypt_spec hv loads quorum hq rands kps ht horders sd ctx hctx hh maxE m t
    (sp.map (fun v => submitBallot E v.enc v.state))
    (by
      rw [List.map_map]
      have : sp.map ((fun b : SBallot => b.objectId) ∘ fun v => submitBallot E v.enc v.state)
          = sp.map (fun v => v.plain.objectId) := List.map_congr_left hbsid
      rw [this]
      exact hn.sublist (List.filter_sublist.map _))
    (by rw [← hkey]; exact hdec)
    (by
      intro b hb
      obtain ⟨v, hv', rfl⟩ := List.mem_map.1 hb
      rw [← hkey]
      exact (hball v hv').1)
    avs hp hall hmany
  rw [← hkey] at hd2 hd3
  obtain ⟨im', him', -, -, -, -, hmap, -⟩ := C40_unique_ids_partial E m he.manifest
  rw [he.internal] at him'
  cases him'
  have hds : m.DistinctSelections := by
    have h1 := he.distinct
    unfold InternalManifest.DistinctSelections at h1
    unfold Manifest.DistinctSelections
    have h2 : m.contests.flatMap (fun c => c.ballotSelections.map SelectionDescription.objectId)
        = im.contests.flatMap (fun d => d.ballotSelections.map SelectionDescription.objectId) := by
      have e1 : im.contests.flatMap (fun d => d.ballotSelections.map SelectionDescription.objectId)
          = (im.contests.map (fun d => d.toContestDescription)).flatMap
            (fun c => c.ballotSelections.map SelectionDescription.objectId) := by rw [List.flatMap_map]
      rw [e1, hmap, List.flatMap_map]
    rw [h2]
    refine h1.sublist ?_
    generalize im.contests = l
    induction l with
    | nil => simp
    | cons d l ih =>
      rw [List.flatMap_cons, List.flatMap_cons]
      refine List.Sublist.append ?_ ih
      rw [List.map_append]
      exact List.sublist_append_left _ _
  obtain ⟨out, ho1, ho2, ho3⟩ := C73_printed_partial ((C41_iff_partial m).2 he.manifest.ok) hds hd4 hd5
  refine ⟨t, res, out, hct, hd1, ⟨?_, ?_⟩, ho1, ho2, ho3⟩
  · intro cid sid n
    rw [hrep res.tally hd2 cid sid n]
    unfold electionResult
    rw [hcnt]
    simp only [List.map_map]
    rfl
  · rw [List.forall₂_map_left_iff] at hd3 ⊢
    refine forall₂_imp_mem hd3 (fun v hv' e hve => ?_)
    obtain ⟨e1, e2, e3⟩ := hve
    rw [hbsid v hv'] at e1 e2
    exact ⟨e1, e2, fun cid sid k => (hball v hv').2.2 e.2 e3 cid sid k⟩

end EG
