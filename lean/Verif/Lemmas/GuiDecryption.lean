import Verif.Spec.GuiDecryption
import Verif.Props.ShareProofs
import Verif.Props.DecryptionBallots
import Verif.Props.GuiBallots

/-!
# Lemmas about the decryption in the GUI
-/

namespace EG

variable {E : Env}

/-! ### Shares that a guardian computed -/

/-- The share of a guardian with a secret key for some contests, with its own proofs. -/
def GuiShare (E : Env) (baseHash secret pub : Nat) (cs : List CtContest) (sh : DecShare) : Prop :=
  sh.publicKey = pub ∧ List.Forall₂ (fun (s : CtSelection) (d : DecSelection) => d.objectId = s.objectId ∧
    d.share = s.ciphertext.pad ^ secret % E.P.p ∧ ∃ pf, d.proof = some pf ∧ d.recovered = none ∧
      pf.isValid E s.ciphertext pub d.share baseHash = true) (ctSelections cs) sh.allSelections

theorem collectById_all {α : Type} (key : α → String) (xs : List (Option α)) (d r : List (String × α))
    (h : collectById key xs d = some r) : ∃ ys : List α, xs = ys.map some := by
  induction xs generalizing d with
  | nil => exact ⟨[], rfl⟩
  | cons x xs ih =>
    cases x with
    | none => simp [collectById] at h
    | some x =>
      obtain ⟨ys, rfl⟩ := ih _ (by simpa [collectById] using h)
      exact ⟨x :: ys, rfl⟩

theorem shareForSelection_some {kp : ElectionKeyPair} {s : CtSelection} {ctx : Context} {seed : Nat} {d : DecSelection}
    (h : shareForSelection E kp s ctx seed = some d) :
    d = honestSelection E kp ctx.cryptoExtendedBaseHash s seed ∧
    (makeCP E s.ciphertext kp.keyPair.secret (s.ciphertext.partialDecrypt E.P kp.keyPair.secret) seed
      ctx.cryptoExtendedBaseHash).isValid E s.ciphertext kp.keyPair.pub
        (s.ciphertext.partialDecrypt E.P kp.keyPair.secret) ctx.cryptoExtendedBaseHash = true := by
  unfold shareForSelection partiallyDecrypt at h
  dsimp only at h
  split at h
  · next hc => cases h; exact ⟨rfl, hc⟩
  · cases h

theorem shareForContest_some {kp : ElectionKeyPair} {c : CtContest} {ctx : Context} {seeds : Nat → Nat} {d : DecContest}
    (hn : (c.selections.map (fun s => s.objectId)).Nodup) (h : shareForContest E true kp c ctx seeds = some d) :
    d = honestContest E kp ctx.cryptoExtendedBaseHash c seeds ∧
    ∀ e ∈ c.selections.zipIdx, shareForSelection E kp e.1 ctx (seeds e.2)
      = some (honestSelection E kp ctx.cryptoExtendedBaseHash e.1 (seeds e.2)) := by
  unfold shareForContest at h
  simp only [schedule, if_true, Option.map_eq_some_iff] at h
  obtain ⟨r, hr, rfl⟩ := h
  obtain ⟨ys, hys⟩ := collectById_all _ _ _ _ hr
  have hall : ∀ e ∈ c.selections.zipIdx, shareForSelection E kp e.1 ctx (seeds e.2)
      = some (honestSelection E kp ctx.cryptoExtendedBaseHash e.1 (seeds e.2)) := by
    intro e he
    have : shareForSelection E kp e.1 ctx (seeds e.2) ∈ ys.map some := by
      rw [← hys]; exact List.mem_map.2 ⟨e, he, rfl⟩
    obtain ⟨y, -, hy⟩ := List.mem_map.1 this
    rw [← hy, (shareForSelection_some hy.symm).1]
  refine ⟨?_, hall⟩
  have h1 : c.selections.zipIdx.map (fun e : CtSelection × Nat => shareForSelection E kp e.1 ctx (seeds e.2))
      = (c.selections.zipIdx.map (fun e : CtSelection × Nat =>
          honestSelection E kp ctx.cryptoExtendedBaseHash e.1 (seeds e.2))).map some := by
    rw [List.map_map]
    exact List.map_congr_left hall
  rw [h1, collectById_fresh] at hr
  · cases hr
    rw [honestContest, List.map_map]
    rfl
  · rw [List.map_map]
    have : c.selections.zipIdx.map ((fun s : DecSelection => s.objectId) ∘ fun e : CtSelection × Nat =>
        honestSelection E kp ctx.cryptoExtendedBaseHash e.1 (seeds e.2))
        = c.selections.map (fun s => s.objectId) := zipIdx_map_fst (fun s : CtSelection => s.objectId) _ _
    rw [this]
    exact hn

/-- A share that was computed is the guardian's own. -/
theorem shareForContests_some {kp : ElectionKeyPair} {objectId : String} {cs : List CtContest} {ctx : Context}
    {seeds : Nat → Nat → Nat} {sh : DecShare} (hids : DistinctIds cs)
    (h : shareForContests E true kp objectId cs ctx seeds = some sh) :
    sh.guardianId = kp.ownerId ∧ GuiShare E ctx.cryptoExtendedBaseHash kp.keyPair.secret kp.keyPair.pub cs sh := by
  unfold shareForContests at h
  simp only [Option.map_eq_some_iff] at h
  obtain ⟨r, hr, rfl⟩ := h
  obtain ⟨ys, hys⟩ := collectById_all _ _ _ _ hr
  have hall : ∀ e ∈ cs.zipIdx, shareForContest E true kp e.1 ctx (seeds e.2)
      = some (honestContest E kp ctx.cryptoExtendedBaseHash e.1 (seeds e.2)) ∧
      ∀ x ∈ e.1.selections.zipIdx, shareForSelection E kp x.1 ctx (seeds e.2 x.2)
        = some (honestSelection E kp ctx.cryptoExtendedBaseHash x.1 (seeds e.2 x.2)) := by
    intro e he
    have : shareForContest E true kp e.1 ctx (seeds e.2) ∈ ys.map some := by
      rw [← hys]; exact List.mem_map.2 ⟨e, he, rfl⟩
    obtain ⟨y, -, hy⟩ := List.mem_map.1 this
    have := shareForContest_some (nodup_selections hids (mem_of_zipIdx he)) hy.symm
    rw [← hy, this.1]
    exact ⟨rfl, this.2⟩
  have h1 : cs.zipIdx.map (fun e : CtContest × Nat => shareForContest E true kp e.1 ctx (seeds e.2))
      = (cs.zipIdx.map (fun e : CtContest × Nat =>
          honestContest E kp ctx.cryptoExtendedBaseHash e.1 (seeds e.2))).map some := by
    rw [List.map_map]
    exact List.map_congr_left (fun e he => (hall e he).1)
  have h2 : ((cs.zipIdx.map (fun e : CtContest × Nat =>
      honestContest E kp ctx.cryptoExtendedBaseHash e.1 (seeds e.2))).map (fun c : DecContest => c.objectId)).Nodup := by
    rw [List.map_map]
    have : cs.zipIdx.map ((fun c : DecContest => c.objectId) ∘ fun e : CtContest × Nat =>
        honestContest E kp ctx.cryptoExtendedBaseHash e.1 (seeds e.2))
        = cs.map (fun s => s.objectId) := zipIdx_map_fst (fun s : CtContest => s.objectId) _ _
    rw [this]
    exact hids.contests
  rw [h1, collectById_fresh _ _ h2] at hr
  cases hr
  refine ⟨rfl, rfl, ?_⟩
  unfold ctSelections DecShare.allSelections
  rw [List.map_map]
  refine forall₂_flatMap (R := fun (c : CtContest) (e : String × DecContest) =>
    ∃ sd, e.2 = honestContest E kp ctx.cryptoExtendedBaseHash c sd ∧
      ∀ x ∈ c.selections.zipIdx, shareForSelection E kp x.1 ctx (sd x.2)
        = some (honestSelection E kp ctx.cryptoExtendedBaseHash x.1 (sd x.2))) _ _ ?_ ?_
  · exact forall₂_zipIdx _ _ _ (fun e he => ⟨seeds e.2, rfl, (hall e he).2⟩)
  · rintro c e ⟨sd, he, hx⟩
    rw [he]
    simp only [honestContest, List.map_map]
    refine forall₂_zipIdx _ _ _ (fun e he => ?_)
    exact ⟨rfl, rfl, _, rfl, rfl, (shareForSelection_some (hx e he)).2⟩

/-! ### Shares of an earlier tally -/

/-- Contests with the same ids. -/
def SameIds (cs cs' : List CtContest) : Prop :=
  cs.map (fun c => (c.objectId, c.selections.map (fun s => s.objectId)))
    = cs'.map (fun c => (c.objectId, c.selections.map (fun s => s.objectId)))

theorem SameIds.contests {cs cs' : List CtContest} (h : SameIds cs cs') :
    cs.map (fun c => c.objectId) = cs'.map (fun c => c.objectId) := by
  have := congrArg (List.map Prod.fst) h
  simpa [List.map_map, Function.comp_def] using this

theorem SameIds.selections {cs cs' : List CtContest} (h : SameIds cs cs') :
    (ctSelections cs).map (fun s => s.objectId) = (ctSelections cs').map (fun s => s.objectId) := by
  have := congrArg (List.flatMap Prod.snd) h
  simpa [ctSelections, List.map_flatMap, List.flatMap_map] using this

theorem SameIds.distinct {cs cs' : List CtContest} (h : SameIds cs cs') (hd : DistinctIds cs) : DistinctIds cs' :=
  ⟨h.contests ▸ hd.contests, h.selections ▸ hd.selections⟩

theorem mem_proofTexts {baseHash : Nat} {sh : DecShare} {cs : List CtContest} {s : CtSelection} {x : DecSelection}
    {pf : CPProof} (hs : s ∈ ctSelections cs) (hx : x ∈ sh.allSelections) (hid : x.objectId = s.objectId)
    (hp : x.proof = some pf) :
    hashText E (cpHashArgs baseHash s.ciphertext pf.a pf.b x.share) ∈ proofTexts E baseHash sh cs := by
  refine List.mem_flatMap.2 ⟨s, hs, List.mem_filterMap.2 ⟨x, hx, ?_⟩⟩
  rw [if_pos hid, hp]
  rfl

/-- Decryption with shares that guardians made for an earlier tally with the same ids: if it gives a result, the result is
right, or there is a collision among the texts hashed for the proofs. -/
theorem stale_shares_right (hv : E.P.Valid) {maxE baseHash K : Nat} (cs : List CtContest)
    (shares : List (String × DecShare)) (sec pubs : String → Nat) (m : Manifest) (T : List (List Char))
    (hg : (shares.map (fun e => e.2.guardianId)).Nodup)
    (hsh : ∀ e ∈ shares, ∃ cs', SameIds cs cs' ∧
      GuiShare E baseHash (sec e.2.guardianId) (pubs e.2.guardianId) cs' e.2 ∧
      (∀ t ∈ proofTexts E baseHash e.2 cs', t ∈ T) ∧ ∀ t ∈ proofTexts E baseHash e.2 cs, t ∈ T)
    (hK : K = (shares.map (fun e => E.P.g ^ sec e.2.guardianId)).prod % E.P.p)
    (hdec : Decryptable E.P maxE K m cs) (objectId : String) (d : List (String × PTContest))
    (hrun : decryptContestsLoop E maxE shares baseHash m true cs [] = .ok (some d)) :
    PlaintextTally.Correct ⟨objectId, d⟩ E.P K m cs ∨ CollisionIn E T := by
  by_cases hT : CollisionIn E T
  · exact Or.inr hT
  left
  have hn : ∀ e ∈ shares, (e.2.allSelections.map (fun s => s.objectId)).Nodup := by
    intro e he
    obtain ⟨cs', hs, ho, -⟩ := hsh e he
    rw [forall₂_map_eq (fun s : CtSelection => s.objectId) (fun s : DecSelection => s.objectId) ho.2
      (fun a b h => h.1)]
    exact (hs.distinct hdec.ids).selections
  have hvalid := decryptContestsLoop_valid maxE shares baseHash m cs [] d hrun
  obtain ⟨d', hd', hc⟩ := decryptContests_core hv cs shares sec m (fun c hc s hs hdesc => by
    refine getShares_pick (E := E) (baseHash := baseHash) shares sec hg hn s (fun e he => ?_)
    obtain ⟨cs', hsame, ho, hT1, hT2⟩ := hsh e he
    have hmem : s ∈ ctSelections cs := List.mem_flatMap.2 ⟨c, hc, hs⟩
    have : s.objectId ∈ (ctSelections cs').map (fun s => s.objectId) := by
      rw [← hsame.selections]; exact List.mem_map.2 ⟨s, hmem, rfl⟩
    obtain ⟨s', hs', hid'⟩ := List.mem_map.1 this
    obtain ⟨x, hx, h1, h2, pf, h3, h4, h5⟩ := forall₂_exists ho.2 hs'
    have hxid : x.objectId = s.objectId := h1.trans hid'
    have hxv := hvalid c hc s hs hdesc (e.2.guardianId, (e.2.publicKey, x))
      (mem_of_dget (getShares_mem s.objectId shares e he hg x hx (hn e he) hxid))
    refine ⟨x, hx, hxid, ?_, hxv⟩
    have hxv' : pf.isValid E s.ciphertext e.2.publicKey x.share baseHash = true := by
      simpa [DecSelection.isValid, h3, h4] using hxv
    rcases C08_challenge_binds E hv _ _ _ _ _ _ _ _ pf pf h5 hxv' rfl with hb | hb
    · rw [← hb.2.1]; exact h2
    · refine absurd (hb.mono ?_) hT
      intro t ht
      rcases List.mem_cons.1 ht with rfl | ht
      · exact hT1 _ (mem_proofTexts hs' hx h1 h3)
      · rw [List.mem_singleton] at ht
        subst ht
        exact hT2 _ (mem_proofTexts hmem hx hxid h3)) hK hdec objectId
  rw [hrun] at hd'
  cases hd'
  exact hc

/-- If such a decryption gives a result, each guardian had decrypted just these ciphertexts. -/
theorem stale_shares_agree (hv : E.P.Valid) {maxE baseHash secret pub : Nat} (cs cs' : List CtContest)
    (shares : List (String × DecShare)) (m : Manifest) (T : List (List Char))
    (hg : (shares.map (fun e => e.2.guardianId)).Nodup) (e : String × DecShare) (he : e ∈ shares)
    (hids : DistinctIds cs) (hsame : SameIds cs cs') (ho : GuiShare E baseHash secret pub cs' e.2)
    (hT1 : ∀ t ∈ proofTexts E baseHash e.2 cs', t ∈ T) (hT2 : ∀ t ∈ proofTexts E baseHash e.2 cs, t ∈ T)
    (d : List (String × PTContest))
    (hrun : decryptContestsLoop E maxE shares baseHash m true cs [] = .ok (some d)) :
    (∀ c ∈ cs, ∀ s ∈ c.selections, Describes m c.objectId s.objectId →
      ∃ s' ∈ ctSelections cs', s'.objectId = s.objectId ∧ s'.ciphertext = s.ciphertext) ∨ CollisionIn E T := by
  by_cases hT : CollisionIn E T
  · exact Or.inr hT
  left
  intro c hc s hs hdesc
  have hn : (e.2.allSelections.map (fun s => s.objectId)).Nodup := by
    rw [forall₂_map_eq (fun s : CtSelection => s.objectId) (fun s : DecSelection => s.objectId) ho.2
      (fun a b h => h.1)]
    exact (hsame.distinct hids).selections
  have hmem : s ∈ ctSelections cs := List.mem_flatMap.2 ⟨c, hc, hs⟩
  have : s.objectId ∈ (ctSelections cs').map (fun s => s.objectId) := by
    rw [← hsame.selections]; exact List.mem_map.2 ⟨s, hmem, rfl⟩
  obtain ⟨s', hs', hid'⟩ := List.mem_map.1 this
  obtain ⟨x, hx, h1, h2, pf, h3, h4, h5⟩ := forall₂_exists ho.2 hs'
  have hxid : x.objectId = s.objectId := h1.trans hid'
  have hxv := decryptContestsLoop_valid maxE shares baseHash m cs [] d hrun c hc s hs hdesc
    (e.2.guardianId, (e.2.publicKey, x)) (mem_of_dget (getShares_mem s.objectId shares e he hg x hx hn hxid))
  have hxv' : pf.isValid E s.ciphertext e.2.publicKey x.share baseHash = true := by
    simpa [DecSelection.isValid, h3, h4] using hxv
  rcases C08_challenge_binds E hv _ _ _ _ _ _ _ _ pf pf h5 hxv' rfl with hb | hb
  · exact ⟨s', hs', hid', hb.2.1⟩
  · refine absurd (hb.mono ?_) hT
    intro t ht
    rcases List.mem_cons.1 ht with rfl | ht
    · exact hT1 _ (mem_proofTexts hs' hx h1 h3)
    · rw [List.mem_singleton] at ht
      subst ht
      exact hT2 _ (mem_proofTexts hmem hx hxid h3)

/-! ### The ids of a tally -/

theorem batchLoop_contests {m : InternalManifest} {ctx : Context} {v : Bool} (bs : List SBallot) (t : Tally)
    (d : BatchDict) : (batchLoop E m ctx v bs t d).2.contests = t.contests := by
  induction bs generalizing t d with
  | nil => rfl
  | cons b bs ih =>
    unfold batchLoop
    split
    · rfl
    · exact ih ..
    · split
      · exact ih ..
      · exact (ih ..).trans rfl
      · exact ih ..

theorem executeAccumulate_ids (P : Params) (d : BatchDict) (tcs : List (String × TallyContest)) :
    ((executeAccumulate P true d tcs).map (fun e => e.2.toCt)).map
        (fun c => (c.objectId, c.selections.map (fun s => s.objectId)))
      = (tcs.map (fun e => e.2.toCt)).map (fun c => (c.objectId, c.selections.map (fun s => s.objectId))) := by
  unfold executeAccumulate
  simp only [List.map_map]
  refine List.map_congr_left (fun e _ => ?_)
  simp only [Function.comp, TallyContest.toCt, List.map_map, Prod.mk.injEq, true_and]
  refine List.map_congr_left (fun x _ => ?_)
  simp only [Function.comp]
  split <;> rfl

theorem getTally_ids {m : Manifest} {ctx : Context} {bs bs' : List SBallot} {v v' : Bool} {t t' : Tally}
    (h : getTally E m ctx bs v = .ok t) (h' : getTally E m ctx bs' v' = .ok t') : SameIds t.toCts t'.toCts := by
  have key : ∀ bs v t, getTally E m ctx bs v = .ok t → ∃ im, mkInternalManifest E m = .ok im ∧
      t.toCts.map (fun c => (c.objectId, c.selections.map (fun s => s.objectId)))
        = ((buildTallyCollection E im).map (fun e => e.2.toCt)).map
            (fun c => (c.objectId, c.selections.map (fun s => s.objectId))) := by
    intro bs v t h
    unfold getTally at h
    cases him : mkInternalManifest E m with
    | error e => rw [him] at h; cases h
    | ok im =>
      rw [him] at h
      simp only [bind, Except.bind, Tally.batchAppend, Tally.batchAppendIter] at h
      have hc := batchLoop_contests (E := E) (m := im) (ctx := ctx) (v := v) bs (newTally E "election-results" im) []
      cases hb : batchLoop E im ctx v bs (newTally E "election-results" im) [] with
      | mk r t1 =>
        rw [hb] at h hc
        cases r with
        | error e => cases h
        | ok d =>
          cases h
          refine ⟨im, rfl, ?_⟩
          dsimp only at hc
          show ((executeAccumulate E.P true d t1.contests).map (fun e => e.2.toCt)).map _ = _
          rw [executeAccumulate_ids, hc]
          rfl
  obtain ⟨im, h1, h2⟩ := key _ _ _ h
  obtain ⟨im', h1', h2'⟩ := key _ _ _ h'
  rw [h1] at h1'
  cases h1'
  exact h2.trans h2'.symm

/-! ### Announcing the shares -/

/-- The name under which the shares of a guardian are announced. -/
def ElectionDoc.orderName (e : ElectionDoc) (id : String) : String :=
  match e.sequenceOrder id with
  | .ok o => toString o
  | .error _ => ""

/-- The key under which the shares of a guardian are announced. -/
def JoinedShare.named (e : ElectionDoc) (s : JoinedShare) : ElectionPublicKey :=
  { s.key with ownerId := e.orderName s.guardianId }

/-- The mediator after the shares `used` were announced. -/
structure Book (e : ElectionDoc) (used : List JoinedShare) (dm : DM) : Prop where
  available : dm.available = used.map (fun s => (e.orderName s.guardianId, s.named e))
  missing : dm.missing = []
  tally : dm.tallyShares = used.map (fun s => (e.orderName s.guardianId, s.tallyShare))
  ballots : ∀ bid, (dget dm.ballotShares bid).getD []
    = used.filterMap (fun s => (dget s.ballotShares bid).join.map (fun sh => (e.orderName s.guardianId, sh)))
  nodup : (used.map (fun s => e.orderName s.guardianId)).Nodup

theorem Book.init (e : ElectionDoc) : Book e [] DM.init :=
  ⟨rfl, rfl, rfl, fun _ => rfl, List.nodup_nil⟩

theorem Book.announce {e : ElectionDoc} {used : List JoinedShare} {dm : DM} (hb : Book e used dm) (s : JoinedShare)
    (hd : (dkeys s.ballotShares).Nodup) :
    (e.orderName s.guardianId ∈ used.map (fun s => e.orderName s.guardianId) ∧
      dm.announce (s.named e) s.tallyShare (some s.ballotShares) = dm) ∨
    (e.orderName s.guardianId ∉ used.map (fun s => e.orderName s.guardianId) ∧
      Book e (used ++ [s]) (dm.announce (s.named e) s.tallyShare (some s.ballotShares))) := by
  have hk : dkeys dm.available = used.map (fun s => e.orderName s.guardianId) := by
    rw [hb.available, dkeys, List.map_map]; rfl
  by_cases hm : e.orderName s.guardianId ∈ used.map (fun s => e.orderName s.guardianId)
  · left
    refine ⟨hm, ?_⟩
    unfold DM.announce
    rw [if_pos (by rw [hk]; exact hm)]
  · right
    refine ⟨hm, ?_⟩
    have hm' : (s.named e).ownerId ∉ dkeys dm.available := by rw [hk]; exact hm
    have ht : (s.named e).ownerId ∉ dkeys dm.tallyShares := by
      have : dkeys dm.tallyShares = used.map (fun s => e.orderName s.guardianId) := by
        rw [hb.tally, dkeys, List.map_map]; rfl
      rw [this]; exact hm
    unfold DM.announce
    rw [if_neg hm']
    refine ⟨?_, ?_, ?_, ?_, ?_⟩
    · show dset dm.available _ _ = _
      rw [dset_fresh _ hm', hb.available, List.map_append]; rfl
    · show ddel dm.missing _ = _
      rw [hb.missing]; rfl
    · show dset dm.tallyShares _ _ = _
      rw [dset_fresh _ ht, hb.tally, List.map_append]; rfl
    · intro bid
      have h5 := dget_foldl_update (fun (o : Option (List (String × DecShare))) (x : Option DecShare) =>
        match x with | some sh => dset (o.getD []) (s.named e).ownerId sh | none => o.getD []) s.ballotShares hd
        dm.ballotShares bid
      refine (congrArg (fun o => Option.getD o []) h5).trans ?_
      have hfresh : (s.named e).ownerId ∉ dkeys ((dget dm.ballotShares bid).getD []) := by
        rw [hb.ballots]
        intro hc
        obtain ⟨x, hx, hx2⟩ := List.mem_map.1 hc
        obtain ⟨u, hu, hu2⟩ := List.mem_filterMap.1 hx
        simp only [Option.map_eq_some_iff] at hu2
        obtain ⟨sh, -, rfl⟩ := hu2
        exact hm (List.mem_map.2 ⟨u, hu, hx2⟩)
      rw [List.filterMap_append, ← hb.ballots bid]
      cases hg : dget s.ballotShares bid with
      | none => simp [hg]
      | some x =>
        cases x with
        | none => simp [hg]
        | some sh =>
          simp only [List.filterMap_cons, hg, Option.join, List.filterMap_nil, Option.getD_some]
          rw [dset_fresh _ hfresh]
          rfl
    · rw [List.map_append, List.nodup_append]
      refine ⟨hb.nodup, by simp, ?_⟩
      intro a ha b hb' hab
      simp only [List.map_cons, List.map_nil, List.mem_singleton] at hb'
      subst hab
      subst hb'
      exact hm ha

theorem announceShares_book {e : ElectionDoc} (ss used : List JoinedShare) (dm dm' : DM) (hb : Book e used dm)
    (hd : ∀ s ∈ ss, (dkeys s.ballotShares).Nodup) (h : announceShares e ss dm = .ok dm') :
    ∃ used', Book e (used ++ used') dm' ∧ used'.Sublist ss ∧
      ∀ s ∈ ss, e.orderName s.guardianId ∈ (used ++ used').map (fun s => e.orderName s.guardianId) := by
  induction ss generalizing used dm with
  | nil =>
    cases h
    exact ⟨[], by simpa using hb, List.Sublist.refl _, by simp⟩
  | cons s ss ih =>
    unfold announceShares at h
    cases ho : e.sequenceOrder s.guardianId with
    | error x => rw [ho] at h; cases h
    | ok o =>
      rw [ho] at h
      simp only [bind, Except.bind] at h
      have hname : ({ s.key with ownerId := toString o } : ElectionPublicKey) = s.named e := by
        unfold JoinedShare.named ElectionDoc.orderName
        rw [ho]
      rw [hname] at h
      have hd' := fun s' hs' => hd s' (List.mem_cons_of_mem _ hs')
      rcases hb.announce s (hd s (List.mem_cons_self ..)) with ⟨hm, hsame⟩ | ⟨-, hb'⟩
      · rw [hsame] at h
        obtain ⟨u, h1, h2, h3⟩ := ih used dm hb hd' h
        refine ⟨u, h1, h2.cons _, ?_⟩
        intro x hx
        rcases List.mem_cons.1 hx with rfl | hx
        · rw [List.map_append]; exact List.mem_append_left _ hm
        · exact h3 x hx
      · obtain ⟨u, h1, h2, h3⟩ := ih _ _ hb' hd' h
        refine ⟨s :: u, by simpa using h1, h2.cons₂ _, ?_⟩
        intro x hx
        rcases List.mem_cons.1 hx with rfl | hx
        · simp
        · have := h3 x hx
          simpa using this

/-- If every guardian that joined is in the records, all shares are announced. -/
theorem announceShares_ok {e : ElectionDoc} (ss : List JoinedShare) (dm : DM)
    (h : ∀ s ∈ ss, ∃ o, e.sequenceOrder s.guardianId = .ok o) : ∃ dm', announceShares e ss dm = .ok dm' := by
  induction ss generalizing dm with
  | nil => exact ⟨dm, rfl⟩
  | cons s ss ih =>
    obtain ⟨o, ho⟩ := h s (List.mem_cons_self ..)
    unfold announceShares
    rw [ho]
    exact ih _ (fun s' hs' => h s' (List.mem_cons_of_mem _ hs'))

/-! ### What a guardian stores when it joins -/

/-- The shares that a guardian of the team makes from the ballots `bs` with their tally `t`. -/
structure JoinOf (E : Env) (e : ElectionDoc) (g : Guardian) (bs : List SBallot) (t : Tally) (js : JoinedShare) : Prop where
  user : js.guardianId = g.id
  key : js.key = g.shareKey
  tallied : getTally E e.manifest e.context bs false = .ok t
  tally : ∃ seeds, g.computeTallyShare E t e.context seeds = some js.tallyShare
  ballots : ∃ seeds, js.ballotShares = g.computeBallotShares E (spoiledOf bs) e.context seeds

theorem s1Compute_join {parse : List Char → Option SBallot} {net : Nat → Nat → Bool} {db : GuiDb} {eid user : String}
    {guardian : Option Guardian} {seeds : JoinSeeds} {js : JoinedShare} {t : Tally} {e : ElectionDoc}
    (he : dget db.elections eid = some e) (hu : ∀ g, guardian = some g → g.id = user)
    (h : s1Compute E parse net db eid user guardian seeds = .ok (js, t)) :
    ∃ g, guardian = some g ∧ JoinOf E e g (db.getBallots parse net eid) t js := by
  unfold s1Compute GuiDb.getElection at h
  rw [he] at h
  cases guardian with
  | none => cases h
  | some g =>
    simp only [bind, Except.bind] at h
    cases ht : getTally E e.manifest e.context (db.getBallots parse net eid) false with
    | error x => rw [ht] at h; cases h
    | ok t' =>
      rw [ht] at h
      dsimp only at h
      cases hs : g.computeTallyShare E t' e.context seeds.tally with
      | none => rw [hs] at h; cases h
      | some sh =>
        rw [hs] at h
        cases h
        exact ⟨g, rfl, (hu g rfl).symm, rfl, ht, ⟨_, hs⟩, ⟨_, rfl⟩⟩

theorem foldl_dset_get {α β : Type} (key : α → String) (f : α → β) (l : List α) (d : List (String × β)) :
    ((dkeys d).Nodup → (dkeys (l.foldl (fun d e => dset d (key e) (f e)) d)).Nodup) ∧
    ∀ k v, dget (l.foldl (fun d e => dset d (key e) (f e)) d) k = some v →
      dget d k = some v ∨ ∃ e ∈ l, key e = k ∧ v = f e := by
  induction l generalizing d with
  | nil => exact ⟨fun h => h, fun k v h => Or.inl h⟩
  | cons a l ih =>
    rw [List.foldl_cons]
    refine ⟨fun h => (ih _).1 (dset_nodup h _ _), fun k v h => ?_⟩
    rcases (ih _).2 k v h with h | ⟨e, he, h1, h2⟩
    · rw [dget_dset] at h
      by_cases hk : key a = k
      · rw [if_pos hk] at h
        cases h
        exact Or.inr ⟨a, List.mem_cons_self .., hk, rfl⟩
      · rw [if_neg hk] at h
        exact Or.inl h
    · exact Or.inr ⟨e, List.mem_cons_of_mem _ he, h1, h2⟩

theorem computeBallotShares_nodup (g : Guardian) (bs : List SBallot) (ctx : Context) (seeds : Nat → Nat → Nat → Nat) :
    (dkeys (g.computeBallotShares E bs ctx seeds)).Nodup :=
  (foldl_dset_get (fun e : SBallot × Nat => e.1.objectId)
    (fun e => computeBallotShare E true g.electionKeys e.1 ctx (seeds e.2)) bs.zipIdx []).1 List.nodup_nil

theorem computeBallotShares_get {g : Guardian} {bs : List SBallot} {ctx : Context} {seeds : Nat → Nat → Nat → Nat}
    {bid : String} {x : Option DecShare} (h : dget (g.computeBallotShares E bs ctx seeds) bid = some x) :
    ∃ b ∈ bs, b.objectId = bid ∧ ∃ sd, x = computeBallotShare E true g.electionKeys b ctx sd := by
  rcases (foldl_dset_get (fun e : SBallot × Nat => e.1.objectId)
    (fun e => computeBallotShare E true g.electionKeys e.1 ctx (seeds e.2)) bs.zipIdx []).2 bid x h with h | h
  · cases h
  · obtain ⟨e, he, h1, h2⟩ := h
    exact ⟨e.1, mem_of_zipIdx he, h1, _, h2⟩

/-! ### All guardians are there -/

/-- Shares of as many different guardians as there are in the team are shares of all of them. -/
theorem joint_of_shares (hv : E.P.Valid) {e : ElectionDoc} {team : List Guardian} (ht : ElectionTeam E.P e team)
    (shares : List (String × DecShare)) (hn : (shares.map (fun x => x.2.guardianId)).Nodup)
    (hm : ∀ x ∈ shares, ∃ g ∈ team, x.2.guardianId = g.id) (hl : shares.length = team.length) :
    e.context.elgamalPublicKey = (shares.map (fun x => E.P.g ^ secretOf (team.map (fun g => g.electionKeys))
      x.2.guardianId)).prod % E.P.p := by
  have hperm : (shares.map (fun x => x.2.guardianId)).Perm (team.map (fun g => g.id)) := by
    refine List.Subperm.perm_of_length_le (List.subperm_of_subset hn ?_) (by simp [hl])
    intro i hi
    obtain ⟨x, hx, rfl⟩ := List.mem_map.1 hi
    obtain ⟨g, hg, h⟩ := hm x hx
    exact List.mem_map.2 ⟨g, hg, h.symm⟩
  have hid : ((team.map (fun g => g.electionKeys)).map (fun kp => kp.ownerId)).Nodup := by
    rw [List.map_map]; exact ht.ids
  have h1 : (shares.map (fun x => E.P.g ^ secretOf (team.map (fun g => g.electionKeys)) x.2.guardianId)).prod
      = (team.map (fun g => E.P.g ^ g.electionKeys.keyPair.secret)).prod := by
    have := (hperm.map (fun i => E.P.g ^ secretOf (team.map (fun g => g.electionKeys)) i)).prod_eq
    rw [List.map_map, List.map_map] at this
    refine Eq.trans this ?_
    congr 1
    refine List.map_congr_left (fun g hg => ?_)
    have := secretOf_mem hid (List.mem_map.2 ⟨g, hg, rfl⟩)
    simp only [Function.comp]
    exact congrArg (fun n => E.P.g ^ n) this
  rw [h1, ht.joint]
  exact jointKey_eq hv team _ _ ht.keys

theorem filterMap_keys {α β : Type} (k : α → String) (f : α → Option β) (l : List α) :
    ((l.filterMap (fun s => (f s).map (fun x => (k s, x)))).map (fun e => e.1)).Sublist (l.map k) := by
  induction l with
  | nil => exact List.Sublist.refl _
  | cons a l ih =>
    rw [List.filterMap_cons, List.map_cons]
    cases f a with
    | none => exact ih.cons _
    | some x => exact ih.cons₂ _

theorem plaintextBallotsLoop_mem (maxE : Nat) (s : DM) (ctx : Context) (m : Manifest) (bs : List SBallot)
    (d r : List (String × PlaintextTally)) (h : plaintextBallotsLoop E maxE s ctx m bs d = .ok r) :
    ∀ x ∈ r, x ∈ d ∨ ∃ b ∈ bs, x.1 = b.objectId ∧ ∃ shares, dget s.ballotShares b.objectId = some shares ∧
      readyToDecrypt ctx shares = true ∧
      decryptBallotWithShares E maxE b shares ctx.cryptoExtendedBaseHash m = .ok (some x.2) := by
  induction bs generalizing d with
  | nil => cases h; exact fun x hx => Or.inl hx
  | cons b bs ih =>
    have ih' : ∀ d, plaintextBallotsLoop E maxE s ctx m bs d = .ok r → ∀ x ∈ r, x ∈ d ∨ ∃ b' ∈ b :: bs,
        x.1 = b'.objectId ∧ ∃ shares, dget s.ballotShares b'.objectId = some shares ∧
        readyToDecrypt ctx shares = true ∧
        decryptBallotWithShares E maxE b' shares ctx.cryptoExtendedBaseHash m = .ok (some x.2) := by
      intro d h x hx
      rcases ih d h x hx with h | ⟨b', hb', h⟩
      · exact Or.inl h
      · exact Or.inr ⟨b', List.mem_cons_of_mem _ hb', h⟩
    unfold plaintextBallotsLoop at h
    cases hs : dget s.ballotShares b.objectId with
    | none => rw [hs] at h; exact ih' d h
    | some shares =>
      rw [hs] at h
      dsimp only at h
      split at h
      · exact ih' d h
      · next hc =>
        simp only [bind, Except.bind] at h
        cases hp : decryptBallotWithShares E maxE b shares ctx.cryptoExtendedBaseHash m with
        | error e => rw [hp] at h; cases h
        | ok p =>
          rw [hp] at h
          cases p with
          | none => exact ih' d h
          | some p =>
            dsimp only at h
            have hid : p.objectId = b.objectId := by
              unfold decryptBallotWithShares at hp
              simp only [bind, Except.bind, pure, Except.pure] at hp
              split at hp
              · cases hp
              · next v _ =>
                cases v with
                | none => cases hp
                | some cs => cases hp; rfl
            intro x hx
            rcases ih' _ h x hx with h | h
            · rcases mem_dset h with rfl | h
              · refine Or.inr ⟨b, List.mem_cons_self .., hid, shares, hs, ?_, hp⟩
                simp only [Bool.or_eq_true, Bool.not_eq_true', not_or, Bool.not_eq_false] at hc
                exact hc.2
              · exact Or.inl h
            · exact Or.inr h

end EG
