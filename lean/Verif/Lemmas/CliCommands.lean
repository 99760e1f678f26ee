import Verif.Props.Cli
import Verif.Lemmas.ExportRecord

/-!
# Lemmas about the commands that work on files
-/

namespace EG

variable {E : Env}

theorem name_inj {pre suf a b : String} (h : pre ++ a ++ suf = pre ++ b ++ suf) : a = b := by
  have h' := congrArg String.toList h
  simp only [String.toList_append, List.append_assoc, List.append_cancel_left_eq, List.append_cancel_right_eq] at h'
  exact String.toList_inj.1 h'

theorem name_inj' {suf a b : String} (h : a ++ suf = b ++ suf) : a = b := by
  have h' := congrArg String.toList h
  simp only [String.toList_append, List.append_cancel_right_eq] at h'
  exact String.toList_inj.1 h'

/-- Writing files with distinct names that are not there yet. -/
theorem write_new {α : Type} (l : List α) (id : α → String) (pre suf : String) (f : α → CliFile) (dir : Dir)
    (hn : (l.map id).Nodup) (hd : ∀ x ∈ l, pre ++ id x ++ suf ∉ dkeys dir) :
    l.foldl (fun d x => dset d (pre ++ id x ++ suf) (f x)) dir = dir ++ l.map (fun x => (pre ++ id x ++ suf, f x)) := by
  refine foldl_dset_map (fun x => pre ++ id x ++ suf) f l dir ?_ hd
  have : l.map (fun x => pre ++ id x ++ suf) = (l.map id).map (fun s => pre ++ s ++ suf) := by rw [List.map_map]; rfl
  rw [this]
  exact hn.map (fun a b h => name_inj h)

theorem write_new' {α : Type} (l : List α) (id : α → String) (suf : String) (f : α → CliFile) (dir : Dir)
    (hn : (l.map id).Nodup) (hd : ∀ x ∈ l, id x ++ suf ∉ dkeys dir) :
    l.foldl (fun d x => dset d (id x ++ suf) (f x)) dir = dir ++ l.map (fun x => (id x ++ suf, f x)) := by
  refine foldl_dset_map (fun x => id x ++ suf) f l dir ?_ hd
  have : l.map (fun x => id x ++ suf) = (l.map id).map (fun s => s ++ suf) := by rw [List.map_map]; rfl
  rw [this]
  exact hn.map (fun a b h => name_inj' h)

/-! ### The guardians' files -/

/-- A guardian read back from its file. -/
theorem restored_equipped {loads : Bytes → R (List Char)} {rands : String → List (Nat × Nat)} {kps : List ElectionKeyPair}
    {g : Guardian} {kp : ElectionKeyPair} (hkp : kp ∈ kps) (h : g.Equipped E loads rands kps kp) (n quorum : Int) :
    (Guardian.fromPrivateRecord g.exportPrivate n quorum).Equipped E loads rands kps kp := by
  have hid : g.id = kp.ownerId := congrArg ElectionKeyPair.ownerId h.own
  have hsk : g.shareKey = kp.share := congrArg ElectionKeyPair.share h.own
  have hkeys : (Guardian.fromPrivateRecord g.exportPrivate n quorum).guardianKeys = dset g.guardianKeys g.id g.shareKey := rfl
  have hmem : g.id ∈ dkeys g.guardianKeys := by
    rw [hid]
    exact (mem_dkeys_iff _ _).2 ⟨_, h.keys kp hkp⟩
  refine ⟨h.own, fun kp' hkp' => ?_, ?_, fun kp' hkp' hne => h.backups kp' hkp' hne⟩
  · rw [hkeys, dget_dset]
    by_cases hc : g.id = kp'.ownerId
    · rw [if_pos hc, ← h.keys kp' hkp', ← hc, hid, h.keys kp hkp, hsk]
    · rw [if_neg hc]
      exact h.keys kp' hkp'
  · rw [hkeys, ← h.noOther]
    have : (dkeys (dset g.guardianKeys g.id g.shareKey)).length = (dkeys g.guardianKeys).length := by
      rw [dkeys_dset, if_pos hmem]
    simpa [dkeys] using this

theorem mapM_files {α β : Type} (f : CliFile → R α) (g : β → CliFile) (v : β → α) (l : List β) (h : ∀ x ∈ l, f (g x) = .ok (v x)) :
    (l.map g).mapM f = .ok (l.map v) := by
  induction l with
  | nil => rfl
  | cons a l ih =>
    rw [List.map_cons, List.mapM_cons, h a List.mem_cons_self, ih (fun x hx => h x (List.mem_cons_of_mem _ hx))]
    rfl

/-- A permutation of the images is the image of a permutation. -/
theorem perm_of_map {α β : Type} {f : α → β} {l : List α} {l' : List β} (h : l'.Perm (l.map f)) :
    ∃ p : List α, p.Perm l ∧ l' = p.map f := by
  induction l generalizing l' with
  | nil => exact ⟨[], .nil, h.eq_nil⟩
  | cons a l ih =>
    rw [List.map_cons] at h
    have hmem : f a ∈ l' := h.symm.subset List.mem_cons_self
    obtain ⟨s, t, rfl⟩ := List.append_of_mem hmem
    have h' : (s ++ t).Perm (l.map f) := by
      have h1 : (f a :: (s ++ t)).Perm (f a :: l.map f) := (List.perm_middle.symm).trans h
      exact (List.perm_cons _).1 h1
    obtain ⟨p, hp, he⟩ := ih h'
    obtain ⟨p1, p2, rfl, h1, h2⟩ := List.map_eq_append_iff.1 he.symm
    refine ⟨p1 ++ a :: p2, List.perm_middle.trans ((List.perm_cons _).2 hp), ?_⟩
    rw [List.map_append, List.map_cons, h1, h2]

/-! ### The submission -/

/-- Submitting a ballot again gives the same as submitting it once. -/
theorem submitBallot_again (b : CBallot) (st st' : BallotBoxState) :
    submitBallot E (submitBallot E b st).toCBallot st' = submitBallot E b st' := by
  have h : createBallotHash E b.objectId b.manifestHash (b.contests.map CContest.stripNonces)
      = createBallotHash E b.objectId b.manifestHash b.contests := by
    unfold createBallotHash sequenceOrderSort sortByInt
    rw [stableSort_map, List.map_map]
    rfl
  have h' : (b.contests.map CContest.stripNonces).map CContest.stripNonces = b.contests.map CContest.stripNonces := by
    rw [List.map_map]
    refine List.map_congr_left (fun c _ => ?_)
    simp [CContest.stripNonces, Function.comp_def]
  unfold createBallotHash at h
  unfold submitBallot makeSubmittedBallot
  simp only [Option.getD_some]
  rw [h, h']

/-- A ballot that was submitted is still a valid ballot of the election. -/
theorem submitted_valid (hv : E.P.Valid) (hpq : (E.P.q - 1) * (E.P.q - 1) < E.P.p) {json : ContestData → Bytes} {m : Manifest}
    {im : InternalManifest} (he : ElectionReady E m im) {ctx : Context} (hres : isValidResidue E.P ctx.elgamalPublicKey = true)
    {v : VotedBallot} (h1 : v.Encrypted E json im ctx) (h2 : ∃ d, im.StyleHas v.plain.styleId d) (st : BallotBoxState) :
    ballotIsValidForElection E (submitBallot E v.enc st).toCBallot im ctx true = .ok true := by
  obtain ⟨im', him', hids, hsorted, -, -, -, -⟩ := C40_unique_ids_partial E m he.manifest
  rw [he.internal] at him'
  cases him'
  obtain ⟨ds, hspec⟩ := encryptBallot_some hv hpq hres (fun d hd => by
    obtain ⟨-, -, -, -, hd, -⟩ := hd
    exact he.seats d hd) h1
  exact C34_validity_partial E v.enc st im ctx (hspec.nonempty h2) (hspec.sorted hsorted) (hspec.forElection hids hsorted h2)

/-- The ballots that `submit-ballots` reads stand for those of `vs`. -/
def StandsFor (E : Env) (im : InternalManifest) (ctx : Context) (x : CBallot) (v : VotedBallot) : Prop :=
  x.objectId = v.plain.objectId ∧ ballotIsValidForElection E x im ctx true = .ok true ∧ ∀ st, submitBallot E x st = submitBallot E v.enc st

/-- Submitting ballots that stand for valid ballots. -/
theorem submitLoop_stands (im : InternalManifest) (ctx : Context) (st : BallotBoxState)
    (box : Store SBallot → CBallot → R (Option SBallot) × Store SBallot)
    (hb : ∀ store b, box store b = submitBallotToBox E b st im ctx store) {xs : List CBallot} {vs : List VotedBallot}
    (hx : List.Forall₂ (StandsFor E im ctx) xs vs) (store : Store SBallot)
    (hn : (vs.map (fun v => v.plain.objectId)).Nodup) (hd : ∀ v ∈ vs, v.plain.objectId ∉ dkeys store) :
    submitLoop box xs store = .ok (store ++ vs.map (fun v => (v.plain.objectId, submitBallot E v.enc st))) := by
  induction hx generalizing store with
  | nil => simp [submitLoop]
  | @cons x v xs vs hx _ ih =>
    obtain ⟨h1, h2, h3⟩ := hx
    rw [List.map_cons, List.nodup_cons] at hn
    have hm := hd v List.mem_cons_self
    have hset : Store.set store v.plain.objectId (submitBallot E v.enc st)
        = store ++ [(v.plain.objectId, submitBallot E v.enc st)] := dset_fresh _ hm
    have hg : Store.get store v.plain.objectId = none := (dget_eq_none_iff _ _).2 hm
    have hi : (submitBallot E v.enc st).objectId = v.plain.objectId := by rw [← h3, submitBallot_objectId, h1]
    unfold submitLoop
    simp only [hb]
    unfold submitBallotToBox
    simp only [h2, h1, hg, h3, hi, hset, bind, Except.bind]
    have := ih (store ++ [(v.plain.objectId, submitBallot E v.enc st)]) hn.2 (by
        intro w hw hc
        simp only [dkeys, List.map_append, List.map_cons, List.map_nil, List.mem_append, List.mem_singleton] at hc
        rcases hc with hc | hc
        · exact hd w (List.mem_cons_of_mem _ hw) hc
        · exact hn.1 (hc ▸ List.mem_map_of_mem (f := fun v : VotedBallot => v.plain.objectId) hw))
    refine this.trans ?_
    simp

/-- What is read from files of ballots, or from those of the same ballots after they were submitted. -/
theorem files_stand {im : InternalManifest} {ctx : Context} {files : List CliFile} {vs : List VotedBallot}
    (h : List.Forall₂ (CliFile.SameBallot E) files (vs.map (fun v => .encrypted v.enc)))
    (hid : ∀ v ∈ vs, v.enc.objectId = v.plain.objectId)
    (hval : ∀ v ∈ vs, ballotIsValidForElection E v.enc im ctx true = .ok true)
    (hsub : ∀ v ∈ vs, ∀ st, ballotIsValidForElection E (submitBallot E v.enc st).toCBallot im ctx true = .ok true) :
    (∃ xs, files.mapM CliFile.asEncrypted = .ok xs ∧ List.Forall₂ (StandsFor E im ctx) xs vs) ∧
    files.map CliFile.ballotId = vs.map (fun v => some v.plain.objectId) := by
  induction vs generalizing files with
  | nil => cases h; exact ⟨⟨[], rfl, .nil⟩, rfl⟩
  | cons v vs ih =>
    rw [List.map_cons] at h
    cases h with
    | @cons f _ fs _ hf h =>
    obtain ⟨⟨xs, hxs, hst⟩, hids⟩ := ih h (fun w hw => hid w (List.mem_cons_of_mem _ hw)) (fun w hw => hval w (List.mem_cons_of_mem _ hw))
      (fun w hw => hsub w (List.mem_cons_of_mem _ hw))
    rcases hf with rfl | ⟨b, st, hb, rfl⟩
    · refine ⟨⟨v.enc :: xs, ?_, .cons ⟨hid v List.mem_cons_self, hval v List.mem_cons_self, fun _ => rfl⟩ hst⟩, ?_⟩
      · rw [List.mapM_cons, hxs]; rfl
      · rw [List.map_cons, hids, List.map_cons, ← hid v List.mem_cons_self]; rfl
    · cases hb
      refine ⟨⟨(submitBallot E v.enc st).toCBallot :: xs, ?_, .cons ⟨hid v List.mem_cons_self, hsub v List.mem_cons_self st,
        fun st' => submitBallot_again v.enc st st'⟩ hst⟩, ?_⟩
      · rw [List.mapM_cons, hxs]; rfl
      · rw [List.map_cons, hids, List.map_cons, ← hid v List.mem_cons_self]; rfl

/-- The calls of the ballot box that `submit` makes. -/
theorem submitLoop_run (im : InternalManifest) (ctx : Context) (st : BallotBoxState)
    (box : Store SBallot → CBallot → R (Option SBallot) × Store SBallot)
    (hb : ∀ store b, box store b = submitBallotToBox E b st im ctx store) (bs : List CBallot) (store store' : Store SBallot)
    (h : submitLoop box bs store = .ok store') : store' = runBox E im ctx store (bs.map (fun b => ⟨b, st⟩)) := by
  induction bs generalizing store with
  | nil => cases h; rfl
  | cons b bs ih =>
    unfold submitLoop at h
    simp only [hb, bind, Except.bind] at h
    cases hr : (submitBallotToBox E b st im ctx store).1 with
    | error e => rw [hr] at h; cases h
    | ok o =>
      rw [hr] at h
      exact ih _ h

/-! ### The election record -/

/-- Files of objects with distinct ids are all there. -/
theorem writeAll_snd {α : Type} (pre : String) (id : α → String) (l : List α) (hn : (l.map id).Nodup) :
    (writeAll pre id l).map Prod.snd = l := by
  unfold writeAll
  rw [foldl_dset_fresh (fun x => pre ++ id x ++ ".json") l [] ?_ (by simp [dkeys])]
  · rw [List.nil_append, List.map_map]
    exact List.map_id l
  · refine List.Nodup.of_map (fun n => n) ?_
    rw [List.map_id']
    have : l.map (fun x => pre ++ id x ++ ".json") = (l.map id).map (fun n => pre ++ n ++ ".json") := by rw [List.map_map]; rfl
    rw [this]
    exact hn.map (fun a b h => name_inj h)

theorem submit_noNonces (b : CBallot) (st : BallotBoxState) : (submitBallot E b st).toCBallot.NoNonces := by
  obtain ⟨-, h, -, -, -, -, -, -, hc⟩ := C34_content E b st
  refine ⟨h, fun c hc' => ?_⟩
  obtain ⟨c0, -, h1, -, -, -, -, -, -, -, h2⟩ := forall₂_left hc.flip hc'
  refine ⟨h1, fun s hs => ?_⟩
  obtain ⟨s0, -, h3, -⟩ := forall₂_left h2.flip hs
  exact h3

/-- A record with the ballots `vs`, and what it shows about them. -/
theorem publishes_of {im : InternalManifest} {vs : List VotedBallot} {v : RecordView}
    (hid : ∀ v ∈ vs, v.enc.objectId = v.plain.objectId) (hst : ∀ v ∈ vs, v.state = .cast ∨ v.state = .spoiled)
    (hb : v.ballots.Perm (vs.map (fun v => submitBallot E v.enc v.state))) (hreg : ∀ b ∈ v.ballots, b.toCBallot.Regular im)
    (hwf : WFContests v.encryptedTally.contests)
    (ht : v.tally.Counts im ((vs.filter (fun v => decide (v.state = .cast))).map (fun v => v.plain)))
    (ho : ∀ b ∈ (vs.filter (fun v => decide (v.state = .spoiled))).map (fun v => v.plain), ∃ pt ∈ v.spoiled, pt.Opens im b) :
    v.Publishes im ((vs.filter (fun v => decide (v.state = .cast))).map (fun v => v.plain))
      ((vs.filter (fun v => decide (v.state = .spoiled))).map (fun v => v.plain)) := by
  refine ⟨ht, ho, (hb.map _).trans ?_, ?_, hreg, hwf⟩
  · have hsplit : vs.Perm (vs.filter (fun v => decide (v.state = .cast)) ++ vs.filter (fun v => decide (v.state = .spoiled))) := by
      have : vs.filter (fun v => decide (v.state = .spoiled)) = vs.filter (fun v => !decide (v.state = .cast)) := by
        refine List.filter_congr (fun v hv' => ?_)
        rcases hst v hv' with h | h <;> rw [h] <;> rfl
      rw [this]
      exact (List.filter_append_perm _ _).symm
    refine ((hsplit.map _).map _).trans ?_
    rw [List.map_append, List.map_append]
    simp only [List.map_map]
    refine List.Perm.append (List.Perm.of_eq (List.map_congr_left (fun v hv' => ?_)))
      (List.Perm.of_eq (List.map_congr_left (fun v hv' => ?_)))
    · obtain ⟨a1, a2⟩ := List.mem_filter.1 hv'
      show (v.enc.objectId, v.state) = (v.plain.objectId, .cast)
      rw [hid v a1, of_decide_eq_true a2]
    · obtain ⟨a1, a2⟩ := List.mem_filter.1 hv'
      show (v.enc.objectId, v.state) = (v.plain.objectId, .spoiled)
      rw [hid v a1, of_decide_eq_true a2]
  · intro b hb'
    obtain ⟨v', -, rfl⟩ := List.mem_map.1 (hb.mem_iff.1 hb')
    exact submit_noNonces _ _

/-- The record of an election with the ballots `vs`. -/
theorem exportRecord_audited (hv : E.P.Valid) (hpq : (E.P.q - 1) * (E.P.q - 1) < E.P.p)
    {loads : Bytes → R (List Char)} {quorum : Nat} (hq : 0 < quorum)
    {rands : String → List (Nat × Nat)} {kps : List ElectionKeyPair} (ht : Team E quorum rands kps)
    (horders : (kps.map (fun kp => kp.sequenceOrder)).Nodup) {sd : TallySeeds} {ctx : Context}
    {maxE : Nat} (hmaxE : 1 ≤ maxE) {json : ContestData → Bytes} {m : Manifest} {im : InternalManifest} (he : ElectionReady E m im)
    (hctx : ctx = makeContext E kps.length quorum (combinePublicKeys E.P (kps.map (fun kp => kp.share.key)))
      (hashElems E [.list ((kps.flatMap (fun kp => kp.share.commitments)).map HArg.elem)]) (m.cryptoHash E))
    {avs : List (Guardian × ElectionKeyPair)} (hp : Present E loads rands kps avs)
    (hall : (avs.map Prod.snd).Perm kps) (hmany : quorum ≤ kps.length) {vs : List VotedBallot}
    (hn : (vs.map (fun v => v.plain.objectId)).Nodup)
    (hvs : ∀ v ∈ vs, v.Encrypted E json im ctx ∧ ∃ d, im.StyleHas v.plain.styleId d)
    (hsmall : (vs.filter (fun v => decide (v.state = .cast))).length < E.P.q)
    (hmax : (vs.filter (fun v => decide (v.state = .cast))).length ≤ maxE)
    {t : Tally} {res : DecryptResults}
    (hct : cliTally E im ctx (vs.map (fun v => submitBallot E v.enc v.state)) = .ok t)
    (hcd : cliDecrypt E sd maxE ctx t ((vs.filter (fun v => decide (v.state = .spoiled))).map (fun v => submitBallot E v.enc v.state))
      (avs.map Prod.fst) m = .ok res)
    {constants : Constants} (hk : constants.params = E.P) {devices : List Device} {ext : Option (List (String × String))}
    {v : RecordView} (hof : v.Of (exportRecord m ctx ext constants devices (vs.map (fun v => submitBallot E v.enc v.state))
      (res.spoiled.map (fun e => e.2)) res.ciphertextTally.publish res.tally (some ((avs.map Prod.fst).map Guardian.publish))
      res.lagrange)) :
    v.Audited E ∧ (res.Right im ((vs.filter (fun v => decide (v.state = .cast))).map (fun v => v.plain))
        ((vs.filter (fun v => decide (v.state = .spoiled))).map (fun v => v.plain)) →
      (∀ v ∈ vs, v.enc.objectId = v.plain.objectId) → (∀ v ∈ vs, v.state = .cast ∨ v.state = .spoiled) →
      v.Publishes im ((vs.filter (fun v => decide (v.state = .cast))).map (fun v => v.plain))
        ((vs.filter (fun v => decide (v.state = .spoiled))).map (fun v => v.plain))) := by
  have h0 : RecordView.Audited ⟨m, ctx, constants, (avs.map Prod.fst).map Guardian.publish,
      vs.map (fun v => submitBallot E v.enc v.state), res.spoiled.map (fun e => e.2), res.ciphertextTally.publish, res.tally,
      res.lagrange, devices⟩ E :=
    (record_audited hv hpq hq ht horders hmaxE he hctx hp hall hmany hn hvs hsmall hmax hct hcd rfl rfl hk
      (List.Perm.refl _) (List.Perm.refl _) (List.Perm.refl _) rfl rfl rfl).1
  have w1 := hof.guardians
  have w2 := hof.ballots
  have w3 := hof.spoiled
  simp only [exportRecord, Option.getD_some] at w1 w2 w3
  rw [writeAll_snd _ _ _ h0.guardianIds] at w1
  rw [writeAll_snd _ _ _ h0.ballotIds] at w2
  rw [writeAll_snd _ _ _ h0.spoiledIds] at w3
  obtain ⟨ha, hreg, hwf⟩ := record_audited hv hpq hq ht horders hmaxE he hctx hp hall hmany hn hvs hsmall hmax hct hcd hof.manifest
    hof.context ((congrArg _ hof.constants).trans hk) w1 w2 w3 hof.encryptedTally hof.tally hof.coefficients
  refine ⟨ha, fun hr hid hst => publishes_of hid hst w2 hreg hwf (by rw [hof.tally]; exact hr.tally) (fun b hb => ?_)⟩
  obtain ⟨e, he', -, h⟩ := forall₂_left hr.spoiled hb
  exact ⟨e.2, w3.mem_iff.2 (List.mem_map_of_mem he'), h⟩

end EG
