import Verif.Model.SampleGenerator
import Verif.Spec.SampleGenerator
import Verif.Props.AuditQuorum
import Verif.Lemmas.SerializeRead

/-!
# Lemmas about the sample generator
-/

namespace EG

variable {E : Env}

/-- The states that the drawn numbers give, from the ballot number `i` on. -/
def StatesFrom (rate : Int) (drawn : Nat → Nat) : Nat → List VotedBallot → Prop
  | _, [] => True
  | i, v :: vs => v.state = (if ((drawn i % 101 : Nat) : Int) < rate then .spoiled else .cast) ∧ StatesFrom rate drawn (i + 1) vs

/-- Ballots can be given these states. -/
theorem give_states (rate : Int) (drawn : Nat → Nat) {json : ContestData → Bytes} {im : InternalManifest} {ctx : Context}
    (vs0 : List VotedBallot) (h : ∀ v ∈ vs0, v.Encrypted E json im ctx) (i : Nat) :
    ∃ vs : List VotedBallot, vs.map (fun v => v.enc) = vs0.map (fun v => v.enc) ∧ vs.map (fun v => v.plain) = vs0.map (fun v => v.plain) ∧
      (∀ v ∈ vs, v.Encrypted E json im ctx) ∧ StatesFrom rate drawn i vs := by
  induction vs0 generalizing i with
  | nil => exact ⟨[], rfl, rfl, by simp, trivial⟩
  | cons v vs0 ih =>
    obtain ⟨vs, h1, h2, h3, h4⟩ := ih (fun v hv => h v (List.mem_cons_of_mem _ hv)) (i + 1)
    refine ⟨{ v with state := if ((drawn i % 101 : Nat) : Int) < rate then .spoiled else .cast } :: vs, ?_, ?_, ?_, rfl, h4⟩
    · rw [List.map_cons, List.map_cons, h1]
    · rw [List.map_cons, List.map_cons, h2]
    · intro w hw
      rcases List.mem_cons.1 hw with rfl | hw
      · exact h v List.mem_cons_self
      · exact h3 w hw

theorem StatesFrom.either {rate : Int} {drawn : Nat → Nat} {i : Nat} {vs : List VotedBallot} (h : StatesFrom rate drawn i vs) :
    ∀ v ∈ vs, v.state = .cast ∨ v.state = .spoiled := by
  induction vs generalizing i with
  | nil => simp
  | cons v vs ih =>
    intro w hw
    rcases List.mem_cons.1 hw with rfl | hw
    · rw [h.1]
      split <;> simp
    · exact ih h.2 w hw

theorem StatesFrom.parts {rate : Int} {drawn : Nat → Nat} {i : Nat} {vs : List VotedBallot} (h : StatesFrom rate drawn i vs) :
    (vs.filter (fun v => decide (v.state = .cast))).map (fun v => v.plain)
      = (((vs.map (fun v => v.plain)).zipIdx i).filter (fun e => decide (rate ≤ ((drawn e.2 % 101 : Nat) : Int)))).map Prod.fst ∧
    (vs.filter (fun v => decide (v.state = .spoiled))).map (fun v => v.plain)
      = (((vs.map (fun v => v.plain)).zipIdx i).filter (fun e => decide (((drawn e.2 % 101 : Nat) : Int) < rate))).map Prod.fst := by
  induction vs generalizing i with
  | nil => exact ⟨rfl, rfl⟩
  | cons v vs ih =>
    obtain ⟨h1, h2⟩ := ih h.2
    rw [List.map_cons, List.zipIdx_cons, List.filter_cons, List.filter_cons, List.filter_cons, List.filter_cons, h.1]
    by_cases hlt : ((drawn i % 101 : Nat) : Int) < rate
    · have hle : ¬ rate ≤ ((drawn i % 101 : Nat) : Int) := by omega
      simp only [if_pos hlt, hlt, hle, decide_true, decide_false, if_true]
      exact ⟨by simpa using h1, by simpa using h2⟩
    · have hle : rate ≤ ((drawn i % 101 : Nat) : Int) := by omega
      simp only [if_neg hlt, hlt, hle, decide_true, decide_false, if_true]
      exact ⟨by simpa using h1, by simpa using h2⟩

theorem sample_length {α β : Type} (rate : Int) (drawn : Nat → Nat) (as : List α) (bs : List β) (h : as.length = bs.length) :
    (sampleCast rate drawn as).length = (sampleCast rate drawn bs).length := by
  unfold sampleCast
  rw [List.length_map, List.length_map]
  generalize 0 = i
  induction as generalizing bs i with
  | nil =>
    cases bs with
    | nil => rfl
    | cons b bs => cases h
  | cons a as ih =>
    cases bs with
    | nil => cases h
    | cons b bs =>
      rw [List.zipIdx_cons, List.zipIdx_cons, List.filter_cons, List.filter_cons]
      have := ih bs (i := i + 1) (by simpa using h)
      dsimp only
      split
      · rw [List.length_cons, List.length_cons, this]
      · exact this

/-- Casting or spoiling valid ballots one after the other. -/
theorem sampleSubmit_iff (im : InternalManifest) (ctx : Context) (rate : Int) (drawn : Nat → Nat) (vs : List VotedBallot) (i : Nat)
    (hid : ∀ v ∈ vs, v.enc.objectId = v.plain.objectId)
    (hval : ∀ v ∈ vs, ballotIsValidForElection E v.enc im ctx true = .ok true)
    (hst : StatesFrom rate drawn i vs) (store : Store SBallot) (r : List SBallot × Store SBallot) :
    sampleSubmit E im ctx rate drawn i (vs.map (fun v => v.enc)) store = .ok r ↔
      (vs.map (fun v => v.plain.objectId)).Nodup ∧ (∀ v ∈ vs, v.plain.objectId ∉ dkeys store) ∧
      r = (vs.map (fun v => submitBallot E v.enc v.state),
        store ++ vs.map (fun v => (v.plain.objectId, submitBallot E v.enc v.state))) := by
  induction vs generalizing store i r with
  | nil =>
    unfold sampleSubmit
    simp [eq_comm]
  | cons v vs ih =>
    have h1 := hid v List.mem_cons_self
    have h2 := hval v List.mem_cons_self
    have hd : randint (drawn i) 0 100 = .ok ((drawn i % 101 : Nat) : Int) := by
      unfold randint
      simp
    have hbox : (if ((drawn i % 101 : Nat) : Int) < rate then boxSpoil E im ctx store v.enc else boxCast E im ctx store v.enc)
        = submitBallotToBox E v.enc v.state im ctx store := by
      rw [hst.1]
      by_cases hs : ((drawn i % 101 : Nat) : Int) < rate
      · rw [if_pos hs, if_pos hs]; rfl
      · rw [if_neg hs, if_neg hs]; rfl
    rw [List.map_cons]
    unfold sampleSubmit
    simp only [hd, bind, Except.bind, hbox]
    unfold submitBallotToBox
    rw [h2, h1]
    cases hg : Store.get store v.plain.objectId with
    | some b =>
      simp only [getOptional]
      have hm : v.plain.objectId ∈ dkeys store := (mem_dkeys_iff _ _).2 ⟨b, hg⟩
      constructor
      · intro h; cases h
      · rintro ⟨-, h, -⟩; exact absurd hm (h v List.mem_cons_self)
    | none =>
      have hm : v.plain.objectId ∉ dkeys store := (dget_eq_none_iff _ _).1 hg
      have hset : Store.set store v.plain.objectId (submitBallot E v.enc v.state)
          = store ++ [(v.plain.objectId, submitBallot E v.enc v.state)] := dset_fresh _ hm
      simp only [submitBallot_objectId, h1, hset]
      have hget : Store.get (store ++ [(v.plain.objectId, submitBallot E v.enc v.state)]) v.plain.objectId
          = some (submitBallot E v.enc v.state) := by
        rw [← hset]
        unfold Store.get Store.set
        rw [dget_dset, if_pos rfl]
      rw [hget]
      simp only [getOptional]
      have hih := fun r => ih (i + 1) (fun w hw => hid w (List.mem_cons_of_mem _ hw)) (fun w hw => hval w (List.mem_cons_of_mem _ hw))
        hst.2 (store ++ [(v.plain.objectId, submitBallot E v.enc v.state)]) r
      cases hrest : sampleSubmit E im ctx rate drawn (i + 1) (vs.map (fun v => v.enc))
          (store ++ [(v.plain.objectId, submitBallot E v.enc v.state)]) with
      | error e =>
        constructor
        · intro h; cases h
        · rintro ⟨a, b, c⟩
          exfalso
          rw [List.map_cons, List.nodup_cons] at a
          have := (hih (vs.map (fun v => submitBallot E v.enc v.state), (store ++ [(v.plain.objectId, submitBallot E v.enc v.state)])
              ++ vs.map (fun v => (v.plain.objectId, submitBallot E v.enc v.state)))).2 ⟨a.2, ?_, rfl⟩
          · rw [hrest] at this
            cases this
          · intro w hw
            simp only [dkeys, List.map_append, List.map_cons, List.map_nil, List.mem_append, List.mem_singleton, not_or]
            refine ⟨b w (List.mem_cons_of_mem _ hw), fun hc => a.1 (List.mem_map.2 ⟨w, hw, hc⟩)⟩
      | ok r' =>
        have h3 := (hih r').1 hrest
        obtain ⟨a, b, rfl⟩ := h3
        simp only [pure, Except.pure, Except.ok.injEq]
        simp only [dkeys, List.map_append, List.map_cons, List.map_nil, List.mem_append, List.mem_singleton, not_or] at b
        constructor
        · rintro rfl
          refine ⟨?_, ?_, ?_⟩
          · rw [List.map_cons, List.nodup_cons]
            refine ⟨fun hc => ?_, a⟩
            obtain ⟨w, hw, he⟩ := List.mem_map.1 hc
            exact (b w hw).2 he
          · intro w hw
            rcases List.mem_cons.1 hw with rfl | hw
            · exact hm
            · exact (b w hw).1
          · simp
        · rintro ⟨-, -, rfl⟩
          simp

/-- What the generator does after the ballots are cast or spoiled. -/
theorem sample_rest (hv : E.P.Valid) (hpq : (E.P.q - 1) * (E.P.q - 1) < E.P.p)
    (loads : Bytes → R (List Char)) (quorum : Nat) (hq : 0 < quorum)
    (rands : String → List (Nat × Nat)) (kps : List ElectionKeyPair) (ht : Team E quorum rands kps)
    (horders : (kps.map (fun kp => kp.sequenceOrder)).Nodup) (sd : TallySeeds) (ctx : Context)
    (maxE : Nat) (hmaxE : 1 ≤ maxE) (json : ContestData → Bytes) (m : Manifest) (im : InternalManifest) (he : ElectionReady E m im)
    (hctx : ctx = makeContext E kps.length quorum (combinePublicKeys E.P (kps.map (fun kp => kp.share.key)))
      (hashElems E [.list ((kps.flatMap (fun kp => kp.share.commitments)).map HArg.elem)]) (m.cryptoHash E))
    (gs : List Guardian) (hequip : List.Forall₂ (Guardian.Equipped E loads rands kps) gs kps) (hmany : quorum ≤ kps.length)
    (vs : List VotedBallot) (hn : (vs.map (fun v => v.plain.objectId)).Nodup)
    (hvs : ∀ v ∈ vs, v.Encrypted E json im ctx ∧ ∃ d, im.StyleHas v.plain.styleId d)
    (hst : ∀ v ∈ vs, v.state = .cast ∨ v.state = .spoiled)
    (hsmall : (vs.filter (fun v => decide (v.state = .cast))).length < E.P.q)
    (hmax : (vs.filter (fun v => decide (v.state = .cast))).length ≤ maxE) (all : Bool) :
    ∃ t dm pt pts L, tallyBallots E im ctx true (stored E vs) = .ok (some t) ∧
      sampleSetup E loads sd ctx t
        ((vs.filter (fun v => decide (v.state = .spoiled))).map (fun v => submitBallot E v.enc v.state)) gs quorum all = .ok dm ∧
      dm.plaintextTally E maxE ctx t m = .ok (some pt) ∧
      dm.plaintextBallots E maxE ctx
        ((vs.filter (fun v => decide (v.state = .spoiled))).map (fun v => submitBallot E v.enc v.state)) m = .ok (some pts) ∧
      lagrangeForGuardians E.P (dm.available.map (·.2)) = .ok L ∧
      ∀ (constants : Constants) (devices : List Device) (ext : Option (List (String × String))) (v : RecordView),
        constants.params = E.P →
        v.Of (exportRecord m ctx ext constants devices (vs.map (fun v => submitBallot E v.enc v.state)) (pts.map (fun e => e.2)) t.publish
          pt (some (gs.map Guardian.publish)) L) →
        v.QuorumAudited E ∧ (all = true → v.Audited E) ∧
          v.Publishes im ((vs.filter (fun v => decide (v.state = .cast))).map (fun v => v.plain))
            ((vs.filter (fun v => decide (v.state = .spoiled))).map (fun v => v.plain)) := by
  have hown := equipped_own hequip
  have hshare : gs.map Guardian.shareKey = kps.map (fun kp => kp.share) := by
    rw [← hown, List.map_map]
    rfl
  have hpub : gs.map Guardian.publish = kps.map (fun kp => publishGuardianRecord kp.share) := by
    rw [← hown, List.map_map]
    rfl
  have hids : gs.map Guardian.id = kps.map (fun kp => kp.ownerId) := by
    rw [← hown, List.map_map]
    rfl
  have hgl : gs.length = kps.length := by rw [← hown, List.length_map]
  have hgnd : (gs.map Guardian.id).Nodup := by rw [hids]; exact ht.ids
  obtain ⟨avs, hav, hpres⟩ := C66_ceremony_present gs hequip (gs.take quorum) (fun g hg => List.mem_of_mem_take hg)
    (hgnd.sublist ((List.take_sublist _ _).map _))
  have hlav : quorum ≤ avs.length := by
    have := congrArg List.length hav
    rw [List.length_map, List.length_take] at this
    omega
  obtain ⟨t, dm, pt, pts, L, r1, r2, r3, r4, r5, r6⟩ := quorum_results hv hpq loads quorum hq rands kps ht horders sd ctx maxE hmaxE
    json m im he hctx avs hpres hlav (gs.map Guardian.shareKey) (List.Perm.of_eq hshare) vs hn hvs hst hsmall hmax
  cases all with
  | false =>
    refine ⟨t, dm, pt, pts, L, r1, ?_, r3, r4, r5, fun constants devices ext v hk hof => ?_⟩
    · unfold sampleSetup
      rw [hav] at r2
      simpa using r2
    · obtain ⟨a, b⟩ := r6 constants devices ext _ v hk (List.Perm.of_eq hpub) hof
      exact ⟨a, by simp, b⟩
  | true =>
    clear r2 r3 r4 r5 r6 hav hpres hlav avs dm pt pts L
    obtain ⟨avs, hav, hpres⟩ := C66_ceremony_present gs hequip gs (fun g hg => hg) hgnd
    have hall : (avs.map Prod.snd).Perm kps := by
      have : avs.map Prod.snd = gs.map (fun g => g.electionKeys) := by
        rw [← hav, List.map_map]
        exact List.map_congr_left (fun x hx => ((hpres.equipped x hx).2.own).symm)
      rw [this, hown]
    have hkey : ctx.elgamalPublicKey = combinePublicKeys E.P (kps.map (fun kp => kp.share.key)) := by rw [hctx]; rfl
    have hctx' : ctx.quorum = (quorum : Int) ∧ ctx.numberOfGuardians = (kps.length : Int) := by rw [hctx]; exact ⟨rfl, rfl⟩
    have hh : ctx.cryptoExtendedBaseHash < E.P.q := by
      rw [hctx]
      exact hashElems_lt (by have := hv.one_lt_q; omega) _
    have hres : isValidResidue E.P ctx.elgamalPublicKey = true := by
      have := combined_residue hv (ht.sharedKeys hv horders)
      rw [List.map_map] at this
      rw [hkey]
      exact this
    have hball := fun v (hv' : v ∈ vs) => ballot_core hv hpq maxE hmaxE json m im he ctx hres v (hvs v hv').1
    obtain ⟨t', res, out, hct, hcd, hright, -⟩ := cli_results hv hpq loads quorum hq rands kps ht horders sd ctx hctx' hh hkey maxE hmaxE
      json m im he avs hpres hall hmany vs hn hvs hsmall hmax
    have hf := firsts_of_nodup vs hn
    have hstore : (stored E vs).all = vs.map (fun v => submitBallot E v.enc v.state) := by
      unfold stored Store.all
      rw [hf, List.map_map]
      rfl
    obtain rfl : t = t' := by
      unfold tallyBallots at r1
      unfold cliTally at hct
      rw [hstore] at r1
      cases hb : (newTally E "election-results" im).batchAppend E im ctx true (vs.map (fun v => submitBallot E v.enc v.state)) true with
      | mk r t'' =>
        rw [hb] at r1 hct
        cases r with
        | error e => simp at r1
        | ok b =>
          cases b with
          | false => simp at r1
          | true =>
            simp only [Except.ok.injEq, Option.some.injEq] at r1 hct
            rw [← r1, hct]
    have hcd0 := hcd
    unfold cliDecrypt at hcd
    simp only [bindOk, pureOk] at hcd
    obtain ⟨dm, d1, L, d2, pt', d3, pt, d4, pts', d5, pts, d6, d7⟩ := hcd
    obtain rfl : pt' = some pt := by cases pt' <;> simp_all [getOptional]
    obtain rfl : pts' = some pts := by cases pts' <;> simp_all [getOptional]
    rw [cliAnnounce_eq hv ht sd ctx hh t _ (by
        rw [List.map_map]
        have : (vs.filter (fun v => decide (v.state = .spoiled))).map ((fun b : SBallot => b.objectId) ∘ fun v => submitBallot E v.enc v.state)
            = (vs.filter (fun v => decide (v.state = .spoiled))).map (fun v => v.plain.objectId) :=
          List.map_congr_left (fun v hv' => (hball v (List.mem_filter.1 hv').1).2.1)
        rw [this]
        exact hn.sublist (List.filter_sublist.map _))
      (by
        intro b hb
        obtain ⟨v, hv', rfl⟩ := List.mem_map.1 hb
        exact (hball v (List.mem_filter.1 hv').1).1.readable) avs hpres.equipped, ← performDecryptionSetup_eq, hav] at d1
    refine ⟨t, dm, pt, pts, L, r1, ?_, d3, d5, d2, fun constants devices ext v hk hof => ?_⟩
    · unfold sampleSetup
      simpa using d1
    · subst d7
      obtain ⟨ha, hp⟩ := exportRecord_audited hv hpq hq ht horders hmaxE he hctx hpres hall hmany hn hvs hsmall hmax hct hcd0 hk
        (v := v) (devices := devices) (ext := ext) (by rw [hav]; exact hof)
      have hp := hp hright (fun v hv' => (hball v hv').2.1) hst
      have hg := hof.guardians
      simp only [exportRecord, Option.getD_some] at hg
      rw [writeAll_snd _ _ _ (by
        rw [List.map_map]
        exact hgnd), hpub] at hg
      refine ⟨(C88_all_present v ha ?_ ?_ ?_).1, fun _ => ha, hp⟩
      · have hc : v.context = ctx := hof.context
        rw [hc, hctx'.1, hg.length_eq, List.length_map]
        exact_mod_cast hmany
      · rw [(hg.map _).nodup_iff, List.map_map]
        exact horders
      · intro g hg'
        obtain ⟨kp, hkp, rfl⟩ := List.mem_map.1 (hg.mem_iff.1 hg')
        have := ht.orders kp hkp
        show 0 ≤ kp.sequenceOrder ∧ kp.sequenceOrder < _
        omega

end EG
