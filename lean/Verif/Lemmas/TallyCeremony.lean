import Verif.Props.DecryptionBallots
import Verif.Props.Orchestrator
import Verif.Spec.TallyCeremony

/-!
# Lemmas about the tally ceremony
-/

namespace EG

variable {E : Env}

theorem getValid_spec {α : Type} (shares : List (String × Option α)) (hn : (dkeys shares).Nodup) :
    (dkeys (getValidBallotShares shares)).Nodup ∧
    ∀ k, dget (getValidBallotShares shares) k = (dget shares k).bind _root_.id := by
  unfold getValidBallotShares
  have gen : ∀ (l : List (String × Option α)) (d : List (String × α)), (dkeys l).Nodup → (dkeys d).Nodup →
      (dkeys (l.foldl (fun d e => match e.2 with | some s => dset d e.1 s | none => d) d)).Nodup ∧
      ∀ k, dget (l.foldl (fun d e => match e.2 with | some s => dset d e.1 s | none => d) d) k
        = match dget l k with | some (some s) => some s | _ => dget d k := by
    intro l
    induction l with
    | nil => intro d _ hd; exact ⟨hd, fun k => rfl⟩
    | cons e l ih =>
      intro d hl hd
      simp only [dkeys, List.map_cons, List.nodup_cons] at hl
      rw [List.foldl_cons]
      obtain ⟨k0, v⟩ := e
      have hnone : dget l k0 = none := (dget_eq_none_iff l k0).2 hl.1
      cases v with
      | none =>
        obtain ⟨h1, h2⟩ := ih d hl.2 hd
        refine ⟨h1, fun k => ?_⟩
        rw [h2 k, dget_cons]
        by_cases hk : k0 = k
        · subst hk; rw [hnone]; simp
        · rw [if_neg hk]
      | some s =>
        obtain ⟨h1, h2⟩ := ih (dset d k0 s) hl.2 (dset_nodup hd _ _)
        refine ⟨h1, fun k => ?_⟩
        rw [h2 k, dget_cons, dget_dset]
        by_cases hk : k0 = k
        · subst hk; rw [hnone]; simp
        · rw [if_neg hk, if_neg hk]
  obtain ⟨h1, h2⟩ := gen shares [] hn (by simp [dkeys])
  refine ⟨h1, fun k => (h2 k).trans ?_⟩
  cases dget shares k with
  | none => rfl
  | some o => cases o <;> rfl

/-- Setting the entries of some ballots. -/
theorem dget_foldl_ballots {α : Type} (g : SBallot × Nat → α) (bs : List SBallot)
    (hn : (bs.map (fun b => b.objectId)).Nodup) (d : List (String × α)) (hd : (dkeys d).Nodup) :
    (dkeys (bs.zipIdx.foldl (fun d e => dset d e.1.objectId (g e)) d)).Nodup ∧
    ∀ b ∈ bs, ∃ i, dget (bs.zipIdx.foldl (fun d e => dset d e.1.objectId (g e)) d) b.objectId = some (g (b, i)) := by
  have hnod : ∀ (l : List (SBallot × Nat)) (d : List (String × α)), (dkeys d).Nodup →
      (dkeys (l.foldl (fun d e => dset d e.1.objectId (g e)) d)).Nodup := by
    intro l
    induction l with
    | nil => exact fun d h => h
    | cons e l ih => exact fun d h => ih _ (dset_nodup h _ _)
  refine ⟨hnod _ d hd, fun b hb => ?_⟩
  obtain ⟨i, hi⟩ : ∃ i, (b, i) ∈ bs.zipIdx := by
    obtain ⟨i, hi, rfl⟩ := List.getElem_of_mem hb
    exact ⟨i, by rw [List.mem_zipIdx_iff_getElem?]; exact List.getElem?_eq_getElem hi⟩
  have hmap : bs.zipIdx.map (fun e => e.1.objectId) = bs.map (fun b => b.objectId) := by
    have : bs.zipIdx.map (fun e => e.1.objectId) = (bs.zipIdx.map Prod.fst).map (fun b => b.objectId) := by
      rw [List.map_map]; rfl
    rw [this, List.zipIdx_map_fst]
  refine ⟨i, ?_⟩
  have hfold : bs.zipIdx.foldl (fun d e => dset d e.1.objectId (g e)) d
      = (bs.zipIdx.map (fun e => (e.1.objectId, g e))).foldl
        (fun d e => dset d e.1 ((fun (_ : Option α) (v : α) => v) (dget d e.1) e.2)) d := by
    rw [List.foldl_map]
  have hkeys : dkeys (bs.zipIdx.map (fun e => (e.1.objectId, g e))) = bs.map (fun b => b.objectId) := by
    rw [← hmap]
    simp only [dkeys, List.map_map]
    rfl
  have h := dget_foldl_update (fun (_ : Option α) (v : α) => v) (bs.zipIdx.map (fun e => (e.1.objectId, g e)))
    (by rw [hkeys]; exact hn) d b.objectId
  rw [dget_of_mem (k := b.objectId) (v := g (b, i)) (by rw [hkeys]; exact hn)
    (List.mem_map.2 ⟨(b, i), hi, rfl⟩)] at h
  rw [hfold]
  exact h

/-- What a guardian needs to compute right shares of some encrypted contests. -/
def Readable (P : Params) (cs : List CtContest) : Prop :=
  DistinctIds cs ∧ ∀ s ∈ ctSelections cs, isValidResidue P s.ciphertext.pad = true ∧
    isValidResidue P s.ciphertext.data = true

theorem Team.secret_eq {quorum : Nat} {rands : String → List (Nat × Nat)} {kps : List ElectionKeyPair}
    (ht : Team E quorum rands kps) {kp : ElectionKeyPair} (hkp : kp ∈ kps) :
    kp.keyPair.secret = polyAt (coefOf rands kp.ownerId) 0 := by
  obtain ⟨-, -, -, -, hs⟩ := generateElectionKeyPair_ok (ht.generated kp hkp)
  unfold coefOf
  cases hr : (rands kp.ownerId).map Prod.fst with
  | nil => rw [hr] at hs; cases hs
  | cons a as => rw [hr] at hs; simp at hs; simp [polyAt, hs]

theorem Team.key_eq {quorum : Nat} {rands : String → List (Nat × Nat)} {kps : List ElectionKeyPair}
    (ht : Team E quorum rands kps) {kp : ElectionKeyPair} (hkp : kp ∈ kps) :
    kp.share.key = E.P.g ^ polyAt (coefOf rands kp.ownerId) 0 % E.P.p := by
  rw [← ht.secret_eq hkp]
  exact (C47_key_pair (ht.generated kp hkp)).2.2.2.2

theorem Team.sharedKeys (hv : E.P.Valid) {quorum : Nat} {rands : String → List (Nat × Nat)}
    {kps : List ElectionKeyPair} (ht : Team E quorum rands kps)
    (ho : (kps.map (fun kp => kp.sequenceOrder)).Nodup) :
    SharedKeys E.P quorum (kps.map (fun kp => kp.share)) (coefOf rands) := by
  have : Fact E.P.q.Prime := ⟨hv.q_prime⟩
  refine ⟨?_, ?_, ?_, ?_, ?_⟩
  · rw [List.map_map]; exact ht.ids
  · intro k hk
    obtain ⟨kp, hkp, rfl⟩ := List.mem_map.1 hk
    exact (ht.orders kp hkp).1
  · rw [List.map_map]
    refine (List.nodup_map_iff_inj_on (List.Nodup.of_map _ ho)).2 (fun a ha b hb h => ?_)
    refine List.inj_on_of_nodup_map ho ha hb ?_
    obtain ⟨a0, a1, _⟩ := ht.orders a ha
    obtain ⟨b0, b1, _⟩ := ht.orders b hb
    have h' : ((a.sequenceOrder.toNat : Nat) : ZMod E.P.q) = ((b.sequenceOrder.toNat : Nat) : ZMod E.P.q) := by
      have e1 : (a.sequenceOrder : ZMod E.P.q) = (b.sequenceOrder : ZMod E.P.q) := h
      rw [← Int.toNat_of_nonneg a0, ← Int.toNat_of_nonneg b0] at e1
      exact_mod_cast e1
    have := (castP_inj a1 b1).1 h'
    omega
  · intro k hk
    obtain ⟨kp, hkp, rfl⟩ := List.mem_map.1 hk
    exact ht.key_eq hkp
  · intro k hk
    obtain ⟨kp, hkp, rfl⟩ := List.mem_map.1 hk
    have := ht.coefficients kp hkp
    show ((coefOf rands kp.ownerId).length : Int) ≤ quorum
    simp [coefOf, this]

/-! ### The announcements -/

/-- One guardian computes its shares and announces. -/
theorem announce_one (hv : E.P.Valid) {loads : Bytes → R (List Char)} {quorum : Nat}
    {rands : String → List (Nat × Nat)} {kps : List ElectionKeyPair} (ht : Team E quorum rands kps) (sd : TallySeeds)
    (ctx : Context) (hh : ctx.cryptoExtendedBaseHash < E.P.q) (t : Tally) (bs : List SBallot)
    (hbs : (bs.map (fun b => b.objectId)).Nodup) (hrt : Readable E.P t.toCts) (hrb : ∀ b ∈ bs, Readable E.P b.toCts)
    (g : Guardian) (kp : ElectionKeyPair) (hkp : kp ∈ kps) (hg : g.Equipped E loads rands kps kp) :
    ∃ sh l, getOptional (g.computeTallyShare E t ctx (sd.tally g.id)) = .ok sh ∧
      (getValidBallotShares (g.computeBallotShares E bs ctx (sd.ballot g.id))).map (fun e => (e.1, some e.2)) = l ∧
      HonestOp E ctx.cryptoExtendedBaseHash t (kps.map (fun kp => kp.share)) (coefOf rands) (.announce g.shareKey sh (some l)) ∧
      HonestBallotOp E ctx.cryptoExtendedBaseHash bs (kps.map (fun kp => kp.share)) (coefOf rands)
        (.announce g.shareKey sh (some l)) := by
  have hown : g.electionKeys = kp := hg.own
  have hk : kp.keyPair.pub = E.P.g ^ kp.keyPair.secret % E.P.p := (C47_key_pair (ht.generated kp hkp)).2.2.2.2
  obtain ⟨sh, h1, h2, h3⟩ := C15_honest_share hv kp hk t ctx (sd.tally g.id) hh hrt.1 hrt.2
  have hsk : g.shareKey = kp.share := by unfold Guardian.shareKey; rw [hown]
  refine ⟨sh, _, ?_, rfl, ?_, ?_⟩
  · unfold Guardian.computeTallyShare
    rw [hown, h1]
    rfl
  · rw [hsk]
    refine ⟨List.mem_map_of_mem hkp, h2, ?_⟩
    have := ht.secret_eq hkp
    rw [this] at h3
    exact h3
  · rw [hsk]
    refine ⟨List.mem_map_of_mem hkp, _, rfl, ?_, ?_⟩
    all_goals
      have hcomp := dget_foldl_ballots (fun e : SBallot × Nat =>
        computeBallotShare E true g.electionKeys e.1 ctx (sd.ballot g.id e.2)) bs hbs [] (by simp [dkeys])
      have hval := getValid_spec (g.computeBallotShares E bs ctx (sd.ballot g.id)) hcomp.1
    · have : dkeys ((getValidBallotShares (g.computeBallotShares E bs ctx (sd.ballot g.id))).map (fun e => (e.1, some e.2)))
          = dkeys (getValidBallotShares (g.computeBallotShares E bs ctx (sd.ballot g.id))) := by
        simp only [dkeys, List.map_map]; rfl
      rw [this]
      exact hval.1
    · intro b hb
      obtain ⟨i, hi⟩ := hcomp.2 b hb
      obtain ⟨shb, k1, _, k2, k3⟩ := shareForContests_ok hv kp hk b.objectId b.toCts ctx (sd.ballot g.id i) hh (hrb b hb).1
        (hrb b hb).2
      refine ⟨shb, ?_, k2, ?_⟩
      · have hmap : ∀ d : List (String × DecShare), dget (d.map (fun e => (e.1, some e.2))) b.objectId
            = (dget d b.objectId).map some := by
          intro d
          induction d with
          | nil => rfl
          | cons e d ih =>
            rw [List.map_cons, dget_cons, dget_cons, ih]
            by_cases h : e.1 = b.objectId <;> simp [h]
        have hc : dget (g.computeBallotShares E bs ctx (sd.ballot g.id)) b.objectId = some (some shb) := by
          refine Eq.trans hi ?_
          simp only [hown]
          exact congrArg some k1
        rw [hmap, hval.2, hc]
        rfl
      · rw [ht.secret_eq hkp] at k3
        exact k3

theorem announceAvailable_spec (hv : E.P.Valid) {loads : Bytes → R (List Char)} {quorum : Nat}
    {rands : String → List (Nat × Nat)} {kps : List ElectionKeyPair} (ht : Team E quorum rands kps) (sd : TallySeeds)
    (ctx : Context) (hh : ctx.cryptoExtendedBaseHash < E.P.q) (t : Tally) (bs : List SBallot)
    (hbs : (bs.map (fun b => b.objectId)).Nodup) (hrt : Readable E.P t.toCts) (hrb : ∀ b ∈ bs, Readable E.P b.toCts)
    (avs : List (Guardian × ElectionKeyPair))
    (heq : ∀ x ∈ avs, x.2 ∈ kps ∧ x.1.Equipped E loads rands kps x.2) (m : DM) :
    ∃ ops : List DMOp, announceAvailable E sd ctx t bs (avs.map Prod.fst) m = .ok (ops.foldl (DM.step E.P) m) ∧
      (∀ op ∈ ops, HonestOp E ctx.cryptoExtendedBaseHash t (kps.map (fun kp => kp.share)) (coefOf rands) op ∧
        HonestBallotOp E ctx.cryptoExtendedBaseHash bs (kps.map (fun kp => kp.share)) (coefOf rands) op) ∧
      List.Forall₂ (fun (x : Guardian × ElectionKeyPair) op => ∃ sh l, op = DMOp.announce x.2.share sh l) avs ops := by
  induction avs generalizing m with
  | nil => exact ⟨[], rfl, by simp, .nil⟩
  | cons x avs ih =>
    obtain ⟨hx1, hx2⟩ := heq x (List.mem_cons_self ..)
    obtain ⟨sh, l, h1, h2, h3, h4⟩ := announce_one hv ht sd ctx hh t bs hbs hrt hrb x.1 x.2 hx1 hx2
    obtain ⟨ops, k1, k2, k3⟩ := ih (fun y hy => heq y (List.mem_cons_of_mem _ hy)) (m.announce x.1.shareKey sh (some l))
    refine ⟨.announce x.1.shareKey sh (some l) :: ops, ?_, ?_, ?_⟩
    · rw [List.map_cons]
      unfold announceAvailable
      rw [h1]
      simp only [bind, Except.bind, h2]
      exact k1
    · intro op hop
      rcases List.mem_cons.1 hop with rfl | hop
      · exact ⟨h3, h4⟩
      · exact k2 op hop
    · refine .cons ⟨sh, some l, ?_⟩ k3
      unfold Guardian.shareKey
      rw [hx2.own]

/-! ### The compensated shares -/

theorem compBallotLoop_eq (g : Guardian) (c : Nat) (missing : ElectionPublicKey) (ctx : Context)
    (seeds : Nat → Nat → Nat → Nat) (l : List (SBallot × Nat)) (d : List (String × Option CompShare)) :
    compBallotLoop E g (some c) missing ctx seeds l d
      = .ok (l.foldl (fun d e => dset d e.1.objectId
          (computeCompBallotShare E true c missing g.shareKey e.1 ctx (seeds e.2))) d) := by
  induction l generalizing d with
  | nil => rfl
  | cons e l ih =>
    obtain ⟨b, i⟩ := e
    unfold compBallotLoop
    simp only [getOptional, bind, Except.bind]
    rw [ih]
    rfl

/-- One available guardian compensates for one missing guardian. -/
theorem compensate_one (hv : E.P.Valid) {loads : Bytes → R (List Char)} {quorum : Nat}
    {rands : String → List (Nat × Nat)} {kps : List ElectionKeyPair} (ht : Team E quorum rands kps) (sd : TallySeeds)
    (ctx : Context) (hh : ctx.cryptoExtendedBaseHash < E.P.q) (t : Tally) (bs : List SBallot)
    (hbs : (bs.map (fun b => b.objectId)).Nodup) (hrt : Readable E.P t.toCts) (hrb : ∀ b ∈ bs, Readable E.P b.toCts)
    (g : Guardian) (kp kp' : ElectionKeyPair) (hkp : kp ∈ kps) (hkp' : kp' ∈ kps) (hne : kp'.ownerId ≠ kp.ownerId)
    (hg : g.Equipped E loads rands kps kp) :
    ∃ sh l cs, g.computeCompTallyShare E loads kp'.ownerId t ctx (sd.compTally g.id kp'.ownerId) = .ok (some sh) ∧
      g.computeCompBallotShares E loads kp'.ownerId bs ctx (sd.compBallot g.id kp'.ownerId) = .ok l ∧
      getValidBallotShares l = cs ∧
      (HonestOp E ctx.cryptoExtendedBaseHash t (kps.map (fun kp => kp.share)) (coefOf rands) (.receiveTallyComp sh) ∧
        sh.guardianId = kp.ownerId ∧ sh.missingId = kp'.ownerId) ∧
      HonestBallotOp E ctx.cryptoExtendedBaseHash bs (kps.map (fun kp => kp.share)) (coefOf rands)
        (.receiveBallotComp cs) ∧
      ∀ b ∈ bs, ∃ c, dget cs b.objectId = some c ∧ c.guardianId = kp.ownerId ∧ c.missingId = kp'.ownerId := by
  have hown : g.electionKeys = kp := hg.own
  have hsk : g.shareKey = kp.share := by unfold Guardian.shareKey; rw [hown]
  obtain ⟨bk, hb1, hb2⟩ := hg.backups kp' hkp' hne
  have hkey := hg.keys kp' hkp'
  have hcom : kp'.share.commitments = (coefOf rands kp'.ownerId).map (fun a => E.P.g ^ a % E.P.p) :=
    (C47_key_pair (ht.generated kp' hkp')).2.2.1
  have hpos : 0 ≤ kp.share.sequenceOrder := (ht.orders kp hkp).1
  obtain ⟨sh, h1, h2, h3, h4⟩ := C15_honest_compensation hv (coefOf rands kp'.ownerId) kp.share kp'.share hcom hpos t ctx
    (sd.compTally g.id kp'.ownerId) hh hrt.1 hrt.2
  set y := polyAt (coefOf rands kp'.ownerId) kp.share.sequenceOrder.toNat % E.P.q with hy
  have hb2' : g.decryptBackup E loads bk = .ok (some y) := hb2
  have hbal : g.computeCompBallotShares E loads kp'.ownerId bs ctx (sd.compBallot g.id kp'.ownerId)
      = .ok (bs.zipIdx.foldl (fun d e => dset d e.1.objectId
          (computeCompBallotShare E true y kp'.share g.shareKey e.1 ctx (sd.compBallot g.id kp'.ownerId e.2)))
          (bs.foldl (fun d b => dset d b.objectId none) [])) := by
    unfold Guardian.computeCompBallotShares
    simp only [hkey, hb1, hb2', bind, Except.bind]
    exact compBallotLoop_eq ..
  have hinit : ∀ (l : List SBallot) (d : List (String × Option CompShare)), (dkeys d).Nodup →
      (dkeys (l.foldl (fun d b => dset d b.objectId none) d)).Nodup := by
    intro l
    induction l with
    | nil => exact fun d h => h
    | cons e l ih => exact fun d h => ih _ (dset_nodup h _ _)
  have hcomp := dget_foldl_ballots (fun e : SBallot × Nat =>
      computeCompBallotShare E true y kp'.share g.shareKey e.1 ctx (sd.compBallot g.id kp'.ownerId e.2)) bs hbs
      (bs.foldl (fun d b => dset d b.objectId none) []) (hinit bs [] (by simp [dkeys]))
  have hval := getValid_spec _ hcomp.1
  have hball : ∀ b ∈ bs, ∃ c, dget (getValidBallotShares (bs.zipIdx.foldl (fun d e => dset d e.1.objectId
          (computeCompBallotShare E true y kp'.share g.shareKey e.1 ctx (sd.compBallot g.id kp'.ownerId e.2)))
          (bs.foldl (fun d b => dset d b.objectId none) []))) b.objectId = some c ∧ c.guardianId = kp.ownerId ∧
      c.missingId = kp'.ownerId ∧ CompFor E ctx.cryptoExtendedBaseHash y b.toCts c := by
    intro b hb
    obtain ⟨i, hi⟩ := hcomp.2 b hb
    obtain ⟨c, k1, _, k2, k3, k4⟩ := compForContests_ok hv (recoveryKey_right hv (coefOf rands kp'.ownerId) hcom hpos)
      b.objectId b.toCts ctx (sd.compBallot g.id kp'.ownerId i) hh (hrb b hb).1 (hrb b hb).2
    refine ⟨c, ?_, k2, k3, k4⟩
    rw [hval.2, hi]
    simp only [hsk]
    exact k1
  refine ⟨sh, _, _, ?_, hbal, rfl, ⟨⟨kp.share, List.mem_map_of_mem hkp, kp'.share, List.mem_map_of_mem hkp', h2, h3, h4⟩,
    h2, h3⟩, ⟨hval.1, ?_⟩, ?_⟩
  · unfold Guardian.computeCompTallyShare
    simp only [hkey, hb1, hb2', bind, Except.bind, getOptional, pure, Except.pure]
    rw [hsk]
    exact congrArg Except.ok h1
  · intro b hb c hc
    obtain ⟨c', k1, k2, k3, k4⟩ := hball b hb
    rw [hc] at k1
    cases k1
    exact ⟨kp.share, List.mem_map_of_mem hkp, kp'.share, List.mem_map_of_mem hkp', k2, k3, k4⟩
  · intro b hb
    obtain ⟨c, k1, k2, k3, _⟩ := hball b hb
    exact ⟨c, k1, k2, k3⟩


theorem receivedPairs_append (a b : List DMOp) : receivedPairs (a ++ b) = receivedPairs a ++ receivedPairs b := by
  unfold receivedPairs; rw [List.filterMap_append]

theorem receivedBallotPairs_append (i : String) (a b : List DMOp) :
    receivedBallotPairs i (a ++ b) = receivedBallotPairs i a ++ receivedBallotPairs i b := by
  unfold receivedBallotPairs; rw [List.filterMap_append]

/-- The calls leave the lists of available and missing guardians alone. -/
def KeepsGuardians : DMOp → Prop
  | .receiveTallyComp _ => True
  | .receiveBallotComp _ => True
  | _ => False

theorem foldl_keeps (P : Params) (ops : List DMOp) (h : ∀ op ∈ ops, KeepsGuardians op) (m : DM) :
    (ops.foldl (DM.step P) m).available = m.available ∧ (ops.foldl (DM.step P) m).missing = m.missing := by
  induction ops generalizing m with
  | nil => exact ⟨rfl, rfl⟩
  | cons op ops ih =>
    obtain ⟨h1, h2⟩ := ih (fun o ho => h o (List.mem_cons_of_mem _ ho)) (m.step P op)
    rw [List.foldl_cons, h1, h2]
    have := h op (List.mem_cons_self ..)
    cases op with
    | receiveTallyComp c => exact ⟨rfl, rfl⟩
    | receiveBallotComp c => exact ⟨rfl, rfl⟩
    | _ => exact absurd this _root_.id

theorem sendCompensation_spec (hv : E.P.Valid) {loads : Bytes → R (List Char)} {quorum : Nat}
    {rands : String → List (Nat × Nat)} {kps : List ElectionKeyPair} (ht : Team E quorum rands kps) (sd : TallySeeds)
    (ctx : Context) (hh : ctx.cryptoExtendedBaseHash < E.P.q) (t : Tally) (bs : List SBallot)
    (hbs : (bs.map (fun b => b.objectId)).Nodup) (hrt : Readable E.P t.toCts) (hrb : ∀ b ∈ bs, Readable E.P b.toCts)
    (g : Guardian) (kp : ElectionKeyPair) (hkp : kp ∈ kps) (hg : g.Equipped E loads rands kps kp)
    (ks : List ElectionPublicKey)
    (hks : ∀ k ∈ ks, ∃ kp' ∈ kps, k = kp'.share ∧ kp'.ownerId ≠ kp.ownerId) (m : DM) :
    ∃ ops : List DMOp, sendCompensation E loads sd ctx t bs g ks m = .ok (ops.foldl (DM.step E.P) m) ∧
      (∀ op ∈ ops, KeepsGuardians op ∧
        HonestOp E ctx.cryptoExtendedBaseHash t (kps.map (fun kp => kp.share)) (coefOf rands) op ∧
        HonestBallotOp E ctx.cryptoExtendedBaseHash bs (kps.map (fun kp => kp.share)) (coefOf rands) op) ∧
      receivedPairs ops = ks.map (fun k => (kp.ownerId, k.ownerId)) ∧
      ∀ b ∈ bs, receivedBallotPairs b.objectId ops = ks.map (fun k => (kp.ownerId, k.ownerId)) := by
  induction ks generalizing m with
  | nil => exact ⟨[], rfl, by simp, rfl, fun _ _ => rfl⟩
  | cons k ks ih =>
    obtain ⟨kp', hkp', rfl, hne⟩ := hks k (List.mem_cons_self ..)
    obtain ⟨sh, l, cs, h1, h2, h3, h4, h5, h6⟩ := compensate_one hv ht sd ctx hh t bs hbs hrt hrb g kp kp' hkp hkp' hne hg
    obtain ⟨ops, k1, k2, k3, k4⟩ := ih (fun x hx => hks x (List.mem_cons_of_mem _ hx))
      ((m.receiveTallyComp sh).receiveBallotComp cs)
    refine ⟨.receiveTallyComp sh :: .receiveBallotComp cs :: ops, ?_, ?_, ?_, ?_⟩
    · unfold sendCompensation
      have h1' : g.computeCompTallyShare E loads kp'.share.ownerId t ctx (sd.compTally g.id kp'.share.ownerId)
          = .ok (some sh) := h1
      have h2' : g.computeCompBallotShares E loads kp'.share.ownerId bs ctx (sd.compBallot g.id kp'.share.ownerId)
          = .ok l := h2
      rw [h1']
      simp only [bind, Except.bind]
      rw [h2']
      simp only [h3]
      exact k1
    · intro op hop
      rcases List.mem_cons.1 hop with rfl | hop
      · exact ⟨trivial, h4.1, trivial⟩
      · rcases List.mem_cons.1 hop with rfl | hop
        · exact ⟨trivial, trivial, h5⟩
        · exact k2 op hop
    · have : receivedPairs (.receiveTallyComp sh :: .receiveBallotComp cs :: ops)
          = (sh.guardianId, sh.missingId) :: receivedPairs ops := rfl
      rw [this, k3, h4.2.1, h4.2.2]
      rfl
    · intro b hb
      obtain ⟨c, c1, c2, c3⟩ := h6 b hb
      have : receivedBallotPairs b.objectId (.receiveTallyComp sh :: .receiveBallotComp cs :: ops)
          = (c.guardianId, c.missingId) :: receivedBallotPairs b.objectId ops := by
        unfold receivedBallotPairs
        rw [List.filterMap_cons, List.filterMap_cons]
        simp only [c1, Option.map_some]
      rw [this, k4 b hb, c2, c3]
      rfl

theorem compensations_spec (hv : E.P.Valid) {loads : Bytes → R (List Char)} {quorum : Nat}
    {rands : String → List (Nat × Nat)} {kps : List ElectionKeyPair} (ht : Team E quorum rands kps) (sd : TallySeeds)
    (ctx : Context) (hh : ctx.cryptoExtendedBaseHash < E.P.q) (t : Tally) (bs : List SBallot)
    (hbs : (bs.map (fun b => b.objectId)).Nodup) (hrt : Readable E.P t.toCts) (hrb : ∀ b ∈ bs, Readable E.P b.toCts)
    (ks : List ElectionPublicKey) (avs : List (Guardian × ElectionKeyPair))
    (heq : ∀ x ∈ avs, x.2 ∈ kps ∧ x.1.Equipped E loads rands kps x.2)
    (hks : ∀ k ∈ ks, ∃ kp' ∈ kps, k = kp'.share ∧ ∀ x ∈ avs, kp'.ownerId ≠ x.2.ownerId) (m : DM) :
    ∃ ops : List DMOp, (avs.map Prod.fst).foldlM (fun m g => sendCompensation E loads sd ctx t bs g ks m) m
        = .ok (ops.foldl (DM.step E.P) m) ∧
      (∀ op ∈ ops, KeepsGuardians op ∧
        HonestOp E ctx.cryptoExtendedBaseHash t (kps.map (fun kp => kp.share)) (coefOf rands) op ∧
        HonestBallotOp E ctx.cryptoExtendedBaseHash bs (kps.map (fun kp => kp.share)) (coefOf rands) op) ∧
      receivedPairs ops = avs.flatMap (fun x => ks.map (fun k => (x.2.ownerId, k.ownerId))) ∧
      ∀ b ∈ bs, receivedBallotPairs b.objectId ops = avs.flatMap (fun x => ks.map (fun k => (x.2.ownerId, k.ownerId))) := by
  induction avs generalizing m with
  | nil => exact ⟨[], rfl, by simp, rfl, fun _ _ => rfl⟩
  | cons x avs ih =>
    obtain ⟨hx1, hx2⟩ := heq x (List.mem_cons_self ..)
    obtain ⟨o1, a1, a2, a3, a4⟩ := sendCompensation_spec hv ht sd ctx hh t bs hbs hrt hrb x.1 x.2 hx1 hx2 ks
      (fun k hk => by
        obtain ⟨kp', h1, h2, h3⟩ := hks k hk
        exact ⟨kp', h1, h2, h3 x (List.mem_cons_self ..)⟩) m
    obtain ⟨o2, b1, b2, b3, b4⟩ := ih (fun y hy => heq y (List.mem_cons_of_mem _ hy))
      (fun k hk => by
        obtain ⟨kp', h1, h2, h3⟩ := hks k hk
        exact ⟨kp', h1, h2, fun y hy => h3 y (List.mem_cons_of_mem _ hy)⟩) (o1.foldl (DM.step E.P) m)
    refine ⟨o1 ++ o2, ?_, ?_, ?_, ?_⟩
    · rw [List.map_cons, List.foldlM_cons, a1]
      simp only [bind, Except.bind]
      rw [List.foldl_append]
      exact b1
    · intro op hop
      rcases List.mem_append.1 hop with h | h
      · exact a2 op h
      · exact b2 op h
    · rw [receivedPairs_append, a3, b3, List.flatMap_cons]
    · intro b hb
      rw [receivedBallotPairs_append, a4 b hb, b4 b hb, List.flatMap_cons]

/-! ### The lists of guardians -/

theorem announces_fields (P : Params) (avs : List (Guardian × ElectionKeyPair)) (ops : List DMOp)
    (h : List.Forall₂ (fun (x : Guardian × ElectionKeyPair) op => ∃ sh l, op = DMOp.announce x.2.share sh l) avs ops)
    (m : DM) (hn : (avs.map (fun x => x.2.ownerId)).Nodup) (hd : ∀ x ∈ avs, x.2.ownerId ∉ dkeys m.available)
    (hm : m.missing = []) :
    (ops.foldl (DM.step P) m).available = m.available ++ avs.map (fun x => (x.2.ownerId, x.2.share)) ∧
    (ops.foldl (DM.step P) m).missing = [] := by
  induction h generalizing m with
  | nil => exact ⟨by simp, hm⟩
  | cons hx _ ih =>
    rename_i x op avs ops _
    obtain ⟨sh, l, rfl⟩ := hx
    simp only [List.map_cons, List.nodup_cons] at hn
    have hnot : x.2.share.ownerId ∉ dkeys m.available := hd x (List.mem_cons_self ..)
    obtain ⟨f1, f2, _⟩ := DM.announce_fields m x.2.share sh l hnot
    have hf : (m.announce x.2.share sh l).available = m.available ++ [(x.2.ownerId, x.2.share)] := by
      rw [f1, dset_fresh _ hnot]; rfl
    obtain ⟨k1, k2⟩ := ih (m.announce x.2.share sh l) hn.2 (by
      intro y hy hc
      rw [hf] at hc
      simp only [dkeys, List.map_append, List.map_cons, List.map_nil, List.mem_append, List.mem_singleton] at hc
      rcases hc with hc | hc
      · exact hd y (List.mem_cons_of_mem _ hy) hc
      · exact hn.1 (List.mem_map.2 ⟨y, hy, hc⟩)) (by rw [f2, hm]; rfl)
    rw [List.foldl_cons]
    refine ⟨?_, k2⟩
    have : (ops.foldl (DM.step P) (m.step P (.announce x.2.share sh l))).available
        = (m.announce x.2.share sh l).available ++ avs.map (fun x => (x.2.ownerId, x.2.share)) := k1
    rw [this, hf]
    simp

theorem missing_fields (ks : List ElectionPublicKey) (m : DM) (hn : (ks.map (fun k => k.ownerId)).Nodup)
    (ha : ∀ k ∈ ks, k.ownerId ∉ dkeys m.available) (hd : ∀ k ∈ ks, k.ownerId ∉ dkeys m.missing) :
    (ks.foldl DM.announceMissing m).available = m.available ∧
    (ks.foldl DM.announceMissing m).missing = m.missing ++ ks.map (fun k => (k.ownerId, k)) := by
  induction ks generalizing m with
  | nil => exact ⟨rfl, by simp⟩
  | cons k ks ih =>
    simp only [List.map_cons, List.nodup_cons] at hn
    have hf : m.announceMissing k = { m with missing := m.missing ++ [(k.ownerId, k)] } := by
      unfold DM.announceMissing
      rw [if_neg (ha k (List.mem_cons_self ..)), dset_fresh _ (hd k (List.mem_cons_self ..))]
    obtain ⟨k1, k2⟩ := ih (m.announceMissing k) hn.2
      (fun x hx => by rw [hf]; exact ha x (List.mem_cons_of_mem _ hx)) (by
        intro x hx hc
        rw [hf] at hc
        simp only [dkeys, List.map_append, List.map_cons, List.map_nil, List.mem_append, List.mem_singleton] at hc
        rcases hc with hc | hc
        · exact hd x (List.mem_cons_of_mem _ hx) hc
        · exact hn.1 (List.mem_map.2 ⟨x, hx, hc⟩))
    rw [List.foldl_cons, k1, k2, hf]
    simp

theorem foldl_announceMissing (P : Params) (ks : List ElectionPublicKey) (m : DM) :
    ks.foldl DM.announceMissing m = (ks.map DMOp.announceMissing).foldl (DM.step P) m := by
  rw [List.foldl_map]; rfl

/-- The announcement of a tally ceremony. -/
theorem tallyAnnouncement_spec (hv : E.P.Valid) {loads : Bytes → R (List Char)} {quorum : Nat}
    {rands : String → List (Nat × Nat)} {kps : List ElectionKeyPair} (ht : Team E quorum rands kps) (sd : TallySeeds)
    (ctx : Context) (hh : ctx.cryptoExtendedBaseHash < E.P.q) (t : Tally) (bs : List SBallot)
    (hbs : (bs.map (fun b => b.objectId)).Nodup) (hrt : Readable E.P t.toCts) (hrb : ∀ b ∈ bs, Readable E.P b.toCts)
    (avs : List (Guardian × ElectionKeyPair)) (hp : Present E loads rands kps avs)
    (keys : List ElectionPublicKey) (hkeys : keys.Perm (kps.map (fun kp => kp.share))) :
    ∃ (ops : List DMOp) (ms : List ElectionPublicKey),
      tallyAnnouncement E sd ctx t bs (avs.map Prod.fst) keys DM.init = .ok (DM.run E.P ops) ∧
      (∀ op ∈ ops, HonestOp E ctx.cryptoExtendedBaseHash t (kps.map (fun kp => kp.share)) (coefOf rands) op ∧
        HonestBallotOp E ctx.cryptoExtendedBaseHash bs (kps.map (fun kp => kp.share)) (coefOf rands) op) ∧
      receivedPairs ops = [] ∧ (∀ i, receivedBallotPairs i ops = []) ∧
      (DM.run E.P ops).available = avs.map (fun x => (x.2.ownerId, x.2.share)) ∧
      (DM.run E.P ops).missing = ms.map (fun k => (k.ownerId, k)) ∧
      (∀ k ∈ ms, ∃ kp' ∈ kps, k = kp'.share ∧ ∀ x ∈ avs, kp'.ownerId ≠ x.2.ownerId) ∧
      avs.length + ms.length = kps.length := by
  obtain ⟨o1, a1, a2, a3⟩ := announceAvailable_spec hv ht sd ctx hh t bs hbs hrt hrb avs hp.equipped DM.init
  set ms := keys.filter (fun k => decide (k.ownerId ∉ (avs.map Prod.fst).map Guardian.id)) with hms
  have hids : (avs.map Prod.fst).map Guardian.id = avs.map (fun x => x.2.ownerId) := by
    rw [List.map_map]
    refine List.map_congr_left (fun x hx => ?_)
    show x.1.electionKeys.ownerId = _
    rw [(hp.equipped x hx).2.own]
  have hkn : (keys.map (fun k => k.ownerId)).Nodup := by
    rw [(hkeys.map (fun k : ElectionPublicKey => k.ownerId)).nodup_iff, List.map_map]
    exact ht.ids
  have hmem : ∀ k ∈ ms, ∃ kp' ∈ kps, k = kp'.share ∧ ∀ x ∈ avs, kp'.ownerId ≠ x.2.ownerId := by
    intro k hk
    obtain ⟨h1, h2⟩ := List.mem_filter.1 hk
    obtain ⟨kp', h3, h4⟩ := List.mem_map.1 (hkeys.subset h1)
    refine ⟨kp', h3, h4.symm, fun x hx he => ?_⟩
    have h2 := of_decide_eq_true h2
    rw [hids] at h2
    refine h2 (List.mem_map.2 ⟨x, hx, ?_⟩)
    rw [← h4]
    exact he.symm
  obtain ⟨f1, f2⟩ := announces_fields E.P avs o1 a3 DM.init hp.once (by simp [DM.init, dkeys]) rfl
  have havail : DM.init.available ++ avs.map (fun x => (x.2.ownerId, x.2.share))
      = avs.map (fun x : Guardian × ElectionKeyPair => (x.2.ownerId, x.2.share)) := rfl
  rw [havail] at f1
  have hmsn : (ms.map (fun k => k.ownerId)).Nodup := List.Nodup.sublist (List.filter_sublist.map _) hkn
  obtain ⟨g1, g2⟩ := missing_fields ms (o1.foldl (DM.step E.P) DM.init) hmsn (by
      intro k hk hc
      obtain ⟨kp', h1, rfl, h2⟩ := hmem k hk
      rw [f1] at hc
      simp only [dkeys, List.map_map] at hc
      obtain ⟨x, hx, hxe⟩ := List.mem_map.1 hc
      exact h2 x hx hxe.symm) (by rw [f2]; simp [dkeys])
  have hpairs : receivedPairs o1 = [] ∧ ∀ i, receivedBallotPairs i o1 = [] := by
    clear havail a1 a2 f1 f2 g1 g2 hp hmem hids hms hmsn
    induction a3 with
    | nil => exact ⟨rfl, fun _ => rfl⟩
    | cons hx _ ih =>
      obtain ⟨sh, l, rfl⟩ := hx
      exact ⟨ih.1, ih.2⟩
  have hpm : ∀ l : List ElectionPublicKey, receivedPairs (l.map DMOp.announceMissing) = [] ∧
      ∀ i, receivedBallotPairs i (l.map DMOp.announceMissing) = [] := by
    intro l
    induction l with
    | nil => exact ⟨rfl, fun _ => rfl⟩
    | cons k l ih => exact ⟨ih.1, ih.2⟩
  have hrun : DM.run E.P (o1 ++ ms.map DMOp.announceMissing) = ms.foldl DM.announceMissing (o1.foldl (DM.step E.P) DM.init) := by
    unfold DM.run
    rw [List.foldl_append, foldl_announceMissing E.P]
  refine ⟨o1 ++ ms.map DMOp.announceMissing, ms, ?_, ?_, ?_, ?_, ?_, ?_, hmem, ?_⟩
  · unfold tallyAnnouncement
    rw [a1]
    simp only [bind, Except.bind, pure, Except.pure]
    rw [hrun]
  · intro op hop
    rcases List.mem_append.1 hop with h | h
    · exact a2 op h
    · obtain ⟨k, hk, rfl⟩ := List.mem_map.1 h
      obtain ⟨kp', h1, rfl, _⟩ := hmem k hk
      exact ⟨List.mem_map_of_mem h1, List.mem_map_of_mem h1⟩
  · rw [receivedPairs_append, hpairs.1, (hpm ms).1]; rfl
  · intro i
    rw [receivedBallotPairs_append, hpairs.2 i, (hpm ms).2 i]; rfl
  · rw [hrun, g1, f1]
  · rw [hrun, g2, f2]; rfl
  · have hlen : kps.length = keys.length := by rw [hkeys.length_eq, List.length_map]
    have hsplit : keys.length = (keys.filter (fun k => decide (k.ownerId ∈ avs.map (fun x => x.2.ownerId)))).length
        + ms.length := by
      rw [hms, hids, List.length_eq_length_filter_add (l := keys)
        (fun k => decide (k.ownerId ∈ avs.map (fun x => x.2.ownerId)))]
      congr 2
      refine List.filter_congr (fun k _ => ?_)
      simp
    have hperm : ((keys.filter (fun k => decide (k.ownerId ∈ avs.map (fun x => x.2.ownerId)))).map (fun k => k.ownerId)).Perm
        (avs.map (fun x => x.2.ownerId)) := by
      refine (List.perm_ext_iff_of_nodup (List.Nodup.sublist (List.filter_sublist.map _) hkn) hp.once).2 (fun i => ?_)
      constructor
      · intro h
        obtain ⟨k, hk, rfl⟩ := List.mem_map.1 h
        exact of_decide_eq_true (List.mem_filter.1 hk).2
      · intro h
        obtain ⟨x, hx, rfl⟩ := List.mem_map.1 h
        refine List.mem_map.2 ⟨x.2.share, List.mem_filter.2 ⟨?_, decide_eq_true h⟩, rfl⟩
        exact hkeys.symm.subset (List.mem_map_of_mem (hp.equipped x hx).1)
    have := hperm.length_eq
    simp only [List.length_map] at this
    omega

end EG
