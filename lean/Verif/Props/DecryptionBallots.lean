import Verif.Props.DecryptionMediator
import Verif.Spec.DecryptionBallots

/-!
# C15 for single ballots: a quorum decrypts submitted ballots with guardians missing
-/

namespace EG

variable {E : Env} {P : Params}

/-- With right shares of the available guardians and right compensated shares for the missing ones, every share can be
reconstructed, and all shares together decrypt correctly. -/
theorem quorum_core (hv : E.P.Valid) (maxE baseHash : Nat) (quorum : Int) (all : List ElectionPublicKey)
    (coef : String → List Nat) (hkeys : SharedKeys E.P quorum all coef)
    (av ms : List (String × ElectionPublicKey)) (hav : ∀ e ∈ av, e.2 ∈ all) (hms : ∀ e ∈ ms, e.2 ∈ all)
    (havo : ∀ e ∈ av, e.1 = e.2.ownerId) (hmso : ∀ e ∈ ms, e.1 = e.2.ownerId) (havn : (dkeys av).Nodup)
    (hmsn : (dkeys ms).Nodup) (hdis : ∀ i ∈ dkeys av, i ∉ dkeys ms) (c1 : quorum ≤ av.length)
    (c2 : av.length + ms.length = all.length) (oid : String) (cs : List CtContest) (m : Manifest)
    (hdec : Decryptable E.P maxE (combinePublicKeys E.P (all.map (fun k => k.key))) m cs)
    (shares0 : List (String × DecShare)) (hsh : dkeys shares0 = dkeys av)
    (hright : ∀ e ∈ shares0, ∃ k ∈ all, k.ownerId = e.1 ∧ e.2.guardianId = e.1 ∧
      ShareFor E baseHash (polyAt (coef e.1) 0) k.key cs e.2)
    (comps : List ((String × String) × CompShare))
    (hc : ∀ e ∈ comps, ∃ k ∈ all, ∃ m ∈ all, e.1 = (k.ownerId, m.ownerId) ∧
      CompFor E baseHash (polyAt (coef m.ownerId) k.sequenceOrder.toNat % E.P.q) cs e.2)
    (hcp : ∀ j ∈ dkeys ms, ∀ i, (i, j) ∈ dkeys comps ↔ i ∈ dkeys av) :
    ∃ (L : List (String × Nat)) (f : String × ElectionPublicKey → DecShare),
      lagrangeForGuardians E.P (av.map (·.2)) = .ok L ∧
      (∀ e ∈ ms, reconstructShare E.P e.2 oid cs (filterByMissing e.1 comps) L = .ok (f e)) ∧
      ∃ d, decryptContestsLoop E maxE (shares0 ++ ms.map (fun e => (e.1, f e))) baseHash m true cs [] = .ok (some d) ∧
        PlaintextTally.Correct ⟨oid, d⟩ E.P (combinePublicKeys E.P (all.map (fun k => k.key))) m cs := by
  classical
  have hinj : ∀ {k k' : ElectionPublicKey}, k ∈ all → k' ∈ all → k.ownerId = k'.ownerId → k = k' :=
    fun hk hk' h => List.inj_on_of_nodup_map hkeys.ids hk hk' h
  set keys := av.map (fun e => e.2) with hkeysdef
  have hkin : ∀ k ∈ keys, k ∈ all := by
    intro k hk
    obtain ⟨e, he, rfl⟩ := List.mem_map.1 hk
    exact hav e he
  have hkid : keys.map (fun k => k.ownerId) = dkeys av := by
    rw [hkeysdef, List.map_map]
    exact List.map_congr_left (fun e he => (havo e he).symm)
  have hknodup : (keys.map (fun k => k.ownerId)).Nodup := by rw [hkid]; exact havn
  have hkord : (keys.map (fun k => (k.sequenceOrder : ZMod E.P.q))).Nodup := by
    refine (List.nodup_map_iff_inj_on (List.Nodup.of_map _ hknodup)).2 (fun k hk k' hk' h => ?_)
    exact List.inj_on_of_nodup_map hkeys.orders (hkin k hk) (hkin k' hk') h
  have hrec : ∀ e ∈ ms, ∃ lagrange sh, lagrangeForGuardians E.P keys = .ok lagrange ∧
      reconstructShare E.P e.2 oid cs (filterByMissing e.1 comps) lagrange = .ok sh ∧
      sh.objectId = oid ∧ sh.guardianId = e.2.ownerId ∧
      ShareFor E baseHash (polyAt (coef e.2.ownerId) 0) e.2.key cs sh := by
    intro e he
    obtain ⟨g1, g2, g3⟩ := filterByMissing_spec e.1 comps
    refine reconstructShare_right hv (coef e.2.ownerId) keys hknodup (fun k hk => hkeys.nonneg k (hkin k hk)) hkord ?_
      e.2 oid cs hdec.ids (fun s hs => (hdec.elements s hs).1) _ ?_ ?_
    · have h1 := hkeys.lengths e.2 (hms e he)
      have h2 : keys.length = av.length := by rw [hkeysdef, List.length_map]
      omega
    · rw [hkid]
      refine (List.perm_ext_iff_of_nodup g1 havn).2 (fun i => ?_)
      have := g2 i
      rw [hcp e.1 (mem_dkeys_of_mem he) i] at this
      exact this
    · intro x hx k hk hkx
      obtain ⟨k', hk', m', hm', h1, h2⟩ := hc _ (g3 x hx)
      obtain ⟨h3, h4⟩ := Prod.mk.inj h1
      have hk'k : k' = k := hinj hk' (hkin k hk) (by rw [hkx]; exact h3.symm)
      rw [← hk'k, ← hmso e he, show e.1 = m'.ownerId from h4]
      exact h2
  obtain ⟨L, hL⟩ : ∃ L, lagrangeForGuardians E.P keys = .ok L := by
    obtain ⟨L, hL, _⟩ := lagrange_right (E := E) hv [] keys hknodup (fun k hk => hkeys.nonneg k (hkin k hk)) hkord
      (Nat.zero_le _)
    exact ⟨_, hL⟩
  have hrec' : ∀ e : String × ElectionPublicKey, ∃ sh, e ∈ ms →
      reconstructShare E.P e.2 oid cs (filterByMissing e.1 comps) L = .ok sh ∧
      sh.guardianId = e.1 ∧ ShareFor E baseHash (polyAt (coef e.1) 0) e.2.key cs sh := by
    intro e
    by_cases he : e ∈ ms
    · obtain ⟨L', sh, h1, h2, _, h3, h4⟩ := hrec e he
      rw [hL] at h1
      cases h1
      refine ⟨sh, fun _ => ⟨h2, ?_, ?_⟩⟩
      · rw [h3, hmso e he]
      · rw [hmso e he]; exact h4
    · exact ⟨⟨"", "", 0, []⟩, fun h => absurd h he⟩
  choose f hf using hrec'
  refine ⟨L, f, hL, fun e he => (hf e he).1, ?_⟩
  set shares := shares0 ++ ms.map (fun e => (e.1, f e)) with hshares
  have hgid : ∀ e ∈ shares, e.2.guardianId = e.1 := by
    intro e he
    rcases List.mem_append.1 he with he | he
    · obtain ⟨k, _, _, h, _⟩ := hright e he
      exact h
    · obtain ⟨x, hx, rfl⟩ := List.mem_map.1 he
      exact (hf x hx).2.1
  have hkk : dkeys shares = dkeys av ++ dkeys ms := by
    simp only [hshares, dkeys, List.map_append, List.map_map]
    congr 1
  have hgids : shares.map (fun e => e.2.guardianId) = dkeys av ++ dkeys ms := by
    rw [← hkk]
    exact List.map_congr_left hgid
  have hnodup : (dkeys av ++ dkeys ms).Nodup :=
    List.nodup_append.2 ⟨havn, hmsn, fun i hi j hj h => hdis i hi (h ▸ hj)⟩
  have hperm : (dkeys av ++ dkeys ms).Perm (all.map (fun k => k.ownerId)) := by
    refine List.Subperm.perm_of_length_le (List.subperm_of_subset hnodup ?_) ?_
    · intro i hi
      rcases List.mem_append.1 hi with hi | hi
      · obtain ⟨e, he, rfl⟩ := List.mem_map.1 hi
        exact List.mem_map.2 ⟨e.2, hav e he, (havo e he).symm⟩
      · obtain ⟨e, he, rfl⟩ := List.mem_map.1 hi
        exact List.mem_map.2 ⟨e.2, hms e he, (hmso e he).symm⟩
    · simp only [dkeys, List.length_append, List.length_map]
      omega
  let pubs : String → Nat := fun i => ((all.find? (fun k => k.ownerId == i)).map (fun k => k.key)).getD 0
  have hpubs : ∀ k ∈ all, pubs k.ownerId = k.key := by
    intro k hk
    simp only [pubs]
    rw [find?_of_nodup (fun k : ElectionPublicKey => k.ownerId) hkeys.ids hk]
    rfl
  have hK : combinePublicKeys E.P (all.map (fun k => k.key))
      = (shares.map (fun e => E.P.g ^ polyAt (coef e.2.guardianId) 0)).prod % E.P.p := by
    rw [jointKey_eq hv all (fun k => k.key) (fun k => polyAt (coef k.ownerId) 0) hkeys.keys]
    have h1 : shares.map (fun e => E.P.g ^ polyAt (coef e.2.guardianId) 0)
        = (shares.map (fun e => e.2.guardianId)).map (fun i => E.P.g ^ polyAt (coef i) 0) := by
      rw [List.map_map]; rfl
    have h2 : all.map (fun k => E.P.g ^ polyAt (coef k.ownerId) 0)
        = (all.map (fun k => k.ownerId)).map (fun i => E.P.g ^ polyAt (coef i) 0) := by
      rw [List.map_map]; rfl
    rw [h1, h2, hgids, (hperm.map _).prod_eq]
  exact decryptContests_right hv (baseHash := baseHash) cs shares
    (fun i => polyAt (coef i) 0) pubs m (by rw [hgids]; exact hnodup) (by
      intro e he
      rw [hgid e he]
      rcases List.mem_append.1 he with he | he
      · obtain ⟨k, hk, h1, _, h2⟩ := hright e he
        rw [← h1, hpubs k hk, h1]
        exact h2
      · obtain ⟨x, hx, rfl⟩ := List.mem_map.1 he
        have := (hf x hx).2.2
        simp only
        rw [show pubs x.1 = x.2.key by rw [hmso x hx]; exact hpubs _ (hms x hx)]
        exact this) hK hdec oid

/-! ### The dicts of ballot shares -/

/-- Updating entries by the entries of another dict. -/
theorem dget_foldl_update {α β : Type} (u : Option α → β → α) (l : List (String × β)) (hl : (dkeys l).Nodup)
    (d : List (String × α)) (k : String) :
    dget (l.foldl (fun d e => dset d e.1 (u (dget d e.1) e.2)) d) k
      = match dget l k with | none => dget d k | some v => some (u (dget d k) v) := by
  induction l generalizing d with
  | nil => rfl
  | cons e l ih =>
    simp only [dkeys, List.map_cons, List.nodup_cons] at hl
    rw [List.foldl_cons, ih hl.2, dget_cons]
    by_cases h : e.1 = k
    · rw [if_pos h, (dget_eq_none_iff l k).2 (by rw [← h]; exact hl.1), dget_dset, if_pos h, h]
    · rw [if_neg h, dget_dset, if_neg h]

/-- What honest calls keep true for ballots. -/
structure DM.BallotHonest (E : Env) (baseHash : Nat) (bs : List SBallot) (all : List ElectionPublicKey)
    (coef : String → List Nat) (s : DM) : Prop where
  available : ∀ e ∈ s.available, e.2 ∈ all
  missing : ∀ e ∈ s.missing, e.2 ∈ all
  shares : ∀ b ∈ bs, dkeys ((dget s.ballotShares b.objectId).getD []) = dkeys s.available
  right : ∀ b ∈ bs, ∀ e ∈ (dget s.ballotShares b.objectId).getD [], ∃ k ∈ all, k.ownerId = e.1 ∧ e.2.guardianId = e.1 ∧
    ShareFor E baseHash (polyAt (coef e.1) 0) k.key b.toCts e.2
  comps : ∀ b ∈ bs, ∀ e ∈ (dget s.compBallot b.objectId).getD [], ∃ k ∈ all, ∃ m ∈ all,
    e.1 = (k.ownerId, m.ownerId) ∧
    CompFor E baseHash (polyAt (coef m.ownerId) k.sequenceOrder.toNat % E.P.q) b.toCts e.2

theorem DM.run_ballotHonest {baseHash : Nat} {bs : List SBallot} {all : List ElectionPublicKey}
    {coef : String → List Nat} (ops : List DMOp) (h : ∀ op ∈ ops, HonestBallotOp E baseHash bs all coef op) :
    (DM.run E.P ops).BallotHonest E baseHash bs all coef ∧
    ∀ b ∈ bs, ∀ p, p ∈ dkeys ((dget (DM.run E.P ops).compBallot b.objectId).getD []) ↔
      p ∈ receivedBallotPairs b.objectId ops := by
  induction ops using List.reverseRecOn with
  | nil =>
    refine ⟨?_, by simp [DM.run, DM.init, dkeys, dget, receivedBallotPairs]⟩
    constructor <;> simp [DM.run, DM.init, dkeys, dget]
  | append_singleton ops op ih =>
    obtain ⟨ih, ihp⟩ := ih (fun o ho => h o (List.mem_append_left _ ho))
    have hop := h op (by simp)
    rw [DM.run_concat]
    generalize DM.run E.P ops = s at ih ihp
    obtain ⟨a1, a2, a3, a4, a5⟩ := ih
    have hpairs : ∀ s' : DM, s'.compBallot = s.compBallot → (∀ i, receivedBallotPairs i [op] = []) →
        ∀ b ∈ bs, ∀ p, p ∈ dkeys ((dget s'.compBallot b.objectId).getD []) ↔
          p ∈ receivedBallotPairs b.objectId (ops ++ [op]) := by
      intro s' h1 h2 b hb p
      have h2 := h2 b.objectId
      have := ihp b hb p
      unfold receivedBallotPairs at h2 this ⊢
      rw [List.filterMap_append, h2, List.append_nil, h1]
      exact this
    cases op with
    | announce k sh l =>
      simp only [DM.step]
      by_cases hk : k.ownerId ∈ dkeys s.available
      · rw [DM.announce_of_mem s k sh l hk]
        exact ⟨⟨a1, a2, a3, a4, a5⟩, hpairs s rfl (fun _ => rfl)⟩
      · obtain ⟨f1, f2, f3, f4⟩ := DM.announce_fields s k sh l hk
        obtain ⟨hka, l, rfl, hl, hbs⟩ := hop
        have f5 : (s.announce k sh (some l)).compBallot = s.compBallot := by
          unfold DM.announce; rw [if_neg hk]; rfl
        have f6 : ∀ b ∈ bs, ∃ sh', dget l b.objectId = some (some sh') ∧ sh'.guardianId = k.ownerId ∧
            ShareFor E baseHash (polyAt (coef k.ownerId) 0) k.key b.toCts sh' ∧
            (dget (s.announce k sh (some l)).ballotShares b.objectId).getD []
              = dset ((dget s.ballotShares b.objectId).getD []) k.ownerId sh' := by
          intro b hb
          obtain ⟨sh', h1, h2, h3⟩ := hbs b hb
          refine ⟨sh', h1, h2, h3, ?_⟩
          have : (s.announce k sh (some l)).ballotShares = l.foldl (fun d e =>
              dset d e.1 ((fun (o : Option (List (String × DecShare))) (x : Option DecShare) =>
                match x with | some sh => dset (o.getD []) k.ownerId sh | none => o.getD []) (dget d e.1) e.2))
              s.ballotShares := by
            unfold DM.announce; rw [if_neg hk]; rfl
          rw [this]
          have h5 := dget_foldl_update (fun (o : Option (List (String × DecShare))) (x : Option DecShare) =>
            match x with | some sh => dset (o.getD []) k.ownerId sh | none => o.getD []) l hl s.ballotShares b.objectId
          rw [h1] at h5
          exact congrArg (fun o => Option.getD o []) h5
        refine ⟨⟨?_, ?_, ?_, ?_, ?_⟩, hpairs _ f5 (fun _ => rfl)⟩
        · rw [f1]
          intro e he
          rcases mem_dset he with rfl | he
          · exact hka
          · exact a1 e he
        · rw [f2]; exact fun e he => a2 e (mem_ddel he)
        · intro b hb
          obtain ⟨sh', -, -, -, h4⟩ := f6 b hb
          rw [f1, h4]
          exact dset_keys_congr (a3 b hb) _ _ _
        · intro b hb e he
          obtain ⟨sh', -, h2, h3, h4⟩ := f6 b hb
          rw [h4] at he
          rcases mem_dset he with rfl | he
          · exact ⟨k, hka, rfl, h2, h3⟩
          · exact a4 b hb e he
        · rw [f5]; exact a5
    | announceMissing k =>
      have f0 : (s.announceMissing k).ballotShares = s.ballotShares ∧ (s.announceMissing k).compBallot = s.compBallot := by
        unfold DM.announceMissing; split <;> exact ⟨rfl, rfl⟩
      obtain ⟨f1, f2, f3, f4⟩ := DM.announceMissing_fields s k
      simp only [DM.step]
      refine ⟨⟨by rw [f1]; exact a1, ?_, by rw [f1, f0.1]; exact a3, by rw [f0.1]; exact a4, by rw [f0.2]; exact a5⟩,
        hpairs _ f0.2 (fun _ => rfl)⟩
      rw [f4]
      split
      · exact a2
      · intro e he
        rcases mem_dset he with rfl | he
        · exact hop
        · exact a2 e he
    | validateMissing ks =>
      simp only [DM.step]
      refine ⟨⟨a1, ?_, a3, a4, a5⟩, hpairs _ rfl (fun _ => rfl)⟩
      intro e he
      rcases (DM.validateMissing_missing s ks).2.2 e he with h | ⟨h, _⟩
      · exact a2 e h
      · exact hop _ h
    | receiveTallyComp c => exact ⟨⟨a1, a2, a3, a4, a5⟩, hpairs _ rfl (fun _ => rfl)⟩
    | receiveBallotComp cs =>
      obtain ⟨hcs, hop⟩ := hop
      have hg : ∀ b : SBallot, dget (s.step E.P (.receiveBallotComp cs)).compBallot b.objectId
          = match dget cs b.objectId with
            | none => dget s.compBallot b.objectId
            | some c => some (dset ((dget s.compBallot b.objectId).getD []) (c.guardianId, c.missingId) c) := by
        intro b
        have h5 := dget_foldl_update (fun (o : Option (List ((String × String) × CompShare))) (c : CompShare) =>
          dset (o.getD []) (c.guardianId, c.missingId) c) cs hcs s.compBallot b.objectId
        refine Eq.trans h5 ?_
        cases dget cs b.objectId <;> rfl
      refine ⟨⟨a1, a2, a3, a4, ?_⟩, ?_⟩
      · intro b hb e he
        rw [hg b] at he
        cases hc : dget cs b.objectId with
        | none => rw [hc] at he; exact a5 b hb e he
        | some c =>
          rw [hc] at he
          rcases mem_dset (show e ∈ dset ((dget s.compBallot b.objectId).getD []) (c.guardianId, c.missingId) c from he)
            with rfl | he
          · obtain ⟨k, hk, m, hm, h1, h2, h3⟩ := hop b hb c hc
            exact ⟨k, hk, m, hm, by rw [h1, h2], h3⟩
          · exact a5 b hb e he
      · intro b hb p
        have : receivedBallotPairs b.objectId (ops ++ [.receiveBallotComp cs])
            = receivedBallotPairs b.objectId ops
              ++ ((dget cs b.objectId).map (fun c => (c.guardianId, c.missingId))).toList := by
          unfold receivedBallotPairs
          rw [List.filterMap_append]
          cases hc : dget cs b.objectId <;> simp [hc]
        rw [this, List.mem_append, ← ihp b hb p, hg b]
        cases dget cs b.objectId with
        | none => simp
        | some c =>
          simp only [Option.getD_some, Option.map_some, Option.toList_some, List.mem_singleton]
          rw [mem_dkeys_dset]
          exact Or.comm
    | reconstructTally t =>
      have f : ((s.reconstructTally E.P t).2.ballotShares = s.ballotShares) ∧
          ((s.reconstructTally E.P t).2.compBallot = s.compBallot) := by
        unfold DM.reconstructTally
        cases lagrangeForGuardians E.P (s.available.map (·.2)) <;> exact ⟨rfl, rfl⟩
      obtain ⟨f1, f2, _⟩ := DM.reconstructTally_fields (P := E.P) s t
      simp only [DM.step]
      refine ⟨?_, hpairs _ f.2 (fun _ => rfl)⟩
      constructor <;> simp only [f1, f2, f.1, f.2] <;> assumption
    | reconstructBallots bs => exact absurd hop _root_.id

/-! ### The loops -/

theorem reconstructBallotLoop_right (b : SBallot) (lagrange : List (String × Nat))
    (compBallot : List (String × List ((String × String) × CompShare))) (f : String × ElectionPublicKey → DecShare)
    (ms : List (String × ElectionPublicKey)) (shares : List (String × DecShare)) (hn : (dkeys ms).Nodup)
    (hd : ∀ i ∈ dkeys ms, i ∉ dkeys shares) (hc : ms ≠ [] → ∃ comps, dget compBallot b.objectId = some comps)
    (h : ∀ e ∈ ms, reconstructShare P e.2 b.objectId b.toCts
      (filterByMissing e.1 ((dget compBallot b.objectId).getD [])) lagrange = .ok (f e)) :
    reconstructBallotLoop P b lagrange compBallot ms shares = (.ok (), shares ++ ms.map (fun e => (e.1, f e))) := by
  induction ms generalizing shares with
  | nil => simp [reconstructBallotLoop]
  | cons e ms ih =>
    obtain ⟨comps, hcomps⟩ := hc (by simp)
    obtain ⟨id, k⟩ := e
    simp only [dkeys, List.map_cons, List.nodup_cons] at hn
    have hnot : id ∉ dkeys shares := hd id (by simp [dkeys])
    have h0 := h (id, k) (List.mem_cons_self ..)
    rw [hcomps] at h0
    simp only [Option.getD_some] at h0
    unfold reconstructBallotLoop
    rw [if_neg hnot, show dgetR compBallot b.objectId = .ok comps by unfold dgetR; rw [hcomps]]
    simp only [h0]
    rw [dset_fresh _ hnot, ih _ hn.2 _ (fun _ => ⟨comps, hcomps⟩) (fun e he => h e (List.mem_cons_of_mem _ he))]
    · simp
    · intro i hi hc
      simp only [dkeys, List.map_append, List.map_cons, List.map_nil, List.mem_append, List.mem_singleton] at hc
      rcases hc with hc | rfl
      · exact hd i (List.mem_cons_of_mem _ hi) hc
      · exact hn.1 hi

theorem reconstructBallotsLoop_right (lagrange : List (String × Nat))
    (sh0 sh1 : SBallot → List (String × DecShare)) (bs : List SBallot) (s : DM)
    (hn : (bs.map (fun b => b.objectId)).Nodup)
    (h0 : ∀ b ∈ bs, dget s.ballotShares b.objectId = some (sh0 b))
    (h : ∀ b ∈ bs, reconstructBallotLoop P b lagrange s.compBallot s.missing (sh0 b) = (.ok (), sh1 b)) :
    ∃ D, reconstructBallotsLoop P lagrange bs s = (.ok (), { s with ballotShares := D }) ∧
      (∀ b ∈ bs, dget D b.objectId = some (sh1 b)) ∧
      ∀ i, i ∉ bs.map (fun b => b.objectId) → dget D i = dget s.ballotShares i := by
  induction bs generalizing s with
  | nil => exact ⟨s.ballotShares, rfl, by simp, fun _ _ => rfl⟩
  | cons b bs ih =>
    simp only [List.map_cons, List.nodup_cons] at hn
    have hb : ∀ b' ∈ bs, b.objectId ≠ b'.objectId :=
      fun b' hb' he => hn.1 (List.mem_map.2 ⟨b', hb', he.symm⟩)
    obtain ⟨D, h1, h2, h3⟩ := ih { s with ballotShares := dset s.ballotShares b.objectId (sh1 b) } hn.2
      (fun b' hb' => by
        show dget (dset s.ballotShares b.objectId (sh1 b)) b'.objectId = _
        rw [dget_dset, if_neg (hb b' hb')]
        exact h0 b' (List.mem_cons_of_mem _ hb'))
      (fun b' hb' => h b' (List.mem_cons_of_mem _ hb'))
    refine ⟨D, ?_, ?_, ?_⟩
    · unfold reconstructBallotsLoop
      rw [show dgetR s.ballotShares b.objectId = .ok (sh0 b) by
        unfold dgetR; rw [h0 b (List.mem_cons_self ..)]]
      simp only [h b (List.mem_cons_self ..)]
      exact h1
    · intro b' hb'
      rcases List.mem_cons.1 hb' with rfl | hb'
      · rw [h3 _ hn.1]
        show dget (dset s.ballotShares b'.objectId (sh1 b')) b'.objectId = _
        rw [dget_dset, if_pos rfl]
      · exact h2 b' hb'
    · intro i hi
      simp only [List.map_cons, List.mem_cons, not_or] at hi
      rw [h3 i hi.2]
      show dget (dset s.ballotShares b.objectId (sh1 b)) i = _
      rw [dget_dset, if_neg (fun h => hi.1 h.symm)]

theorem plaintextBallotsLoop_right (maxE : Nat) (s : DM) (ctx : Context) (m : Manifest)
    (sh : SBallot → List (String × DecShare)) (pt : SBallot → PlaintextTally) (bs : List SBallot)
    (d : List (String × PlaintextTally)) (hn : (bs.map (fun b => b.objectId)).Nodup)
    (hd : ∀ b ∈ bs, b.objectId ∉ dkeys d)
    (h : ∀ b ∈ bs, dget s.ballotShares b.objectId = some (sh b) ∧ sh b ≠ [] ∧ readyToDecrypt ctx (sh b) = true ∧
      decryptBallotWithShares E maxE b (sh b) ctx.cryptoExtendedBaseHash m = .ok (some (pt b)) ∧
      (pt b).objectId = b.objectId) :
    plaintextBallotsLoop E maxE s ctx m bs d = .ok (d ++ bs.map (fun b => (b.objectId, pt b))) := by
  induction bs generalizing d with
  | nil => simp [plaintextBallotsLoop]
  | cons b bs ih =>
    simp only [List.map_cons, List.nodup_cons] at hn
    obtain ⟨h1, h2, h3, h4, h5⟩ := h b (List.mem_cons_self ..)
    have hne : (sh b).isEmpty = false := by
      cases hs : sh b with
      | nil => exact absurd hs h2
      | cons => rfl
    unfold plaintextBallotsLoop
    rw [h1]
    simp only [hne, h3, Bool.not_true, Bool.or_self, Bool.false_eq_true, if_false, bind, Except.bind, h4]
    rw [h5, dset_fresh _ (hd b (List.mem_cons_self ..)), ih _ hn.2 _ (fun b' hb' => h b' (List.mem_cons_of_mem _ hb'))]
    · simp
    · intro b' hb' hc
      simp only [dkeys, List.map_append, List.map_cons, List.map_nil, List.mem_append, List.mem_singleton] at hc
      rcases hc with hc | hc
      · exact hd b' (List.mem_cons_of_mem _ hb') hc
      · exact hn.1 (List.mem_map.2 ⟨b', hb', hc⟩)

/-- C15 A quorum decrypts submitted ballots correctly with guardians missing.  After any calls with right shares of the ballots,
if the announcement is complete and every available guardian, and nobody else, sent for every ballot a compensated share for every
missing one, then the reconstruction succeeds and `get_plaintext_ballots` reports for every ballot exactly the encrypted
values.  Missing: ballots in which two contests share a selection id (`Decryptable` excludes them). -/
theorem C15_quorum_decrypts_ballots_partial (hv : E.P.Valid) (maxE : Nat) (ctx : Context) (bs : List SBallot)
    (m : Manifest) (all : List ElectionPublicKey) (coef : String → List Nat)
    (hkeys : SharedKeys E.P ctx.quorum all coef) (hn : ctx.numberOfGuardians = all.length) (hq : 0 < ctx.quorum)
    (hbs : (bs.map (fun b => b.objectId)).Nodup)
    (hdec : ∀ b ∈ bs, Decryptable E.P maxE (combinePublicKeys E.P (all.map (fun k => k.key))) m b.toCts)
    (ops : List DMOp) (hops : ∀ op ∈ ops, HonestBallotOp E ctx.cryptoExtendedBaseHash bs all coef op)
    (hcomplete : (DM.run E.P ops).announcementComplete ctx = true)
    (hcomps : ∀ b ∈ bs, ∀ j ∈ dkeys (DM.run E.P ops).missing, ∀ i,
      (i, j) ∈ receivedBallotPairs b.objectId ops ↔ i ∈ dkeys (DM.run E.P ops).available) :
    ((DM.run E.P ops).reconstructBallots E.P bs).1 = .ok () ∧
    ∃ pts, (DM.run E.P (ops ++ [.reconstructBallots bs])).plaintextBallots E maxE ctx bs m = .ok (some pts) ∧
      List.Forall₂ (fun (b : SBallot) (e : String × PlaintextTally) => e.1 = b.objectId ∧ e.2.objectId = b.objectId ∧
        e.2.Correct E.P (combinePublicKeys E.P (all.map (fun k => k.key))) m b.toCts) bs pts := by
  classical
  obtain ⟨ho, hp⟩ := DM.run_ballotHonest (E := E) ops hops
  have b := DM.run_book (P := E.P) ops
  rw [DM.run_concat]
  simp only [DM.step]
  generalize DM.run E.P ops = s at *
  obtain ⟨c1, c2⟩ := (C48_complete_iff s ctx).1 hcomplete
  have hcore := fun (x : SBallot) (hx : x ∈ bs) => quorum_core hv maxE ctx.cryptoExtendedBaseHash ctx.quorum all coef hkeys
    s.available s.missing ho.available ho.missing b.available_own b.missing_own b.available_nodup b.missing_nodup
    b.disjoint c1 (by omega) x.objectId x.toCts m (hdec x hx) _ (ho.shares x hx) (ho.right x hx) _ (ho.comps x hx)
    (fun j hj i => by rw [hp x hx]; exact hcomps x hx j hj i)
  have hav : s.available ≠ [] := by
    intro h
    rw [h] at c1
    simp at c1
    omega
  by_cases hnil : bs = []
  · subst hnil
    obtain ⟨L, hL⟩ : ∃ L, lagrangeForGuardians E.P (s.available.map (·.2)) = .ok L := by
      have hkid : (s.available.map (·.2)).map (fun k => k.ownerId) = dkeys s.available := by
        rw [List.map_map]
        exact List.map_congr_left (fun e he => (b.available_own e he).symm)
      have hkin : ∀ k ∈ s.available.map (·.2), k ∈ all := by
        intro k hk
        obtain ⟨e, he, rfl⟩ := List.mem_map.1 hk
        exact ho.available e he
      have hknodup : ((s.available.map (·.2)).map (fun k => k.ownerId)).Nodup := by rw [hkid]; exact b.available_nodup
      obtain ⟨L, hL, _⟩ := lagrange_right (E := E) hv [] (s.available.map (·.2)) hknodup
        (fun k hk => hkeys.nonneg k (hkin k hk)) (by
          refine (List.nodup_map_iff_inj_on (List.Nodup.of_map _ hknodup)).2 (fun k hk k' hk' h => ?_)
          exact List.inj_on_of_nodup_map hkeys.orders (hkin k hk) (hkin k' hk') h)
        (Nat.zero_le _)
      exact ⟨_, hL⟩
    have hr : s.reconstructBallots E.P [] = (.ok (), s) := by
      unfold DM.reconstructBallots
      rw [hL]
      rfl
    rw [hr]
    refine ⟨rfl, [], ?_, .nil⟩
    simp [DM.plaintextBallots, hcomplete, plaintextBallotsLoop, Except.map]
  obtain ⟨b0, hb0⟩ := List.exists_mem_of_ne_nil bs hnil
  obtain ⟨L, _, hL, _⟩ := hcore b0 hb0
  have hcore' : ∀ x : SBallot, ∃ (f : String × ElectionPublicKey → DecShare) (d : List (String × PTContest)), x ∈ bs →
      (∀ e ∈ s.missing, reconstructShare E.P e.2 x.objectId x.toCts
        (filterByMissing e.1 ((dget s.compBallot x.objectId).getD [])) L = .ok (f e)) ∧
      decryptContestsLoop E maxE ((dget s.ballotShares x.objectId).getD [] ++ s.missing.map (fun e => (e.1, f e)))
        ctx.cryptoExtendedBaseHash m true x.toCts [] = .ok (some d) ∧
      PlaintextTally.Correct ⟨x.objectId, d⟩ E.P (combinePublicKeys E.P (all.map (fun k => k.key))) m x.toCts := by
    intro x
    by_cases hx : x ∈ bs
    · obtain ⟨L', f, h1, h2, d, h3, h4⟩ := hcore x hx
      rw [hL] at h1
      cases h1
      exact ⟨f, d, fun _ => ⟨h2, h3, h4⟩⟩
    · exact ⟨fun _ => ⟨"", "", 0, []⟩, [], fun h => absurd h hx⟩
  choose f d hfd using hcore'
  have hget : ∀ x ∈ bs, dget s.ballotShares x.objectId = some ((dget s.ballotShares x.objectId).getD []) := by
    intro x hx
    cases hg : dget s.ballotShares x.objectId with
    | some v => rfl
    | none =>
      have := ho.shares x hx
      rw [hg] at this
      exact absurd (List.map_eq_nil_iff.1 this.symm) hav
  have hcg : ∀ x ∈ bs, s.missing ≠ [] → ∃ comps, dget s.compBallot x.objectId = some comps := by
    intro x hx hms
    cases hg : dget s.compBallot x.objectId with
    | some v => exact ⟨v, rfl⟩
    | none =>
      obtain ⟨e, he⟩ := List.exists_mem_of_ne_nil _ hms
      obtain ⟨a, ha⟩ := List.exists_mem_of_ne_nil _ hav
      have := (hp x hx (a.1, e.1)).2 ((hcomps x hx e.1 (mem_dkeys_of_mem he) a.1).2 (mem_dkeys_of_mem ha))
      rw [hg] at this
      cases this
  obtain ⟨D, hD1, hD2, -⟩ := reconstructBallotsLoop_right (P := E.P) L
    (fun x => (dget s.ballotShares x.objectId).getD [])
    (fun x => (dget s.ballotShares x.objectId).getD [] ++ s.missing.map (fun e => (e.1, f x e))) bs s hbs hget
    (fun x hx => reconstructBallotLoop_right x L s.compBallot (f x) s.missing _ b.missing_nodup
      (fun i hi hc => b.disjoint i (by rw [← ho.shares x hx]; exact hc) hi) (hcg x hx) (hfd x hx).1)
  have hres : s.reconstructBallots E.P bs = (.ok (), { s with ballotShares := D }) := by
    unfold DM.reconstructBallots
    rw [hL]
    exact hD1
  rw [hres]
  refine ⟨rfl, bs.map (fun x => (x.objectId, ⟨x.objectId, d x⟩)), ?_, ?_⟩
  · have hcomp' : DM.announcementComplete { s with ballotShares := D } ctx = true := hcomplete
    unfold DM.plaintextBallots
    rw [if_neg (by simp [hcomp'])]
    rw [plaintextBallotsLoop_right maxE { s with ballotShares := D } ctx m
      (fun x => (dget s.ballotShares x.objectId).getD [] ++ s.missing.map (fun e => (e.1, f x e)))
      (fun x => ⟨x.objectId, d x⟩) bs [] hbs (by simp [dkeys]) ?_]
    · simp [Except.map]
    · intro x hx
      refine ⟨hD2 x hx, ?_, ?_, ?_, rfl⟩
      · intro h
        have h1 := congrArg dkeys (List.append_eq_nil_iff.1 h).1
        rw [ho.shares x hx] at h1
        exact hav (List.map_eq_nil_iff.1 h1)
      · have h1 := congrArg List.length (ho.shares x hx)
        simp only [dkeys, List.length_map] at h1
        simp only [readyToDecrypt, beq_iff_eq, List.length_append, List.length_map]
        omega
      · simp only [decryptBallotWithShares, (hfd x hx).2.1, bind, Except.bind, pure, Except.pure, Option.map_some]
  · rw [List.forall₂_map_right_iff]
    exact List.forall₂_same.2 (fun x hx => ⟨rfl, rfl, (hfd x hx).2.2⟩)

/-! ### A concrete case -/

/-- A submitted ballot with a vote for `sx`, none for `sy`, one placeholder vote not cast, and a vote for `sz`. -/
def toySpoiled (id : String) : SBallot := ⟨⟨id, "t", 0, 0,
  [⟨"c", 1, 0, [⟨"sx", 1, 0, toyEnc 1 3, 0, false, none, none⟩, ⟨"sy", 2, 0, toyEnc 0 4, 0, false, none, none⟩,
      ⟨"c-placeholder", 3, 0, toyEnc 0 6, 0, true, none, none⟩], ⟨1, 1⟩, 0, none, none, none⟩,
    ⟨"d", 2, 0, [⟨"sz", 1, 0, toyEnc 1 5, 0, false, none, none⟩], ⟨1, 1⟩, 0, none, none, none⟩], 0, 0, 0, none⟩, .spoiled⟩

/-- C15 A guardian that compensates for a missing one makes the compensated share of a ballot that the theorems ask for. -/
theorem C15_honest_ballot_compensation {E : Env} (hv : E.P.Valid) (as : List Nat) (av ms : ElectionPublicKey)
    (hcom : ms.commitments = as.map (fun a => E.P.g ^ a % E.P.p)) (hpos : 0 ≤ av.sequenceOrder) (b : SBallot)
    (ctx : Context) (seeds : Nat → Nat → Nat) (hh : ctx.cryptoExtendedBaseHash < E.P.q) (hids : DistinctIds b.toCts)
    (hres : ∀ s ∈ ctSelections b.toCts, isValidResidue E.P s.ciphertext.pad = true ∧
      isValidResidue E.P s.ciphertext.data = true) :
    ∃ sh, computeCompBallotShare E true (polyAt as av.sequenceOrder.toNat % E.P.q) ms av b ctx seeds = some sh ∧
      sh.guardianId = av.ownerId ∧ sh.missingId = ms.ownerId ∧
      CompFor E ctx.cryptoExtendedBaseHash (polyAt as av.sequenceOrder.toNat % E.P.q) b.toCts sh := by
  obtain ⟨sh, h1, _, h2, h3, h4⟩ := compForContests_ok hv (recoveryKey_right hv as hcom hpos) b.objectId b.toCts ctx
    seeds hh hids hres
  exact ⟨sh, h1, h2, h3, h4⟩

/-- C15 The same for the guardian's own share of a ballot. -/
theorem C15_honest_ballot_share {E : Env} (hv : E.P.Valid) (kp : ElectionKeyPair)
    (hk : kp.keyPair.pub = E.P.g ^ kp.keyPair.secret % E.P.p) (b : SBallot) (ctx : Context) (seeds : Nat → Nat → Nat)
    (hh : ctx.cryptoExtendedBaseHash < E.P.q) (hids : DistinctIds b.toCts)
    (hres : ∀ s ∈ ctSelections b.toCts, isValidResidue E.P s.ciphertext.pad = true ∧
      isValidResidue E.P s.ciphertext.data = true) :
    ∃ sh, computeBallotShare E true kp b ctx seeds = some sh ∧ sh.guardianId = kp.share.ownerId ∧
      ShareFor E ctx.cryptoExtendedBaseHash kp.keyPair.secret kp.share.key b.toCts sh := by
  obtain ⟨sh, h1, _, h2, h3⟩ := shareForContests_ok hv kp hk b.objectId b.toCts ctx seeds hh hids hres
  exact ⟨sh, h1, h2, h3⟩

/-- The share of a ballot. -/
def toyBallotShare (b : SBallot) (kp : ElectionKeyPair) : Option DecShare :=
  computeBallotShare toyEnv true kp b toyDCtx (fun i j => i + 3 * j + 1)

/-- The compensated share of a ballot. -/
def toyBallotComp (b : SBallot) (av ms : ElectionKeyPair) : CompShare :=
  (computeCompBallotShare toyEnv true (polyAt (toyPoly ms.ownerId) av.sequenceOrder.toNat % 13) ms.share av.share b
    toyDCtx (fun i j => i + 3 * j + 1)).getD ⟨"", "", "", 0, []⟩

/-- Guardians `a` and `b` decrypt the spoiled ballots `v` and `w` without `c`. -/
def toyBallotCalls : List DMOp :=
  [toyPair "b" 2, toyPair "a" 1].map (fun kp => .announce kp.share (toyShare (toyDTally "sz") kp)
    (some (["v", "w"].map (fun i => (i, toyBallotShare (toySpoiled i) kp))))) ++
  [.announceMissing (toyPair "c" 3).share] ++
  [toyPair "a" 1, toyPair "b" 2].map (fun kp => .receiveBallotComp
    (["v", "w"].map (fun i => (i, toyBallotComp (toySpoiled i) kp (toyPair "c" 3)))))

example : (match (DM.run extraSmall (toyBallotCalls ++ [.reconstructBallots [toySpoiled "v", toySpoiled "w"]])).plaintextBallots
      toyEnv 12 toyDCtx [toySpoiled "v", toySpoiled "w"] toyManifest with
    | .ok (some d) => d.map (fun e => (e.1, e.2.numbers))
    | _ => [])
    = ["v", "w"].map (fun i => (i, [("c", [("sx", 1), ("sy", 0)]), ("d", [("sz", 1)])])) := by decide +kernel

example : (DM.run extraSmall toyBallotCalls).announcementComplete toyDCtx = true ∧
    ∀ i ∈ ["v", "w"], receivedBallotPairs i toyBallotCalls = [("a", "c"), ("b", "c")] := by decide +kernel

end EG
