import Verif.Lemmas.Orchestrator

/-!
# C65: a key ceremony run by the orchestrator
-/

namespace EG

variable {E : Env}

/-- C65 A key ceremony run by the orchestrator with guardians that generated their keys from any random numbers raises no
exception.  Afterwards every guardian has all public keys and from every other guardian a backup it decrypts to the
right coordinate, and the mediator publishes the product of `g` to the secret keys, with the hash of all commitments.
Partial: powers of the sequence orders below `p` (see C10), and ids that are not empty (see `C65_empty_id_fails`). -/
theorem C65_full_ceremony_partial (hv : E.P.Valid) (hlen : HmacLen E) (loads : Bytes → R (List Char))
    (hl : ReadsCoordinate loads) (hq : E.P.q ≤ 256 ^ 246) (me : String) (quorum : Nat)
    (rands : String → List (Nat × Nat)) (kps : List ElectionKeyPair) (ht : Team E quorum rands kps)
    (nonces : String → Nat → Nat) :
    ∃ gs m, performFullCeremony E loads nonces (kps.map (fun kp => Guardian.init kp ⟨kps.length, quorum⟩))
        (KCM.init me ⟨kps.length, quorum⟩) = .ok (gs, m) ∧
      List.Forall₂ (Guardian.Equipped E loads rands kps) gs kps ∧
      m.publishJointKey E
        = some ⟨(kps.map (fun kp => E.P.g ^ polyAt ((rands kp.ownerId).map Prod.fst) 0 % E.P.p)).prod % E.P.p,
          hashElems E [.list ((kps.flatMap (fun kp => kp.share.commitments)).map HArg.elem)]⟩ := by
  classical
  obtain ⟨g3, gs1, m1, m2, bss, hr1, hr2, heq, hid, hver, hrun2, hsent, hsentall⟩ :=
    rounds12_spec hv hlen loads hl hq me quorum rands kps ht nonces
  have hn := ht.ids
  set vss : ElectionKeyPair → List (List Verification) := fun kp =>
    kps.map (fun kp' => if (g3 kp).id = (g3 kp').id then [] else [⟨kp'.ownerId, kp.ownerId, kp.ownerId, true⟩]) with hvss
  have hr3 : performRound3 E loads (kps.map g3) m2
      = .ok ((kps.flatMap vss).foldl KCM.receiveVerifications m2) := by
    unfold performRound3
    refine round3_spec loads _ g3 vss kps m2 (fun kp hkp m => ?_)
    refine verifyOthers_spec loads (g3 kp) g3 (fun kp' => ⟨kp'.ownerId, kp.ownerId, kp.ownerId, true⟩) kps m
      (fun kp' hkp' hne => ?_)
    rw [hid, hid] at hne
    rw [hid]
    exact hver kp hkp kp' hkp' hne
  refine ⟨kps.map g3, (kps.flatMap vss).foldl KCM.receiveVerifications m2, ?_, ?_, ?_⟩
  · unfold performFullCeremony
    rw [hr1]
    simp only [bind, Except.bind]
    rw [hr2]
    simp only
    rw [hr3]
    rfl
  · rw [List.forall₂_map_left_iff]
    exact List.forall₂_same.2 heq
  · have hvflat : ∀ v ∈ (kps.flatMap vss).flatten, ∃ kp ∈ kps, ∃ kp' ∈ kps, v = ⟨kp'.ownerId, kp.ownerId, kp.ownerId, true⟩ := by
      intro v hv'
      obtain ⟨l, hl', hv'⟩ := List.mem_flatten.1 hv'
      obtain ⟨kp, hkp, hl'⟩ := List.mem_flatMap.1 hl'
      obtain ⟨kp', hkp', rfl⟩ := List.mem_map.1 hl'
      split at hv'
      · cases hv'
      · exact ⟨kp, hkp, kp', hkp', List.mem_singleton.1 hv'⟩
    have hks : (kps.map (fun kp => kp.share)).map (·.ownerId) = kps.map (fun kp => kp.ownerId) := by
      rw [List.map_map]; rfl
    have hpub := C43_honest_ceremony_publishes (E := E) hv.one_lt_p me quorum (kps.map (fun kp => kp.share))
      (by rw [hks]; exact hn) bss (kps.flatMap vss)
      hsent hsentall
      (by
        rw [hks]
        intro v hv'
        obtain ⟨kp, hkp, kp', hkp', rfl⟩ := hvflat v hv'
        exact ⟨List.mem_map_of_mem (f := fun kp : ElectionKeyPair => kp.ownerId) hkp',
          List.mem_map_of_mem (f := fun kp : ElectionKeyPair => kp.ownerId) hkp, rfl⟩)
      (by
        rw [hks]
        intro o ho x hx hne
        obtain ⟨kp, hkp, rfl⟩ := List.mem_map.1 ho
        obtain ⟨kp', hkp', rfl⟩ := List.mem_map.1 hx
        refine ⟨⟨kp.ownerId, kp'.ownerId, kp'.ownerId, true⟩, List.mem_flatten.2 ⟨_,
          List.mem_flatMap.2 ⟨kp', hkp', List.mem_map.2 ⟨kp, hkp, rfl⟩⟩, ?_⟩, rfl, rfl⟩
        rw [if_neg (fun h => hne (by rw [hid, hid] at h; exact h.symm))]
        exact List.mem_singleton.2 rfl)
    have hrun : KCM.run E.P me ⟨(kps.map (fun kp => kp.share)).length, quorum⟩
        ((kps.map (fun kp => kp.share)).map KCMOp.announce ++ bss.map KCMOp.receiveBackups ++
          (kps.flatMap vss).map KCMOp.receiveVerifications)
        = (kps.flatMap vss).foldl KCM.receiveVerifications m2 := by
      rw [hrun2]
      unfold KCM.run
      rw [List.foldl_append, foldl_step_map E.P KCMOp.receiveVerifications KCM.receiveVerifications (fun _ _ => rfl)]
    rw [← hrun, hpub, List.map_map]
    have hkey : kps.map ((fun k : ElectionPublicKey => k.key) ∘ fun kp => kp.share)
        = kps.map (fun kp => E.P.g ^ polyAt ((rands kp.ownerId).map Prod.fst) 0 % E.P.p) := by
      refine List.map_congr_left (fun kp hkp => ?_)
      obtain ⟨-, -, -, -, hk⟩ := C47_key_pair (ht.generated kp hkp)
      obtain ⟨-, -, -, -, hs⟩ := generateElectionKeyPair_ok (ht.generated kp hkp)
      show kp.share.key = _
      rw [hk]
      congr 2
      cases hr : (rands kp.ownerId).map Prod.fst with
      | nil => rw [hr] at hs; cases hs
      | cons a as => rw [hr] at hs; simp at hs; simp [polyAt, hs]
    rw [hkey, List.flatMap_map]

/-! ### The guardians of `create_guardians` -/

theorem decStr_inj {i j : Int} (h : decStr i = decStr j) : i = j := by
  unfold decStr at h
  have := congrArg String.toList h
  rw [String.toList_ofList, String.toList_ofList] at this
  exact decInt_inj this

theorem decInt_ne_nil (i : Int) : decInt i ≠ [] := by
  unfold decInt
  rw [natDigits]
  dsimp only
  split <;> split <;> simp

/-- C65 The guardians made by `create_guardians` for a positive quorum, fewer guardians than `q`, and
`n ^ (quorum - 1)` below `p`, form such a team, with the sequence orders `1, ..., n`. -/
theorem C65_created_guardians (n quorum : Nat) (hquorum : 0 < quorum) (hn : n < E.P.q)
    (hpow : ∀ i < quorum, n ^ i < E.P.p) (rands : Nat → List (Nat × Nat)) (hr : ∀ i < n, (rands i).length = quorum) :
    ∃ (kps : List ElectionKeyPair) (rands' : String → List (Nat × Nat)),
      createGuardians E ⟨n, quorum⟩ rands = .ok (kps.map (fun kp => Guardian.init kp ⟨kps.length, quorum⟩)) ∧
      kps.length = n ∧ Team E quorum rands' kps ∧
      kps.map (fun kp => kp.sequenceOrder) = (List.range n).map (fun i : Nat => (i : Int) + 1) ∧
      ∀ i < n, rands' (decStr ((i : Int) + 1)) = rands i := by
  classical
  have hgen : ∀ i < n, ∃ kp, generateElectionKeyPair E (decStr ((i : Int) + 1)) ((i : Int) + 1) (rands i) = .ok kp := by
    intro i hi
    have := hr i hi
    cases hri : rands i with
    | nil => rw [hri] at this; simp at this; omega
    | cons a l => exact ⟨_, rfl⟩
  haveI : Nonempty ElectionKeyPair := ⟨⟨"", 0, ⟨0, 0⟩, []⟩⟩
  choose! kp hkp using hgen
  have hid : ∀ i < n, (kp i).ownerId = decStr ((i : Int) + 1) := fun i hi => (generateElectionKeyPair_ok (hkp i hi)).1
  have ho : ∀ i < n, (kp i).sequenceOrder = (i : Int) + 1 := fun i hi => (generateElectionKeyPair_ok (hkp i hi)).2.1
  have hinj : ∀ i < n, ∀ j < n, decStr ((i : Int) + 1) = decStr ((j : Int) + 1) → i = j := by
    intro i _ j _ h
    have := decStr_inj h
    omega
  set rands' : String → List (Nat × Nat) := fun x =>
    match (List.range n).find? (fun i => decStr (((i : Nat) : Int) + 1) == x) with
    | some i => rands i
    | none => [] with hrands'
  have hrr : ∀ i < n, rands' (decStr ((i : Int) + 1)) = rands i := by
    intro i hi
    simp only [hrands']
    cases hf : (List.range n).find? (fun j => decStr (((j : Nat) : Int) + 1) == decStr ((i : Int) + 1)) with
    | none =>
      have := List.find?_eq_none.1 hf i (List.mem_range.2 hi)
      simp at this
    | some j =>
      have h1 := List.find?_some hf
      have h2 := List.mem_range.1 (List.mem_of_find?_eq_some hf)
      have := hinj j h2 i hi (by simpa using h1)
      subst this
      rfl
  refine ⟨(List.range n).map kp, rands', ?_, by simp, ⟨?_, ?_, ?_, ?_, ?_⟩, ?_, hrr⟩
  · unfold createGuardians
    have hto : (CeremonyDetails.mk (n : Int) quorum).numberOfGuardians.toNat = n := by simp
    rw [hto]
    have := mapM_map_ok (fun (i : Nat) =>
      Guardian.fromRandom E (decStr ((i : Int) + 1)) ((i : Int) + 1) n quorum (rands i)) id
      (fun i => Guardian.init (kp i) ⟨n, quorum⟩) (List.range n) (fun i hi => by
        simp only [Guardian.fromRandom, id, hkp i (List.mem_range.1 hi)]
        rfl)
    rw [List.map_id] at this
    rw [this, List.map_map]
    simp
  · rw [List.map_map]
    refine (List.nodup_map_iff_inj_on List.nodup_range).2 (fun i hi j hj h => ?_)
    simp only [Function.comp] at h
    have hi := List.mem_range.1 hi
    have hj := List.mem_range.1 hj
    rw [hid i hi, hid j hj] at h
    exact hinj i hi j hj h
  · intro k hk h
    obtain ⟨i, hi, rfl⟩ := List.mem_map.1 hk
    rw [hid i (List.mem_range.1 hi)] at h
    have h1 := congrArg String.toList h
    unfold decStr at h1
    rw [String.toList_ofList] at h1
    exact decInt_ne_nil _ h1
  · intro k hk
    obtain ⟨i, hi, rfl⟩ := List.mem_map.1 hk
    have hi := List.mem_range.1 hi
    rw [hid i hi, ho i hi, hrr i hi]
    exact hkp i hi
  · intro k hk
    obtain ⟨i, hi, rfl⟩ := List.mem_map.1 hk
    have hi := List.mem_range.1 hi
    rw [hid i hi, hrr i hi]
    exact hr i hi
  · intro k hk
    obtain ⟨i, hi, rfl⟩ := List.mem_map.1 hk
    have hi := List.mem_range.1 hi
    rw [ho i hi]
    have h2 : ((i : Int) + 1).toNat = i + 1 := by omega
    rw [h2]
    refine ⟨by omega, by omega, fun j hj => ?_⟩
    exact Nat.lt_of_le_of_lt (Nat.pow_le_pow_left (by omega) j) (hpow j hj)
  · rw [List.map_map]
    exact List.map_congr_left (fun i hi => ho i (List.mem_range.1 hi))

/-! ### A failing backup -/

theorem failOthers_spec (loads : Bytes → R (List Char)) (pair : String × String) (g : Guardian)
    (f : ElectionKeyPair → Guardian) (v : ElectionKeyPair → Verification) (l : List ElectionKeyPair) (m : KCM)
    (h : ∀ kp ∈ l, g.id ≠ (f kp).id → g.verifyBackup E loads (f kp).id = .ok (v kp)) :
    failOthers E loads pair g (l.map f) m
      = .ok ((l.map (fun kp => if g.id = (f kp).id then [] else
          [if (v kp).ownerId = pair.1 ∧ (v kp).designatedId = pair.2 then ⟨pair.1, pair.2, pair.2, false⟩ else v kp])).foldl
            KCM.receiveVerifications m) := by
  induction l generalizing m with
  | nil => rfl
  | cons kp l ih =>
    rw [List.map_cons, failOthers]
    by_cases hg : g.id = (f kp).id
    · simp only [if_pos hg, bind, Except.bind, pure, Except.pure]
      rw [ih _ (fun x hx => h x (List.mem_cons_of_mem _ hx))]
      simp [hg]
    · simp only [if_neg hg, bind, Except.bind, pure, Except.pure]
      rw [h kp List.mem_cons_self hg]
      simp only
      rw [ih _ (fun x hx => h x (List.mem_cons_of_mem _ hx))]
      simp [hg]

theorem failRound_spec (loads : Bytes → R (List Char)) (pair : String × String) (gs : List Guardian)
    (f : ElectionKeyPair → Guardian) (vs : ElectionKeyPair → List (List Verification)) (l : List ElectionKeyPair) (m : KCM)
    (h : ∀ kp ∈ l, ∀ m, failOthers E loads pair (f kp) gs m = .ok ((vs kp).foldl KCM.receiveVerifications m)) :
    (l.map f).foldlM (fun m g => failOthers E loads pair g gs m) m
      = .ok ((l.flatMap vs).foldl KCM.receiveVerifications m) := by
  induction l generalizing m with
  | nil => rfl
  | cons kp l ih =>
    rw [List.map_cons, List.foldlM_cons, h kp List.mem_cons_self]
    simp only [bind, Except.bind]
    rw [ih _ (fun x hx => h x (List.mem_cons_of_mem _ hx)), List.flatMap_cons, List.foldl_append]

/-- In a dictionary, a filter that only one key passes. -/
theorem filter_one_key {κ α : Type} [DecidableEq κ] {d : List (κ × α)} (hd : (dkeys d).Nodup) {k : κ}
    (hk : k ∈ dkeys d) (f : κ × α → Bool) (hf : ∀ e ∈ d, f e = true ↔ e.1 = k) :
    ∃ v, d.filter f = [(k, v)] ∧ (k, v) ∈ d := by
  induction d with
  | nil => simp [dkeys] at hk
  | cons e d ih =>
    simp only [dkeys, List.map_cons, List.nodup_cons] at hd
    by_cases he : e.1 = k
    · refine ⟨e.2, ?_, by rw [← he]; exact List.mem_cons_self⟩
      rw [List.filter_cons, if_pos ((hf e List.mem_cons_self).2 he)]
      have : d.filter f = [] := by
        refine List.filter_eq_nil_iff.2 (fun x hx hfx => ?_)
        have := (hf x (List.mem_cons_of_mem _ hx)).1 hfx
        exact hd.1 (by rw [he, ← this]; exact List.mem_map_of_mem hx)
      rw [this, ← he]
    · have hk' : k ∈ dkeys d := by
        rcases List.mem_cons.1 hk with h | h
        · exact absurd h.symm he
        · exact h
      obtain ⟨v, h1, h2⟩ := ih hd.2 hk' (fun x hx => hf x (List.mem_cons_of_mem _ hx))
      refine ⟨v, ?_, List.mem_cons_of_mem _ h2⟩
      rw [List.filter_cons, if_neg (fun h => he ((hf e List.mem_cons_self).1 h))]
      exact h1

/-- C65 A ceremony whose third round reports one failed backup, from the first guardian to the second, publishes nothing, and the
mediator names exactly that pair. -/
theorem C65_failed_backup_partial (hv : E.P.Valid) (hlen : HmacLen E) (loads : Bytes → R (List Char))
    (hl : ReadsCoordinate loads) (hq : E.P.q ≤ 256 ^ 246) (me : String) (quorum : Nat)
    (rands : String → List (Nat × Nat)) (k1 k2 : ElectionKeyPair) (ks : List ElectionKeyPair)
    (ht : Team E quorum rands (k1 :: k2 :: ks)) (nonces : String → Nat → Nat) :
    ∃ gs1 m1 gs2 m2 m3, performRound1 ((k1 :: k2 :: ks).map (fun kp => Guardian.init kp ⟨(k1 :: k2 :: ks).length, quorum⟩))
        (KCM.init me ⟨(k1 :: k2 :: ks).length, quorum⟩) = .ok (gs1, m1) ∧
      performRound2 E nonces gs1 m1 = .ok (gs2, m2) ∧
      failRound3 E loads gs2 m2 = .ok ((k1.ownerId, k2.ownerId), m3) ∧
      m3.verificationState = ⟨true, false, [(k1.ownerId, k2.ownerId)]⟩ ∧ m3.publishJointKey E = none := by
  classical
  set kps := k1 :: k2 :: ks with hkps
  obtain ⟨g3, gs1, m1, m2, bss, hr1, hr2, -, hid, hver, hrun2, hsent, hsentall⟩ :=
    rounds12_spec hv hlen loads hl hq me quorum rands kps ht nonces
  have hn := ht.ids
  set pair : String × String := (k1.ownerId, k2.ownerId) with hpair
  set vss : ElectionKeyPair → List (List Verification) := fun kp =>
    kps.map (fun kp' => if (g3 kp).id = (g3 kp').id then [] else
      [if kp'.ownerId = pair.1 ∧ kp.ownerId = pair.2 then ⟨pair.1, pair.2, pair.2, false⟩ else
        ⟨kp'.ownerId, kp.ownerId, kp.ownerId, true⟩]) with hvss
  set m3 := (kps.flatMap vss).foldl KCM.receiveVerifications m2 with hm3
  have hr3 : failRound3 E loads (kps.map g3) m2 = .ok (pair, m3) := by
    have h1 : (kps.map g3).foldlM (fun m g => failOthers E loads pair g (kps.map g3) m) m2 = .ok m3 := by
      refine failRound_spec loads pair _ g3 vss kps m2 (fun kp hkp m => ?_)
      exact failOthers_spec loads pair (g3 kp) g3 (fun kp' => ⟨kp'.ownerId, kp.ownerId, kp.ownerId, true⟩) kps m
        (fun kp' hkp' hne => by
          rw [hid, hid] at hne
          rw [hid]
          exact hver kp hkp kp' hkp' hne)
    have h2 : kps.map g3 = g3 k1 :: g3 k2 :: ks.map g3 := rfl
    rw [h2] at h1 ⊢
    unfold failRound3
    simp only [hid]
    simp only [← hpair]
    rw [h1]
    rfl
  refine ⟨gs1, m1, _, m2, m3, hr1, hr2, hr3, ?_⟩
  -- the state of the mediator
  set ids := kps.map (fun kp => kp.ownerId) with hids
  have hks : (kps.map (fun kp => kp.share)).map (·.ownerId) = ids := by
    rw [List.map_map]; rfl
  rw [hks] at hsent hsentall
  have hlenids : ids.length = kps.length := List.length_map _
  have e1 : ((kps.map (fun kp => kp.share)).map KCMOp.announce).foldl (KCM.step E.P)
      (KCM.init me ⟨(kps.map (fun kp => kp.share)).length, quorum⟩) = mediator1 me ⟨kps.length, quorum⟩ kps := by
    rw [foldl_announce]
    unfold KCM.init mediator1
    rw [foldl_dset_fresh (fun k : ElectionPublicKey => k.ownerId) _ [] (by rw [hks]; exact hn) (by simp [dkeys])]
    simp only [List.map_map, List.length_map, List.nil_append]
    rfl
  have a1 : (mediator1 me ⟨kps.length, quorum⟩ kps).allAnnounced = true := by simp [KCM.allAnnounced, mediator1]
  have hm2 : m2 = bss.flatten.foldl KCM.receiveBackup (mediator1 me ⟨kps.length, quorum⟩ kps) := by
    rw [hrun2]
    unfold KCM.run
    rw [List.foldl_append, e1, foldl_receiveBackups bss _ a1]
  obtain ⟨-, f2, f3, f4⟩ := foldl_receiveBackup_fields bss.flatten (mediator1 me ⟨kps.length, quorum⟩ kps)
  rw [← hm2] at f2 f3 f4
  have hlb : (m2.backups.length : Int) = ((kps.length : Int) - 1) * kps.length := by
    have hnd2 := (backups_foldl bss.flatten (mediator1 me ⟨kps.length, quorum⟩ kps) List.nodup_nil).1
    have := pairs_length hn hnd2 (fun a b => by
      rw [foldl_receiveBackup_keys]
      constructor
      · rintro (h | ⟨c, hc, h, hne⟩)
        · simp [mediator1, dkeys] at h
        · cases h
          exact ⟨(hsent c hc).1, (hsent c hc).2, hne⟩
      · rintro ⟨ha, hb', hne⟩
        obtain ⟨c, hc, rfl, rfl⟩ := hsentall a ha b hb' hne
        exact Or.inr ⟨c, hc, rfl, hne⟩)
    rw [dkeys, List.length_map, ← hm2] at this
    rw [this, ← hlenids]
  have a2 : m2.allBackupsAvailable = true := by
    simp only [KCM.allBackupsAvailable, KCM.allAnnounced, KCM.enoughBackups, f2, f3, hlb]
    simp [mediator1]
  have hm3' : m3 = (kps.flatMap vss).flatten.foldl KCM.receiveVerification m2 := by
    rw [hm3, ← foldl_receiveVerifications (E := E) _ _ a2]
    exact (foldl_step_map E.P KCMOp.receiveVerifications KCM.receiveVerifications (fun _ _ => rfl) _ _).symm
  obtain ⟨-, g2, g3', g4⟩ := foldl_receiveVerification_fields (kps.flatMap vss).flatten m2
  rw [← hm3'] at g2 g3' g4
  have hv2 : m2.verifications = [] := by rw [f4]; rfl
  have hnd3 := verifications_foldl (kps.flatMap vss).flatten m2 (by rw [hv2]; exact List.nodup_nil)
  rw [← hm3'] at hnd3
  have hsentv : ∀ v ∈ (kps.flatMap vss).flatten, v.ownerId ∈ ids ∧ v.designatedId ∈ ids ∧
      (v.verified = false ↔ (v.ownerId, v.designatedId) = pair) := by
    intro v hv'
    obtain ⟨l, hl', hv'⟩ := List.mem_flatten.1 hv'
    obtain ⟨kp, hkp, hl'⟩ := List.mem_flatMap.1 hl'
    obtain ⟨kp', hkp', rfl⟩ := List.mem_map.1 hl'
    split at hv'
    · cases hv'
    · rw [List.mem_singleton] at hv'
      have m1 : kp.ownerId ∈ ids := List.mem_map_of_mem hkp
      have m2 : kp'.ownerId ∈ ids := List.mem_map_of_mem hkp'
      by_cases hc : kp'.ownerId = pair.1 ∧ kp.ownerId = pair.2
      · rw [if_pos hc] at hv'
        subst hv'
        exact ⟨hc.1 ▸ m2, hc.2 ▸ m1, by simp⟩
      · rw [if_neg hc] at hv'
        subst hv'
        refine ⟨m2, m1, ?_⟩
        simp only [Bool.true_eq_false, false_iff, Prod.ext_iff]
        exact hc
  have hallv : ∀ a ∈ ids, ∀ b ∈ ids, a ≠ b → ∃ v ∈ (kps.flatMap vss).flatten, v.ownerId = a ∧ v.designatedId = b := by
    intro a ha b hb hne
    obtain ⟨kp, hkp, rfl⟩ := List.mem_map.1 ha
    obtain ⟨kp', hkp', rfl⟩ := List.mem_map.1 hb
    refine ⟨if kp.ownerId = pair.1 ∧ kp'.ownerId = pair.2 then ⟨pair.1, pair.2, pair.2, false⟩ else
        ⟨kp.ownerId, kp'.ownerId, kp'.ownerId, true⟩, List.mem_flatten.2 ⟨_,
      List.mem_flatMap.2 ⟨kp', hkp', List.mem_map.2 ⟨kp, hkp, rfl⟩⟩, ?_⟩, ?_⟩
    · rw [if_neg (fun h => hne (by rw [hid, hid] at h; exact h.symm))]
      exact List.mem_singleton.2 rfl
    · split
      · rename_i hc; exact ⟨hc.1.symm, hc.2.symm⟩
      · exact ⟨rfl, rfl⟩
  have hkeys3 : ∀ a b, (a, b) ∈ dkeys m3.verifications ↔ a ∈ ids ∧ b ∈ ids ∧ a ≠ b := by
    intro a b
    rw [hm3', foldl_receiveVerification_keys]
    constructor
    · rintro (h | ⟨c, hc, h, hne⟩)
      · simp [hv2, dkeys] at h
      · cases h
        exact ⟨(hsentv c hc).1, (hsentv c hc).2.1, hne⟩
    · rintro ⟨ha, hb', hne⟩
      obtain ⟨c, hc, rfl, rfl⟩ := hallv a ha b hb' hne
      exact Or.inr ⟨c, hc, rfl, hne⟩
  have hlv : (m3.verifications.length : Int) = ((kps.length : Int) - 1) * kps.length := by
    have := pairs_length hn hnd3.1 hkeys3
    rw [dkeys, List.length_map] at this
    rw [this, ← hlenids]
  have hpmem : pair ∈ dkeys m3.verifications := by
    refine (hkeys3 _ _).2 ⟨List.mem_map_of_mem (by simp [hkps]), List.mem_map_of_mem (by simp [hkps]), ?_⟩
    simp only [hids, hkps, List.map_cons, List.nodup_cons, List.mem_cons, not_or] at hn
    exact hn.1.1
  obtain ⟨v, hfil, hvmem⟩ := filter_one_key hnd3.1 hpmem (fun e => !e.2.verified) (fun e he => by
    rcases hnd3.2 e he with h | ⟨h, h', -⟩
    · rw [hv2] at h; cases h
    · rw [h', ← (hsentv _ h).2.2]
      simp)
  have hvp : (v.ownerId, v.designatedId) = pair := by
    rcases hnd3.2 _ hvmem with h | ⟨-, h', -⟩
    · rw [hv2] at h; cases h
    · exact h'.symm
  have hst : m3.verificationState = ⟨true, false, [pair]⟩ := by
    have a3 : m3.allBackupsAvailable = true := by
      simp only [KCM.allBackupsAvailable, KCM.allAnnounced, KCM.enoughBackups, g2, g3', g4] at a2 ⊢
      exact a2
    have a4 : m3.enoughVerifications = true := by
      simp only [KCM.enoughVerifications, g2, f2, hlv]
      simp [mediator1]
    unfold KCM.verificationState KCM.checkVerification
    rw [a3, a4, hfil]
    simp [hvp]
  refine ⟨hst, ?_⟩
  unfold KCM.publishJointKey KCM.allBackupsVerified
  rw [hst]
  rfl

/-! ### Concrete ceremonies -/

/-- Random numbers of three guardians. -/
def toyRands (i : String) : List (Nat × Nat) :=
  if i = "c" then [(5, 1), (2, 3)] else if i = "a" then [(6, 1), (3, 3)] else if i = "b" then [(4, 1), (7, 3)] else []

/-- Their key pairs. -/
def toyTeam : List ElectionKeyPair :=
  [("c", 1), ("a", 2), ("b", 3)].map (fun e =>
    match generateElectionKeyPair toyEnv e.1 e.2 (toyRands e.1) with
    | .ok kp => kp
    | .error _ => ⟨"", 0, ⟨0, 0⟩, []⟩)

example : Team toyEnv 2 toyRands toyTeam := by
  constructor <;> decide +kernel

/-- C65 (negative) A guardian whose id is the empty text does not get its backups: `share_backups` takes the empty id for no id and
hands out all backups, and of those of one owner the guardian keeps the last, here one made for another guardian. -/
theorem C65_empty_id_fails : ∃ (m : KCM) (g : Guardian) (bs : List Backup), g.id = "" ∧
    (dkeys m.keys).Nodup ∧ g.id ∈ dkeys m.keys ∧ m.allBackupsAvailable = true ∧
    m.shareBackups (some g.id) = .ok (some bs) ∧
    ∃ b, dget (bs.foldl Guardian.saveBackup g).guardianBackups "a" = some b ∧ b.designatedId ≠ g.id := by
  refine ⟨⟨"m", ⟨3, 2⟩, ["", "a", "b"].map (fun i => (i, ⟨i, 1, 1, [], []⟩)),
    [("", "a"), ("", "b"), ("a", ""), ("a", "b"), ("b", ""), ("b", "a")].map
      (fun e => (e, ⟨e.1, e.2, 1, ⟨1, [], []⟩⟩)), []⟩, Guardian.init ⟨"", 1, ⟨1, 1⟩, []⟩ ⟨3, 2⟩, _, rfl,
    by decide +kernel, by decide +kernel, by decide +kernel, rfl, ⟨"a", "b", 1, ⟨1, [], []⟩⟩, by decide +kernel,
    by decide +kernel⟩

end EG
