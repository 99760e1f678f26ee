import Verif.Lemmas.Decryption

/-!
# Lemmas for the reconstruction of the shares of missing guardians
-/

namespace EG

variable {E : Env}

theorem dgetR_some {κ α : Type} [DecidableEq κ] {d : List (κ × α)} {k : κ} {v : α} (h : dget d k = some v) :
    dgetR d k = .ok v := by
  unfold dgetR
  rw [h]

theorem mapM_map_inv {α β : Type} (f : α → R β) (g : α → β) (l : List α) (h : l.mapM f = .ok (l.map g)) :
    ∀ x ∈ l, f x = .ok (g x) := by
  induction l with
  | nil => intro x hx; cases hx
  | cons a l ih =>
    rw [List.mapM_cons] at h
    simp only [bind, Except.bind, pure, Except.pure, List.map_cons] at h
    cases ha : f a with
    | error e => rw [ha] at h; cases h
    | ok b =>
      rw [ha] at h
      simp only at h
      cases hl : l.mapM f with
      | error e => rw [hl] at h; cases h
      | ok bs =>
        rw [hl] at h
        simp only [Except.ok.injEq, List.cons.injEq] at h
        intro x hx
        rcases List.mem_cons.1 hx with rfl | hx
        · rw [ha, h.1]
        · exact ih (by rw [hl, h.2]) x hx

theorem foldlM_dset_ok {α β : Type} (key : α → String) (f : α → R β) (g : α → β) (l : List α) (d : List (String × β))
    (h : ∀ x ∈ l, f x = .ok (g x)) :
    l.foldlM (fun d x => do
      let r ← f x
      return dset d (key x) r) d = .ok (l.foldl (fun d x => dset d (key x) (g x)) d) := by
  induction l generalizing d with
  | nil => rfl
  | cons a l ih =>
    rw [List.foldlM_cons, h a (List.mem_cons_self ..)]
    simp only [bind, Except.bind, pure, Except.pure, List.foldl_cons] at ih ⊢
    exact ih _ (fun x hx => h x (List.mem_cons_of_mem _ hx))

/-- The Lagrange coefficients of the available guardians. -/
theorem lagrange_right (hv : E.P.Valid) (as : List Nat) (keys : List ElectionPublicKey)
    (hid : (keys.map (fun k => k.ownerId)).Nodup) (hpos : ∀ k ∈ keys, 0 ≤ k.sequenceOrder)
    (hord : (keys.map (fun k => (k.sequenceOrder : ZMod E.P.q))).Nodup) (hlen : as.length ≤ keys.length) :
    ∃ L : ElectionPublicKey → Nat, lagrangeForGuardians E.P keys = .ok (keys.map (fun k => (k.ownerId, L k))) ∧
      (keys.map (fun k => (L k : ZMod E.P.q) * (polyAt as k.sequenceOrder.toNat : ZMod E.P.q))).sum
        = ((polyAt as 0 : Nat) : ZMod E.P.q) := by
  have hnat : ∀ k ∈ keys, ((k.sequenceOrder.toNat : Nat) : Int) = k.sequenceOrder :=
    fun k hk => Int.toNat_of_nonneg (hpos k hk)
  let xs := keys.map (fun k => k.sequenceOrder.toNat)
  let others : Nat → List Int := fun x =>
    (keys.filter (fun g => decide (g.sequenceOrder ≠ (x : Int)))).map (fun k => k.sequenceOrder)
  have hcast : xs.map (fun x : Nat => (x : ZMod E.P.q)) = keys.map (fun k => (k.sequenceOrder : ZMod E.P.q)) := by
    rw [List.map_map]
    refine List.map_congr_left (fun k hk => ?_)
    simp only [Function.comp]
    rw [← Int.cast_natCast, hnat k hk]
  have hxs : xs.Nodup := List.Nodup.of_map _ (by rw [hcast]; exact hord)
  have hmapint : xs.map (fun y : Nat => (y : Int)) = keys.map (fun k => k.sequenceOrder) := by
    rw [List.map_map]
    exact List.map_congr_left (fun k hk => hnat k hk)
  have hothers : ∀ x ∈ xs, (others x).Perm ((xs.erase x).map (fun y : Nat => (y : Int))) := by
    intro x hx
    refine List.Perm.of_eq ?_
    have h1 : others x = (keys.map (fun k => k.sequenceOrder)).filter (fun i => decide (i ≠ (x : Int))) := by
      simp only [others, List.filter_map]
      rfl
    rw [h1, ← hmapint, hxs.erase_eq_filter, List.filter_map]
    congr 1
    refine List.filter_congr (fun y _ => ?_)
    by_cases hxy : y = x <;> simp [hxy]
  obtain ⟨L, h1, _, h3⟩ := lagranges_spec hv as xs others (by rw [hcast]; exact hord) hothers (by simpa [xs] using hlen)
  refine ⟨fun k => L k.sequenceOrder.toNat, ?_, ?_⟩
  · have hone : ∀ k ∈ keys, lagrangeForGuardian E.P k keys = .ok (L k.sequenceOrder.toNat) := by
      intro k hk
      have h2 : ∀ x ∈ xs, computeLagrange E.P (x : Int) (others x) = .ok (L x) := by
        intro x hx
        exact mapM_map_inv _ _ _ h1 x hx
      have h3 := h2 k.sequenceOrder.toNat (List.mem_map.2 ⟨k, hk, rfl⟩)
      rw [hnat k hk] at h3
      unfold lagrangeForGuardian
      rw [← h3]
      congr 1
      simp only [others]
      congr 1
      refine List.filter_congr (fun g hg => ?_)
      rw [hnat k hk]
      have : g.ownerId ≠ k.ownerId ↔ g.sequenceOrder ≠ k.sequenceOrder := by
        refine not_congr ⟨fun h => ?_, fun h => ?_⟩
        · rw [List.inj_on_of_nodup_map hid hg hk h]
        · rw [List.inj_on_of_nodup_map (f := fun k : ElectionPublicKey => (k.sequenceOrder : ZMod E.P.q)) hord hg hk
            (by simp only [h])]
      simp only [this]
    unfold lagrangeForGuardians
    rw [foldlM_dset_ok (fun k : ElectionPublicKey => k.ownerId) _ _ keys [] hone,
      foldl_dset_map_fresh (fun k : ElectionPublicKey => k.ownerId) _ keys [] hid (by simp [dkeys])]
    rfl
  · rw [← h3]
    simp only [xs, List.map_map]
    rfl

/-- Combining right parts of one selection: the product of the parts to the power of their coefficients is the
partial decryption with the secret key of the missing guardian. -/
theorem combine_right (hv : E.P.Valid) (as : List Nat) (keys : List ElectionPublicKey) (L : ElectionPublicKey → Nat)
    (hsum : (keys.map (fun k => (L k : ZMod E.P.q) * (polyAt as k.sequenceOrder.toNat : ZMod E.P.q))).sum
        = ((polyAt as 0 : Nat) : ZMod E.P.q))
    (hid : (keys.map (fun k => k.ownerId)).Nodup) (pad : Nat) (hpad : isValidResidue E.P pad = true)
    (parts : List (String × CompSelection)) (hperm : (parts.map (fun e => e.1)).Perm (keys.map (fun k => k.ownerId)))
    (hparts : ∀ e ∈ parts, ∀ k ∈ keys, k.ownerId = e.1 →
      e.2.share = pad ^ (polyAt as k.sequenceOrder.toNat % E.P.q) % E.P.p) :
    ∃ pows, sharePowers E.P (keys.map (fun k => (k.ownerId, L k))) parts = .ok pows ∧
      multPs E.P pows = pad ^ (polyAt as 0) % E.P.p := by
  classical
  have : Fact E.P.p.Prime := ⟨hv.p_prime⟩
  -- the key of a part
  have hkey : ∀ e ∈ parts, ∃ k ∈ keys, k.ownerId = e.1 := by
    intro e he
    have := hperm.subset (List.mem_map.2 ⟨e, he, rfl⟩)
    obtain ⟨k, hk, h⟩ := List.mem_map.1 this
    exact ⟨k, hk, h⟩
  have hlag : ∀ k ∈ keys, dget (keys.map (fun k => (k.ownerId, L k))) k.ownerId = some (L k) := by
    intro k hk
    refine dget_of_mem ?_ (List.mem_map.2 ⟨k, hk, rfl⟩)
    simpa [dkeys, List.map_map, Function.comp_def] using hid
  obtain ⟨r, hr⟩ := residue_log hv hpad
  -- the value of an id
  let y : String → Nat := fun i => match keys.find? (fun k => k.ownerId == i) with
    | some k => L k * polyAt as k.sequenceOrder.toNat
    | none => 0
  have hy : ∀ k ∈ keys, y k.ownerId = L k * polyAt as k.sequenceOrder.toNat := by
    intro k hk
    simp only [y, find?_of_nodup (fun k : ElectionPublicKey => k.ownerId) hid hk]
  let g : String × CompSelection → Nat := fun e => match keys.find? (fun k => k.ownerId == e.1) with
    | some k => powP E.P e.2.share (L k)
    | none => 0
  have hg : ∀ e ∈ parts, ∀ k ∈ keys, k.ownerId = e.1 → g e = powP E.P e.2.share (L k) := by
    intro e he k hk hke
    simp only [g, ← hke, find?_of_nodup (fun k : ElectionPublicKey => k.ownerId) hid hk]
  refine ⟨parts.map g, ?_, ?_⟩
  · refine mapM_ok _ g parts (fun e he => ?_)
    obtain ⟨k, hk, hke⟩ := hkey e he
    rw [hg e he k hk hke, ← hke, dgetR_some (hlag k hk)]
    rfl
  · have hlt : pad ^ (polyAt as 0) % E.P.p < E.P.p := Nat.mod_lt _ hv.p_pos
    rw [← castP_inj (multPs_lt hv.one_lt_p _) hlt, multPs_cast, List.map_map, ZMod.natCast_mod, Nat.cast_pow]
    have hgy : ∀ e ∈ parts, ((fun x : Nat => (x : ZMod E.P.p)) ∘ g) e = (pad : ZMod E.P.p) ^ y e.1 := by
      intro e he
      obtain ⟨k, hk, hke⟩ := hkey e he
      simp only [Function.comp]
      rw [hg e he k hk hke, ← hke, hy k hk, powP_cast, hparts e he k hk hke, ZMod.natCast_mod, Nat.cast_pow, hr,
        ← pow_mul, ← pow_mul, ← pow_mul, g_eq_iff hv]
      push_cast
      rw [ZMod.natCast_mod]
      ring
    rw [List.map_congr_left hgy]
    have h1 : parts.map (fun e => (pad : ZMod E.P.p) ^ y e.1)
        = ((parts.map (fun e => e.1)).map y).map (fun n => (pad : ZMod E.P.p) ^ n) := by
      rw [List.map_map, List.map_map]; rfl
    rw [h1, powProd, (hperm.map y).sum_eq, List.map_map]
    rw [hr, ← pow_mul, ← pow_mul, g_eq_iff hv]
    push_cast
    congr 1
    rw [← hsum, List.map_map]
    congr 1
    refine List.map_congr_left (fun k hk => ?_)
    simp only [Function.comp, hy k hk, Nat.cast_mul]

theorem reconstructLoop_right {missingId : String} {contestShares : List (String × CompContest)}
    {lagrange : List (String × Nat)} (f : CtSelection → DecSelection) (l : List CtSelection)
    (d : List (String × DecSelection))
    (h : ∀ s ∈ l, ∃ comps pows, compsForSelection contestShares s.objectId = .ok comps ∧
      sharePowers E.P lagrange comps = .ok pows ∧
      f s = ⟨s.objectId, missingId, multPs E.P pows, none, some comps⟩) :
    reconstructLoop E.P missingId contestShares lagrange l d
      = .ok (l.foldl (fun d s => dset d s.objectId (f s)) d) := by
  induction l generalizing d with
  | nil => rfl
  | cons s l ih =>
    obtain ⟨comps, pows, h1, h2, h3⟩ := h s (List.mem_cons_self ..)
    unfold reconstructLoop
    simp only [h1, h2, bind, Except.bind, List.foldl_cons, h3]
    exact ih _ (fun s' hs' => h s' (List.mem_cons_of_mem _ hs'))

/-- The share reconstructed from right compensated shares of all available guardians is right for the secret key of
the missing guardian. -/
theorem reconstructShare_right (hv : E.P.Valid) {baseHash : Nat} (as : List Nat) (keys : List ElectionPublicKey)
    (hid : (keys.map (fun k => k.ownerId)).Nodup) (hpos : ∀ k ∈ keys, 0 ≤ k.sequenceOrder)
    (hord : (keys.map (fun k => (k.sequenceOrder : ZMod E.P.q))).Nodup) (hlen : as.length ≤ keys.length)
    (missing : ElectionPublicKey) (objectId : String) (cs : List CtContest) (hids : DistinctIds cs)
    (hres : ∀ s ∈ ctSelections cs, isValidResidue E.P s.ciphertext.pad = true)
    (shares : List (String × CompShare)) (hperm : (shares.map (fun e => e.1)).Perm (keys.map (fun k => k.ownerId)))
    (hshares : ∀ e ∈ shares, ∀ k ∈ keys, k.ownerId = e.1 →
      CompFor E baseHash (polyAt as k.sequenceOrder.toNat % E.P.q) cs e.2) :
    ∃ lagrange sh, lagrangeForGuardians E.P keys = .ok lagrange ∧
      reconstructShare E.P missing objectId cs shares lagrange = .ok sh ∧ sh.objectId = objectId ∧
      sh.guardianId = missing.ownerId ∧ ShareFor E baseHash (polyAt as 0) missing.key cs sh := by
  classical
  obtain ⟨L, hL, hsum⟩ := lagrange_right (E := E) hv as keys hid hpos hord hlen
  set lagrange := keys.map (fun k => (k.ownerId, L k)) with hlagrange
  have hkey : ∀ e ∈ shares, ∃ k ∈ keys, k.ownerId = e.1 := by
    intro e he
    obtain ⟨k, hk, h⟩ := List.mem_map.1 (hperm.subset (List.mem_map.2 ⟨e, he, rfl⟩))
    exact ⟨k, hk, h⟩
  -- one contest
  have hcontest : ∀ c ∈ cs, ∃ f : CtSelection → DecSelection,
      reconstructContest E.P missing.ownerId c shares lagrange
        = .ok ⟨c.objectId, missing.ownerId, c.descriptionHash, c.selections.map (fun s => (s.objectId, f s))⟩ ∧
      ∀ s ∈ c.selections, (f s).objectId = s.objectId ∧ (f s).share = s.ciphertext.pad ^ (polyAt as 0) % E.P.p ∧
        (f s).isValid E s.ciphertext missing.key baseHash = true := by
    intro c hc
    -- the contest in every share
    have h1 : ∃ cc : String × CompShare → CompContest, ∀ e ∈ shares, dget e.2.contests c.objectId = some (cc e) ∧
        ∀ k ∈ keys, k.ownerId = e.1 → ∀ s ∈ c.selections, ∃ z, dget (cc e).selections s.objectId = some z ∧
          z.share = s.ciphertext.pad ^ (polyAt as k.sequenceOrder.toNat % E.P.q) % E.P.p ∧
          z.proof.isValid E s.ciphertext z.recoveryKey z.share baseHash = true := by
      have : ∀ e : String × CompShare, ∃ x, e ∈ shares → dget e.2.contests c.objectId = some x ∧
          ∀ k ∈ keys, k.ownerId = e.1 → ∀ s ∈ c.selections, ∃ z, dget x.selections s.objectId = some z ∧
            z.share = s.ciphertext.pad ^ (polyAt as k.sequenceOrder.toNat % E.P.q) % E.P.p ∧
            z.proof.isValid E s.ciphertext z.recoveryKey z.share baseHash = true := by
        intro e
        by_cases he : e ∈ shares
        · obtain ⟨k, hk, hke⟩ := hkey e he
          obtain ⟨x, hx, hx'⟩ := hshares e he k hk hke c hc
          refine ⟨x, fun _ => ⟨hx, fun k' hk' hke' s hs => ?_⟩⟩
          obtain ⟨x', hx2, hx2'⟩ := hshares e he k' hk' hke' c hc
          rw [hx] at hx2
          cases hx2
          obtain ⟨z, hz1, _, hz2⟩ := hx2' s hs
          exact ⟨z, hz1, hz2⟩
        · exact ⟨⟨"", "", "", 0, []⟩, fun h => absurd h he⟩
      choose cc hcc using this
      exact ⟨cc, hcc⟩
    obtain ⟨cc, hcc⟩ := h1
    set contestShares := shares.map (fun e => (e.1, cc e)) with hcs
    have h2 : shares.mapM (fun e => do return (e.1, ← dgetR e.2.contests c.objectId)) = .ok contestShares := by
      refine mapM_ok _ (fun e => (e.1, cc e)) shares (fun e he => ?_)
      rw [dgetR_some (hcc e he).1]
      rfl
    -- one selection
    have h3 : ∀ s : CtSelection, ∃ x : DecSelection, s ∈ c.selections →
        (∃ comps pows, compsForSelection contestShares s.objectId = .ok comps ∧
          sharePowers E.P lagrange comps = .ok pows ∧
          x = ⟨s.objectId, missing.ownerId, multPs E.P pows, none, some comps⟩) ∧
        x.objectId = s.objectId ∧ x.share = s.ciphertext.pad ^ (polyAt as 0) % E.P.p ∧
        x.isValid E s.ciphertext missing.key baseHash = true := by
      intro s
      by_cases hs : s ∈ c.selections
      · have hz : ∀ e ∈ shares, ∃ z, dget (cc e).selections s.objectId = some z ∧
            (∀ k ∈ keys, k.ownerId = e.1 →
              z.share = s.ciphertext.pad ^ (polyAt as k.sequenceOrder.toNat % E.P.q) % E.P.p) ∧
            z.proof.isValid E s.ciphertext z.recoveryKey z.share baseHash = true := by
          intro e he
          obtain ⟨k, hk, hke⟩ := hkey e he
          obtain ⟨z, h1, h2, h3⟩ := (hcc e he).2 k hk hke s hs
          refine ⟨z, h1, fun k' hk' hke' => ?_, h3⟩
          rw [← List.inj_on_of_nodup_map hid hk hk' (hke.trans hke'.symm)]
          exact h2
        have hz' : ∀ e : String × CompShare, ∃ z, e ∈ shares → dget (cc e).selections s.objectId = some z ∧
            (∀ k ∈ keys, k.ownerId = e.1 →
              z.share = s.ciphertext.pad ^ (polyAt as k.sequenceOrder.toNat % E.P.q) % E.P.p) ∧
            z.proof.isValid E s.ciphertext z.recoveryKey z.share baseHash = true := by
          intro e
          by_cases he : e ∈ shares
          · obtain ⟨z, h⟩ := hz e he
            exact ⟨z, fun _ => h⟩
          · exact ⟨⟨"", "", "", 0, 0, ⟨0, 0, 0, 0⟩⟩, fun h => absurd h he⟩
        choose z hzz using hz'
        have h4 : compsForSelection contestShares s.objectId = .ok (shares.map (fun e => (e.1, z e))) := by
          unfold compsForSelection
          rw [hcs, List.mapM_map]
          refine mapM_ok _ (fun e => (e.1, z e)) shares (fun e he => ?_)
          simp only [Function.comp]
          rw [dgetR_some (hzz e he).1]
          rfl
        obtain ⟨pows, h5, h6⟩ := combine_right hv as keys L hsum hid s.ciphertext.pad
          (hres s (List.mem_flatMap.2 ⟨c, hc, hs⟩)) (shares.map (fun e => (e.1, z e)))
          (by rw [List.map_map]; exact hperm) (by
            intro e he k hk hke
            obtain ⟨e', he', rfl⟩ := List.mem_map.1 he
            exact (hzz e' he').2.1 k hk hke)
        refine ⟨⟨s.objectId, missing.ownerId, multPs E.P pows, none, some (shares.map (fun e => (e.1, z e)))⟩,
          fun _ => ⟨⟨_, pows, h4, h5, rfl⟩, rfl, h6, ?_⟩⟩
        simp only [DecSelection.isValid, List.all_eq_true, List.mem_map]
        rintro _ ⟨e, he, rfl⟩
        exact (hzz e he).2.2
      · exact ⟨⟨"", "", 0, none, none⟩, fun h => absurd h hs⟩
    choose f hf using h3
    refine ⟨f, ?_, fun s hs => (hf s hs).2⟩
    unfold reconstructContest
    rw [h2]
    simp only [bind, Except.bind]
    rw [reconstructLoop_right f c.selections [] (fun s hs => (hf s hs).1),
      foldl_dset_map_fresh (fun s : CtSelection => s.objectId) f c.selections [] (nodup_selections hids hc)
        (by simp [dkeys])]
    rfl
  have hcontest' : ∀ c : CtContest, ∃ f : CtSelection → DecSelection, c ∈ cs →
      reconstructContest E.P missing.ownerId c shares lagrange
        = .ok ⟨c.objectId, missing.ownerId, c.descriptionHash, c.selections.map (fun s => (s.objectId, f s))⟩ ∧
      ∀ s ∈ c.selections, (f s).objectId = s.objectId ∧ (f s).share = s.ciphertext.pad ^ (polyAt as 0) % E.P.p ∧
        (f s).isValid E s.ciphertext missing.key baseHash = true := by
    intro c
    by_cases hc : c ∈ cs
    · obtain ⟨f, h⟩ := hcontest c hc
      exact ⟨f, fun _ => h⟩
    · exact ⟨fun _ => ⟨"", "", 0, none, none⟩, fun h => absurd h hc⟩
  choose f hf using hcontest'
  let dc : CtContest → DecContest := fun c =>
    ⟨c.objectId, missing.ownerId, c.descriptionHash, c.selections.map (fun s => (s.objectId, f c s))⟩
  refine ⟨lagrange, ⟨objectId, missing.ownerId, missing.key, cs.map (fun c => (c.objectId, dc c))⟩, hL, ?_, rfl, rfl,
    ⟨rfl, ?_⟩⟩
  · unfold reconstructShare
    rw [foldlM_dset_ok (fun c : CtContest => c.objectId) _ dc cs [] (fun c hc => (hf c hc).1),
      foldl_dset_map_fresh (fun c : CtContest => c.objectId) dc cs [] hids.contests (by simp [dkeys])]
    rfl
  · unfold ctSelections DecShare.allSelections
    refine forall₂_flatMap (R := fun (c : CtContest) (e : String × DecContest) => c ∈ cs ∧ e.2 = dc c) _ _ ?_ ?_
    · rw [List.forall₂_map_right_iff]
      exact List.forall₂_same.2 (fun c hc => ⟨hc, rfl⟩)
    · rintro c e ⟨hc, he⟩
      rw [he]
      simp only [dc, List.map_map, List.forall₂_map_right_iff]
      exact List.forall₂_same.2 (fun s hs => (hf c hc).2 s hs)

/-! ### Compensated shares -/

/-- The compensated share of one selection that an honest guardian makes. -/
def honestComp (E : Env) (y : Nat) (av ms : ElectionPublicKey) (baseHash : Nat) (s : CtSelection) (seed : Nat) :
    CompSelection :=
  ⟨s.objectId, av.ownerId, ms.ownerId, s.ciphertext.partialDecrypt E.P y, computeRecoveryKey E.P av ms,
    makeCP E s.ciphertext y (s.ciphertext.partialDecrypt E.P y) seed baseHash⟩

theorem compForSelection_ok (hv : E.P.Valid) {y : Nat} {av ms : ElectionPublicKey}
    (hk : computeRecoveryKey E.P av ms = E.P.g ^ y % E.P.p) (s : CtSelection) (ctx : Context) (seed : Nat)
    (hh : ctx.cryptoExtendedBaseHash < E.P.q)
    (h1 : isValidResidue E.P s.ciphertext.pad = true) (h2 : isValidResidue E.P s.ciphertext.data = true) :
    compForSelection E y av ms s ctx seed = some (honestComp E y av ms ctx.cryptoExtendedBaseHash s seed) ∧
    (honestComp E y av ms ctx.cryptoExtendedBaseHash s seed).proof.isValid E s.ciphertext
      (honestComp E y av ms ctx.cryptoExtendedBaseHash s seed).recoveryKey
      (honestComp E y av ms ctx.cryptoExtendedBaseHash s seed).share ctx.cryptoExtendedBaseHash = true := by
  have := C07_completeness E hv s.ciphertext y seed ctx.cryptoExtendedBaseHash h1 h2 hh
  rw [← hk] at this
  constructor
  · simp only [compForSelection, decryptWithThreshold, this, if_true, honestComp]
  · exact this

/-- The recovery key is the one that belongs to the coordinate. -/
theorem recoveryKey_right (hv : E.P.Valid) (as : List Nat) {av ms : ElectionPublicKey}
    (hcom : ms.commitments = as.map (fun a => E.P.g ^ a % E.P.p)) (hpos : 0 ≤ av.sequenceOrder) :
    computeRecoveryKey E.P av ms = E.P.g ^ (polyAt as av.sequenceOrder.toNat % E.P.q) % E.P.p := by
  unfold computeRecoveryKey
  rw [hcom, C11_recovery_key hv]
  have : polyAt as (av.sequenceOrder % (E.P.q : Int)).toNat % E.P.q
      = polyAt as av.sequenceOrder.toNat % E.P.q := by
    have : Fact E.P.q.Prime := ⟨hv.q_prime⟩
    rw [← castP_inj (Nat.mod_lt _ hv.q_pos) (Nat.mod_lt _ hv.q_pos), ZMod.natCast_mod, ZMod.natCast_mod, polyAt_cast,
      polyAt_cast]
    have h : (((av.sequenceOrder % (E.P.q : Int)).toNat : Nat) : ZMod E.P.q)
        = ((av.sequenceOrder.toNat : Nat) : ZMod E.P.q) := by
      have h1 : (av.sequenceOrder % (E.P.q : Int)).toNat = av.sequenceOrder.toNat % E.P.q := by
        rw [Int.toNat_emod hpos (by exact_mod_cast (Nat.zero_le _)), Int.toNat_natCast]
      rw [h1, ZMod.natCast_mod]
    rw [h]
  rw [this]

/-- The honest compensated share of a contest. -/
def honestCompContest (E : Env) (y : Nat) (av ms : ElectionPublicKey) (baseHash : Nat) (c : CtContest)
    (seeds : Nat → Nat) : CompContest :=
  ⟨c.objectId, av.ownerId, ms.ownerId, c.descriptionHash,
    c.selections.zipIdx.map (fun e => (e.1.objectId, honestComp E y av ms baseHash e.1 (seeds e.2)))⟩

theorem compForContest_ok (hv : E.P.Valid) {y : Nat} {av ms : ElectionPublicKey}
    (hk : computeRecoveryKey E.P av ms = E.P.g ^ y % E.P.p) (c : CtContest) (ctx : Context) (seeds : Nat → Nat)
    (hh : ctx.cryptoExtendedBaseHash < E.P.q) (hids : (c.selections.map (fun s => s.objectId)).Nodup)
    (hres : ∀ s ∈ c.selections, isValidResidue E.P s.ciphertext.pad = true ∧
      isValidResidue E.P s.ciphertext.data = true) :
    compForContest E true y av ms c ctx seeds
      = some (honestCompContest E y av ms ctx.cryptoExtendedBaseHash c seeds) := by
  have h1 : c.selections.zipIdx.map (fun e : CtSelection × Nat => compForSelection E y av ms e.1 ctx (seeds e.2))
      = (c.selections.zipIdx.map (fun e : CtSelection × Nat =>
          honestComp E y av ms ctx.cryptoExtendedBaseHash e.1 (seeds e.2))).map some := by
    rw [List.map_map]
    refine List.map_congr_left (fun e he => ?_)
    have := hres e.1 (mem_of_zipIdx he)
    exact (compForSelection_ok hv hk e.1 ctx (seeds e.2) hh this.1 this.2).1
  simp only [compForContest, schedule, if_true, h1]
  rw [collectById_fresh (fun s : CompSelection => s.objectId), Option.map_some, honestCompContest, List.map_map]
  · rfl
  · rw [List.map_map]
    have : c.selections.zipIdx.map ((fun s : CompSelection => s.objectId) ∘ fun e : CtSelection × Nat =>
        honestComp E y av ms ctx.cryptoExtendedBaseHash e.1 (seeds e.2))
        = c.selections.map (fun s => s.objectId) := zipIdx_map_fst (fun s : CtSelection => s.objectId) _ _
    rw [this]
    exact hids

theorem exists_zipIdx {α : Type} {l : List α} {n : Nat} {a : α} (h : a ∈ l) : ∃ i, (a, i) ∈ l.zipIdx n := by
  have : a ∈ (l.zipIdx n).map (fun e => e.1) := by
    rw [zipIdx_map_fst (fun a => a)]; simpa using h
  obtain ⟨⟨a', i⟩, he, rfl⟩ := List.mem_map.1 this
  exact ⟨i, he⟩

/-- The compensated share an honest guardian computes exists and is right for its coordinate. -/
theorem compForContests_ok (hv : E.P.Valid) {y : Nat} {av ms : ElectionPublicKey}
    (hk : computeRecoveryKey E.P av ms = E.P.g ^ y % E.P.p) (objectId : String) (cs : List CtContest) (ctx : Context)
    (seeds : Nat → Nat → Nat) (hh : ctx.cryptoExtendedBaseHash < E.P.q) (hids : DistinctIds cs)
    (hres : ∀ s ∈ ctSelections cs, isValidResidue E.P s.ciphertext.pad = true ∧
      isValidResidue E.P s.ciphertext.data = true) :
    ∃ sh, compForContests E true y av ms objectId cs ctx seeds = some sh ∧ sh.objectId = objectId ∧
      sh.guardianId = av.ownerId ∧ sh.missingId = ms.ownerId ∧
      CompFor E ctx.cryptoExtendedBaseHash y cs sh := by
  have hsub : ∀ c ∈ cs, ∀ s ∈ c.selections, s ∈ ctSelections cs := fun c hc s hs => List.mem_flatMap.2 ⟨c, hc, hs⟩
  have h1 : cs.zipIdx.map (fun e : CtContest × Nat => compForContest E true y av ms e.1 ctx (seeds e.2))
      = (cs.zipIdx.map (fun e : CtContest × Nat =>
          honestCompContest E y av ms ctx.cryptoExtendedBaseHash e.1 (seeds e.2))).map some := by
    rw [List.map_map]
    refine List.map_congr_left (fun e he => ?_)
    have hc := mem_of_zipIdx he
    exact compForContest_ok hv hk e.1 ctx (seeds e.2) hh (nodup_selections hids hc)
      (fun s hs => hres s (hsub e.1 hc s hs))
  have h2 : ((cs.zipIdx.map (fun e : CtContest × Nat =>
      honestCompContest E y av ms ctx.cryptoExtendedBaseHash e.1 (seeds e.2))).map
        (fun c : CompContest => c.objectId)).Nodup := by
    rw [List.map_map]
    have : cs.zipIdx.map ((fun c : CompContest => c.objectId) ∘ fun e : CtContest × Nat =>
        honestCompContest E y av ms ctx.cryptoExtendedBaseHash e.1 (seeds e.2))
        = cs.map (fun s => s.objectId) := zipIdx_map_fst (fun s : CtContest => s.objectId) _ _
    rw [this]
    exact hids.contests
  refine ⟨⟨objectId, av.ownerId, ms.ownerId, av.key, (cs.zipIdx.map (fun e : CtContest × Nat =>
      honestCompContest E y av ms ctx.cryptoExtendedBaseHash e.1 (seeds e.2))).map (fun c => (c.objectId, c))⟩,
      ?_, rfl, rfl, rfl, ?_⟩
  · simp only [compForContests, h1]
    rw [collectById_fresh _ _ h2]
    rfl
  · intro c hc
    obtain ⟨i, hi⟩ := exists_zipIdx (n := 0) hc
    refine ⟨honestCompContest E y av ms ctx.cryptoExtendedBaseHash c (seeds i), ?_, ?_⟩
    · refine dget_of_mem ?_ (List.mem_map.2 ⟨_, List.mem_map.2 ⟨(c, i), hi, rfl⟩, rfl⟩)
      simpa [dkeys, List.map_map, Function.comp_def] using h2
    · intro s hs
      obtain ⟨j, hj⟩ := exists_zipIdx (n := 0) hs
      have hr := hres s (hsub c hc s hs)
      refine ⟨honestComp E y av ms ctx.cryptoExtendedBaseHash s (seeds i j), ?_, rfl, rfl,
        (compForSelection_ok hv hk s ctx (seeds i j) hh hr.1 hr.2).2⟩
      refine dget_of_mem ?_ (List.mem_map.2 ⟨(s, j), hj, rfl⟩)
      rw [dkeys, honestCompContest, List.map_map]
      have : c.selections.zipIdx.map ((fun x : String × CompSelection => x.1) ∘ fun e : CtSelection × Nat =>
          (e.1.objectId, honestComp E y av ms ctx.cryptoExtendedBaseHash e.1 (seeds i e.2)))
          = c.selections.map (fun s => s.objectId) := zipIdx_map_fst (fun s : CtSelection => s.objectId) _ _
      exact this ▸ nodup_selections hids hc

end EG
