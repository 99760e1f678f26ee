import Verif.Lemmas.AuditQuorum
import Verif.Lemmas.Export
import Verif.Props.TallyCeremony

/-!
# The shares in a decryption by a quorum
-/

namespace EG

variable {E : Env}

/-! ### What is in a compensated share -/

theorem compForContests_parts {up : Bool} {y : Nat} {av ms : ElectionPublicKey} {id : String} {cs : List CtContest} {ctx : Context}
    {seeds : Nat → Nat → Nat} {c : CompShare} (h : compForContests E up y av ms id cs ctx seeds = some c) :
    c.guardianId = av.ownerId ∧ c.missingId = ms.ownerId ∧ ∀ e ∈ c.contests, ∀ x ∈ e.2.selections,
      x.2.guardianId = av.ownerId ∧ x.2.missingId = ms.ownerId ∧ x.2.recoveryKey = computeRecoveryKey E.P av ms := by
  unfold compForContests at h
  rw [Option.map_eq_some_iff] at h
  obtain ⟨r, hr, rfl⟩ := h
  refine ⟨rfl, rfl, fun e he x hx => ?_⟩
  rcases collectById_mem _ _ _ _ hr e he with h1 | h1
  · cases h1
  · obtain ⟨⟨ct, i⟩, -, h2⟩ := List.mem_map.1 h1
    unfold compForContest at h2
    rw [Option.map_eq_some_iff] at h2
    obtain ⟨d, hd, hc2⟩ := h2
    rw [← hc2] at hx
    rcases collectById_mem _ _ _ _ hd x hx with h3 | h3
    · cases h3
    · unfold schedule at h3
      split at h3
      · obtain ⟨⟨s, j⟩, -, h4⟩ := List.mem_map.1 h3
        unfold compForSelection at h4
        simp only at h4
        split at h4
        · rw [Option.some.injEq] at h4
          rw [← h4]
          exact ⟨rfl, rfl, rfl⟩
        · cases h4
      · cases h3

/-! ### What is in a rebuilt share -/

/-- A dict comprehension over distinct keys. -/
theorem foldlM_dset_forall₂ {α β : Type} (key : α → String) (f : α → R β) (l : List α) (d r : List (String × β))
    (hn : (l.map key).Nodup) (hd : ∀ a ∈ l, key a ∉ dkeys d)
    (h : l.foldlM (fun d x => do
      let r ← f x
      return dset d (key x) r) d = .ok r) :
    ∃ r', r = d ++ r' ∧ List.Forall₂ (fun a (e : String × β) => e.1 = key a ∧ f a = .ok e.2) l r' := by
  induction l generalizing d with
  | nil => cases h; exact ⟨[], by simp, .nil⟩
  | cons a l ih =>
    rw [List.map_cons, List.nodup_cons] at hn
    rw [List.foldlM_cons] at h
    simp only [bind, Except.bind, pure, Except.pure] at h
    cases ha : f a with
    | error e => rw [ha] at h; cases h
    | ok b =>
      rw [ha] at h
      simp only at h
      rw [dset_fresh b (hd a List.mem_cons_self)] at h
      obtain ⟨r', h1, h2⟩ := ih (d ++ [(key a, b)]) hn.2 (fun x hx => by
        unfold dkeys
        rw [List.map_append, List.mem_append, not_or]
        refine ⟨hd x (List.mem_cons_of_mem _ hx), fun h => hn.1 ?_⟩
        simp only [List.map_cons, List.map_nil, List.mem_singleton] at h
        rw [← h]
        exact List.mem_map_of_mem hx) h
      exact ⟨(key a, b) :: r', by rw [h1]; simp, .cons ⟨rfl, ha⟩ h2⟩

/-- The parts of a rebuilt selection and what became of them. -/
def RebuiltFrom (P : Params) (missing : String) (L : List (String × Nat)) (comps : List (String × CompShare)) (s : CtSelection)
    (x : DecSelection) : Prop :=
  x.objectId = s.objectId ∧ x.guardianId = missing ∧ x.proof = none ∧ ∃ parts pows, x.recovered = some parts ∧
    sharePowers P L parts = .ok pows ∧ x.share = multPs P pows ∧ dkeys parts = dkeys comps ∧
    ∀ z ∈ parts, ∃ c ∈ comps, c.1 = z.1 ∧ ∃ e ∈ c.2.contests, ∃ y ∈ e.2.selections, y.2 = z.2

theorem mapM_dgetR_mem {α β : Type} (get : α → List (String × β)) (k : String) (l : List (String × α)) (r : List (String × β))
    (h : l.mapM (fun e => do return (e.1, ← dgetR (get e.2) k)) = .ok r) :
    ∀ z ∈ r, ∃ e ∈ l, e.1 = z.1 ∧ (k, z.2) ∈ get e.2 := by
  induction l generalizing r with
  | nil => cases h; simp
  | cons a l ih =>
    rw [List.mapM_cons] at h
    simp only [bind, Except.bind, pure, Except.pure] at h
    cases ha : dgetR (get a.2) k with
    | error e => rw [ha] at h; cases h
    | ok b =>
      rw [ha] at h
      simp only at h
      cases hl : l.mapM (fun e => do return (e.1, ← dgetR (get e.2) k)) with
      | error e =>
        simp only [bind, Except.bind, pure, Except.pure] at hl
        rw [hl] at h; cases h
      | ok bs =>
        have hi := ih bs hl
        simp only [bind, Except.bind, pure, Except.pure] at hl
        rw [hl] at h
        cases h
        intro z hz
        rcases List.mem_cons.1 hz with rfl | hz
        · refine ⟨a, List.mem_cons_self, rfl, ?_⟩
          unfold dgetR at ha
          split at ha
          · rename_i v hv
            cases ha
            exact mem_of_dget hv
          · cases ha
        · obtain ⟨e, he, h1⟩ := hi z hz
          exact ⟨e, List.mem_cons_of_mem _ he, h1⟩

theorem reconstructLoop_eq (P : Params) (missing : String) (cs : List (String × CompContest)) (L : List (String × Nat))
    (l : List CtSelection) (d : List (String × DecSelection)) :
    reconstructLoop P missing cs L l d = l.foldlM (fun d s => do
      let r ← (do
        let comps ← compsForSelection cs s.objectId
        let pows ← sharePowers P L comps
        return (⟨s.objectId, missing, multPs P pows, none, some comps⟩ : DecSelection))
      return dset d s.objectId r) d := by
  induction l generalizing d with
  | nil => rfl
  | cons s l ih =>
    unfold reconstructLoop
    rw [List.foldlM_cons]
    simp only [bind, Except.bind, pure, Except.pure]
    cases compsForSelection cs s.objectId with
    | error e => rfl
    | ok comps =>
      simp only
      cases sharePowers P L comps with
      | error e => rfl
      | ok pows =>
        simp only
        rw [ih]
        rfl

theorem reconstructShare_selections {P : Params} {k : ElectionPublicKey} {id : String} {cs : List CtContest}
    {comps : List (String × CompShare)} {L : List (String × Nat)} {sh : DecShare} (hd : DistinctIds cs)
    (h : reconstructShare P k id cs comps L = .ok sh) :
    sh.guardianId = k.ownerId ∧ sh.publicKey = k.key ∧
      List.Forall₂ (RebuiltFrom P k.ownerId L comps) (ctSelections cs) sh.allSelections := by
  unfold reconstructShare at h
  simp only [bind, Except.bind, pure, Except.pure] at h
  cases hf : cs.foldlM (fun d c => do
      let r ← reconstructContest P k.ownerId c comps L
      return dset d c.objectId r) [] with
  | error e =>
    simp only [bind, Except.bind, pure, Except.pure] at hf
    rw [hf] at h; cases h
  | ok contests =>
    obtain ⟨r', h1, h2⟩ := foldlM_dset_forall₂ (fun c : CtContest => c.objectId) _ cs [] contests hd.contests (by simp [dkeys]) hf
    rw [List.nil_append] at h1
    subst h1
    simp only [bind, Except.bind, pure, Except.pure] at hf
    rw [hf] at h
    cases h
    refine ⟨rfl, rfl, ?_⟩
    have hsel : ∀ c ∈ cs, (c.selections.map (fun s => s.objectId)).Nodup := by
      intro c hc
      have := hd.selections
      unfold ctSelections at this
      rw [List.map_flatMap, List.nodup_flatMap] at this
      exact this.1 c hc
    unfold ctSelections DecShare.allSelections
    clear hf hd
    induction h2 with
    | nil => exact .nil
    | @cons c e cs r' hc _ ih =>
      rw [List.flatMap_cons, List.flatMap_cons]
      refine List.rel_append ?_ (ih (fun c' hc' => hsel c' (List.mem_cons_of_mem _ hc')))
      obtain ⟨-, hc⟩ := hc
      unfold reconstructContest at hc
      simp only [bind, Except.bind, pure, Except.pure] at hc
      cases hm : comps.mapM (fun e => do return (e.1, ← dgetR e.2.contests c.objectId)) with
      | error e =>
        simp only [bind, Except.bind, pure, Except.pure] at hm
        rw [hm] at hc; cases hc
      | ok css =>
        have hk1 := mapM_keys (fun z : CompShare => dgetR z.contests c.objectId) comps css hm
        have hm1 := mapM_dgetR_mem (fun z : CompShare => z.contests) c.objectId comps css hm
        simp only [bind, Except.bind, pure, Except.pure] at hm
        rw [hm] at hc
        simp only at hc
        cases hl : reconstructLoop P k.ownerId css L c.selections [] with
        | error e => rw [hl] at hc; cases hc
        | ok sels =>
          rw [hl] at hc
          have hc : e.2 = ⟨c.objectId, k.ownerId, c.descriptionHash, sels⟩ := (Except.ok.inj hc).symm
          rw [hc]
          rw [reconstructLoop_eq] at hl
          obtain ⟨r'', h3, h4⟩ := foldlM_dset_forall₂ (fun s : CtSelection => s.objectId) _ c.selections [] sels
            (hsel c List.mem_cons_self) (by simp [dkeys]) hl
          rw [List.nil_append] at h3
          subst h3
          show List.Forall₂ _ c.selections (sels.map (fun x => x.2))
          rw [List.forall₂_map_right_iff]
          refine h4.imp ?_
          rintro s x ⟨-, hx⟩
          simp only [bind, Except.bind, pure, Except.pure] at hx
          cases hp : compsForSelection css s.objectId with
          | error e => rw [hp] at hx; cases hx
          | ok parts =>
            rw [hp] at hx
            simp only at hx
            cases hw : sharePowers P L parts with
            | error e => rw [hw] at hx; cases hx
            | ok pows =>
              rw [hw] at hx
              have hx : x.2 = ⟨s.objectId, k.ownerId, multPs P pows, none, some parts⟩ := (Except.ok.inj hx).symm
              rw [hx]
              unfold compsForSelection at hp
              have hk2 := mapM_keys (fun z : CompContest => dgetR z.selections s.objectId) css parts hp
              have hm2 := mapM_dgetR_mem (fun z : CompContest => z.selections) s.objectId css parts hp
              refine ⟨rfl, rfl, rfl, parts, pows, rfl, hw, rfl, hk2.trans hk1, fun z hz => ?_⟩
              obtain ⟨e1, he1, hn1, hz1⟩ := hm2 z hz
              obtain ⟨e2, he2, hn2, hz2⟩ := hm1 e1 he1
              exact ⟨e2, he2, hn2.trans hn1, _, hz2, _, hz1, rfl⟩

/-! ### The shares of a decryption -/

/-- A compensated share was computed by a guardian for another one, whose public key it knows. -/
def CompMade (E : Env) (ctx : Context) (gs : List Guardian) (all : List ElectionPublicKey) (cs : List CtContest) (p : String × String)
    (c : CompShare) : Prop :=
  ∃ g ∈ gs, g.id = p.1 ∧ ∃ k ∈ all, k.ownerId = p.2 ∧ ∃ y id seeds, compForContests E true y g.shareKey k id cs ctx seeds = some c

/-- The shares of some contests: each computed by a guardian, or rebuilt from parts that all of `gs` computed. -/
structure Rebuilt (E : Env) (ctx : Context) (gs : List Guardian) (all : List ElectionPublicKey) (L : List (String × Nat))
    (cs : List CtContest) (shares : List (String × DecShare)) : Prop where
  once : (shares.map (fun e => e.2.guardianId)).Nodup
  made : ∀ e ∈ shares, (∃ g ∈ gs, g.id = e.2.guardianId ∧ ∃ id seeds, shareForContests E true g.electionKeys id cs ctx seeds = some e.2) ∨
    ∃ k ∈ all, k.ownerId = e.2.guardianId ∧ ∃ id comps, reconstructShare E.P k id cs comps L = .ok e.2 ∧
      (dkeys comps).Perm (gs.map Guardian.id) ∧ ∀ x ∈ comps, CompMade E ctx gs all cs (x.1, k.ownerId) x.2

/-- Everything about a decryption by a quorum that an auditor can check, except that every described selection is shown. -/
theorem inQuorumOrder_of_decrypt (hv : E.P.Valid) {maxE : Nat} {ctx : Context} (hh : ctx.cryptoExtendedBaseHash < E.P.q)
    {gs : List Guardian} (hk : ∀ g ∈ gs, g.electionKeys.keyPair.pub = E.P.g ^ g.electionKeys.keyPair.secret % E.P.p)
    {all : List ElectionPublicKey} (hids : (all.map (fun k => k.ownerId)).Nodup) (hgs : ∀ g ∈ gs, g.shareKey ∈ all)
    {coef : String → List Nat} (hcom : ∀ k ∈ all, k.commitments = (coef k.ownerId).map (fun a => E.P.g ^ a % E.P.p))
    (hord : ∀ k ∈ all, 0 ≤ k.sequenceOrder) {L : List (String × Nat)}
    {cs : List CtContest} (hr : Readable E.P cs) {shares : List (String × DecShare)} (ho : Rebuilt E ctx gs all L cs shares)
    (hlen : shares.length = all.length) {m : Manifest} {r : List (String × PTContest)} {id : String}
    (h : decryptContestsLoop E maxE shares ctx.cryptoExtendedBaseHash m true cs [] = .ok (some r))
    (v : RecordView) (hm : v.manifest = m) (hc : v.context = ctx) (hl : v.coefficients = L)
    (hg : v.guardians.Perm (all.map publishGuardianRecord))
    (hav : (v.available.map GuardianRecord.guardianId).Perm (gs.map Guardian.id))
    (hshown : ∀ c ∈ cs, ∀ s ∈ c.selections, Describes m c.objectId s.objectId →
      ∃ n, PlaintextTally.Reports ⟨id, r⟩ c.objectId s.objectId n) :
    PlaintextTally.InQuorumOrder ⟨id, r⟩ E v cs := by
  have hp : Fact E.P.p.Prime := ⟨hv.p_prime⟩
  have hgid : (v.guardians.map GuardianRecord.guardianId).Perm (all.map (fun k => k.ownerId)) := by
    have := hg.map GuardianRecord.guardianId
    rw [List.map_map] at this
    exact this
  have hperm : (shares.map (fun e => e.2.guardianId)).Perm (all.map (fun k => k.ownerId)) := by
    refine (List.subperm_of_subset ho.once (fun x hx => ?_)).perm_of_length_le (by simp [hlen])
    obtain ⟨e, he, rfl⟩ := List.mem_map.1 hx
    rcases ho.made e he with ⟨g, hg', hid, -⟩ | ⟨k, hk', hid, -⟩
    · exact List.mem_map.2 ⟨_, hgs g hg', hid⟩
    · exact List.mem_map.2 ⟨k, hk', hid⟩
  have horig : ∀ cid sid ps, PlaintextTally.Shows ⟨id, r⟩ cid sid ps → ∃ c ∈ cs, cid = c.objectId ∧ ∃ s ∈ c.selections,
      sid = s.objectId ∧ Describes m c.objectId s.objectId ∧
      decryptSelectionWithShares E maxE s (getSharesForSelection s.objectId shares) ctx.cryptoExtendedBaseHash = .ok (some ps) := by
    rintro cid sid ps ⟨pc, h1, h2⟩
    rcases decryptContestsLoop_origin _ _ _ _ _ _ _ h _ (mem_of_dget h1) with h3 | ⟨c, hc, h3, h4⟩
    · cases h3
    · obtain ⟨s, hs, h5, h6, h7⟩ := h4 _ (mem_of_dget h2)
      exact ⟨c, hc, h3, s, hs, h5, h6, h7⟩
  refine ⟨?_, ?_, ?_⟩
  · rintro cid sid ps ⟨pc, hpc, hps⟩ x hx
    obtain ⟨sh, hsh, hin, hval⟩ := decryptContestsLoop_checked maxE shares _ m true cs [] r h (by simp) _ (mem_of_dget hpc) _
      (mem_of_dget hps) x hx
    rcases ho.made sh hsh with ⟨g, hg', hid, i, seeds, hs⟩ | ⟨k, hk', hid, i, comps, hrec, hkeys, hcomps⟩
    · have hown := shareForContests_own true g.electionKeys i cs ctx seeds sh.2 hs [(g.electionKeys.ownerId, g.electionKeys.share)]
        ⟨g.electionKeys.share, by simp [dget], rfl⟩
      obtain ⟨hp1, k, hk1, hk2⟩ := hown x hin
      have hk1 := mem_of_dget hk1
      simp only [List.mem_singleton, Prod.mk.injEq] at hk1
      refine ⟨publishGuardianRecord g.shareKey, hg.mem_iff.2 (List.mem_map_of_mem (hgs g hg')), hk1.1.symm, .inl ?_⟩
      obtain ⟨pf, hpf⟩ := Option.isSome_iff_exists.1 hp1
      refine ⟨pf, hpf, ?_⟩
      unfold DecSelection.isValid at hval
      rw [hpf] at hval
      rw [hc]
      cases hrv : x.recovered with
      | none =>
        rw [hrv] at hval
        rw [← hk2, hk1.2] at hval
        exact hval
      | some parts => rw [hrv] at hval; cases hval
    · obtain ⟨-, -, hsel⟩ := reconstructShare_selections hr.1 hrec
      obtain ⟨s, hs, hx1, hx2, hx3, parts, pows, hx4, hx5, hx6, hx7, hx8⟩ := forall₂_left hsel.flip hin
      refine ⟨publishGuardianRecord k, hg.mem_iff.2 (List.mem_map_of_mem hk'), hx2.symm, .inr ⟨hx3, parts, hx4, ?_⟩⟩
      have hpart : ∀ z ∈ parts, ∃ g ∈ gs, g.id = z.1 ∧ z.2.guardianId = g.id ∧ z.2.missingId = k.ownerId ∧
          z.2.recoveryKey = computeRecoveryKey E.P g.shareKey k := by
        intro z hz
        obtain ⟨c, hc', hn, e, he, y, hy, hyz⟩ := hx8 z hz
        obtain ⟨g, hg', hgid', k', hk'', hkid, y', i', seeds', hmade⟩ := hcomps c hc'
        have hkk : k' = k := List.inj_on_of_nodup_map hids hk'' hk' hkid
        subst hkk
        obtain ⟨-, -, hpp⟩ := compForContests_parts hmade
        obtain ⟨p1, p2, p3⟩ := hpp e he y hy
        rw [hyz] at p1 p2 p3
        exact ⟨g, hg', hgid'.trans hn, p1, p2, p3⟩
      refine ⟨?_, ?_, ?_, ?_, ?_⟩
      · show (dkeys parts).Perm _
        rw [hx7]
        exact hkeys.trans hav.symm
      · intro e he
        obtain ⟨g, -, h1, h2, h3, -⟩ := hpart e he
        exact ⟨h2.trans h1, h3⟩
      · intro e he a ha hid'
        obtain ⟨g, hg', h1, -, -, h4⟩ := hpart e he
        obtain ⟨k', hk'', rfl⟩ := List.mem_map.1 (hg.mem_iff.1 (available_mem ha))
        have hkk : k' = g.shareKey := List.inj_on_of_nodup_map hids hk'' (hgs g hg') (hid'.trans h1.symm)
        subst hkk
        rw [h4, recoveryKey_right hv _ (hcom k hk') (hord _ hk''),
          partKey_right hv (m := publishGuardianRecord k) (as := coef k.ownerId) (hcom k hk'),
          ← castP_inj (Nat.mod_lt _ hv.p_pos) (Nat.mod_lt _ hv.p_pos), ZMod.natCast_mod, ZMod.natCast_mod, Nat.cast_pow, Nat.cast_pow]
        exact pow_congr_mod (g_cast_pow hv) (by simp [publishGuardianRecord])
      · intro e he
        unfold DecSelection.isValid at hval
        rw [hx3, hx4] at hval
        rw [hc]
        exact (List.all_eq_true.1 hval) e he
      · rw [hx6, hl, ← castP_inj (multPs_lt hv.one_lt_p _) (Nat.mod_lt _ hv.p_pos), multPs_cast, ZMod.natCast_mod,
          Nat.cast_list_prod]
        congr 1
        unfold sharePowers at hx5
        clear hx4 hx6 hx7 hx8 hpart
        induction parts generalizing pows with
        | nil => cases hx5; rfl
        | cons z parts ih =>
          rw [List.mapM_cons] at hx5
          simp only [bind, Except.bind, pure, Except.pure] at hx5
          cases hz : dgetR L z.1 with
          | error e => rw [hz] at hx5; cases hx5
          | ok w =>
            rw [hz] at hx5
            simp only at hx5
            cases hl' : parts.mapM (fun e => do return powP E.P e.2.share (← dgetR L e.1)) with
            | error e =>
              simp only [bind, Except.bind, pure, Except.pure] at hl'
              rw [hl'] at hx5; cases hx5
            | ok ps' =>
              have hi := ih ps' hl'
              simp only [bind, Except.bind, pure, Except.pure] at hl'
              rw [hl'] at hx5
              cases hx5
              rw [List.map_cons, List.map_cons, List.map_cons, hi]
              congr 1
              have hz' : dget L z.1 = some w := by
                unfold dgetR at hz
                split at hz
                · cases hz; assumption
                · cases hz
              rw [powP_cast, hz']
              simp
  · rw [hm]
    intro c hc' s hs hd
    obtain ⟨n, pc, ps, h1, h2, -⟩ := hshown c hc' s hs hd
    refine ⟨ps, ⟨pc, h1, h2⟩, ?_⟩
    obtain ⟨c', hc'', e1, s', hs', e2, -, h3⟩ := horig _ _ _ ⟨pc, h1, h2⟩
    have hmem : ∀ c ∈ cs, ∀ s ∈ c.selections, s ∈ ctSelections cs := fun c hc s hs => List.mem_flatMap.2 ⟨c, hc, hs⟩
    have hss : s' = s := List.inj_on_of_nodup_map hr.1.selections (hmem c' hc'' s' hs') (hmem c hc' s hs) e2.symm
    subst hss
    have hf := follows_of_shares hv (by
      have := (hr.2 s' (hmem c hc' s' hs)).2
      unfold isValidResidue inBoundsP at this
      simp only [Bool.and_eq_true, decide_eq_true_eq] at this
      omega) ho.once (fun e he => by
      rcases ho.made e he with ⟨g, hg', hid, i, seeds, hsh⟩ | ⟨k, hk', hid, i, comps, hrec, -, -⟩
      · obtain ⟨sh, h1, -, h3, h4⟩ := shareForContests_ok hv g.electionKeys (hk g hg') i cs ctx seeds hh hr.1 hr.2
        rw [hsh] at h1
        cases h1
        refine ⟨?_, ?_⟩
        · rw [forall₂_map_eq (fun s : CtSelection => s.objectId) (fun s : DecSelection => s.objectId) h4.selections
            (fun a b h => h.1)]
          exact hr.1.selections
        · obtain ⟨x, hx, hx1, -⟩ := forall₂_exists h4.selections (hmem c hc' s' hs)
          refine ⟨x, hx, hx1, ?_⟩
          have hown := shareForContests_own true g.electionKeys i cs ctx seeds e.2 hsh
            [(g.electionKeys.ownerId, g.electionKeys.share)] ⟨g.electionKeys.share, by simp [dget], rfl⟩
          obtain ⟨-, k, hk1, -⟩ := hown x hx
          have hk1 := mem_of_dget hk1
          simp only [List.mem_singleton, Prod.mk.injEq] at hk1
          rw [hk1.1]
          exact hid
      · obtain ⟨-, -, hsel⟩ := reconstructShare_selections hr.1 hrec
        refine ⟨?_, ?_⟩
        · rw [forall₂_map_eq (fun s : CtSelection => s.objectId) (fun s : DecSelection => s.objectId) hsel (fun a b h => h.1)]
          exact hr.1.selections
        · obtain ⟨x, hx, hx1⟩ := forall₂_exists hsel (hmem c hc' s' hs)
          exact ⟨x, hx, hx1.1, hx1.2.1.trans hid⟩) h3
    exact ⟨hf.message, hf.guardians.trans (hperm.trans hgid.symm), hf.value, hf.product⟩
  · rw [hm]
    intro cid sid ps hs
    obtain ⟨c, hc', e1, s, hs', e2, e3, -⟩ := horig _ _ _ hs
    refine ⟨c, hc', s, hs', e1.symm, e2.symm, ?_⟩
    rw [e1, e2]
    exact e3

end EG
