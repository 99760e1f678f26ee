import Verif.Model.GuiReport
import Verif.Spec.GuiReport
import Verif.Props.Names
import Verif.Props.GuiRecord

/-!
# C83: what the pages of the GUI show
-/

namespace EG

variable {E : Env}

/-- The report of a plaintext tally that reports the right numbers. -/
theorem report_shows {m : Manifest} {im : InternalManifest} (hem : ElectionReady E m im) (hk : m.KnownCandidates)
    {pt : PlaintextTally} (hf : pt.FromManifest m) {ds : List ContestWithPlaceholders} (hds : ∀ d ∈ ds, d ∈ im.contests) (hn : ds.Nodup)
    {votes : ContestWithPlaceholders → String → Nat} (hkeys : ∀ i ∈ dkeys pt.contests, ∃ d ∈ ds, d.objectId = i)
    (hrep : ∀ cid sid n, pt.Reports cid sid n ↔ ∃ d ∈ ds, d.objectId = cid ∧
      sid ∈ d.ballotSelections.map SelectionDescription.objectId ∧ n = votes d sid) :
    ∃ out, getPlaintextBallotReport m pt = .ok out ∧ m.ShowsVotes ds votes out := by
  obtain ⟨im', him', hids, -, -, -, hmap, hdv⟩ := C40_unique_ids_partial E m hem.manifest
  rw [hem.internal] at him'
  cases him'
  have hdist : m.DistinctSelections := by
    have h1 := hem.distinct
    unfold InternalManifest.DistinctSelections at h1
    have h2 : (im.contests.flatMap (fun d => d.ballotSelections.map SelectionDescription.objectId)).Nodup := by
      refine h1.sublist ?_
      clear * -
      induction im.contests with
      | nil => exact List.Sublist.refl _
      | cons a l ih =>
        simp only [List.flatMap_cons]
        exact List.Sublist.append (by rw [List.map_append]; exact List.sublist_append_left _ _) ih
    have h3 : im.contests.flatMap (fun d => d.ballotSelections.map SelectionDescription.objectId)
        = (im.contests.map (fun d => d.toContestDescription)).flatMap (fun c => c.ballotSelections.map SelectionDescription.objectId) := by
      rw [List.flatMap_map]
    rw [h3, hmap, List.flatMap_map] at h2
    exact h2
  -- a contest of the manifest and its form in the internal manifest
  have hin : ∀ c ∈ m.contests, ∀ d ∈ im.contests, c.objectId = d.objectId → c.name = d.name ∧ c.ballotSelections = d.ballotSelections := by
    intro c hc d hd he
    have h1 : { c with primaryPartyIds := none } ∈ im.contests.map (fun d => d.toContestDescription) := by
      rw [hmap]; exact List.mem_map.2 ⟨c, hc, rfl⟩
    obtain ⟨d', hd', he'⟩ := List.mem_map.1 h1
    have : d' = d := by
      refine List.inj_on_of_nodup_map hids.1 hd' hd ?_
      show d'.toContestDescription.objectId = _
      rw [he']; exact he
    subst this
    rw [he']
    exact ⟨rfl, rfl⟩
  obtain ⟨out, ho, hall⟩ := C73_report_partial ((C41_iff_partial m).2 hem.manifest.ok) hdist hk hf
  refine ⟨out, ho, ?_⟩
  -- for each entry of the tally a contest
  have step : ∀ (es : List (String × PTContest)) (out : List ReportContest), (∀ e ∈ es, e ∈ pt.contests) →
      List.Forall₂ (fun e r => m.ReportsContest e.2 r) es out →
      ∃ l : List ContestWithPlaceholders, l.map (fun d => d.objectId) = es.map Prod.fst ∧ (∀ d ∈ l, d ∈ ds) ∧
        List.Forall₂ (fun c r => m.ShowsContest c (votes c) r) l out := by
    intro es out hsub h
    induction h with
    | nil => exact ⟨[], rfl, by simp, .nil⟩
    | @cons e r es out her _ ih =>
      obtain ⟨l, h1, h2, h3⟩ := ih (fun x hx => hsub x (List.mem_cons_of_mem _ hx))
      have he := hsub e List.mem_cons_self
      obtain ⟨d, hd, hde⟩ := hkeys e.1 (List.mem_map.2 ⟨e, he, rfl⟩)
      refine ⟨d :: l, by simp [hde, h1], ?_, .cons ?_ h3⟩
      · intro x hx
        rcases List.mem_cons.1 hx with rfl | hx
        · exact hd
        · exact h2 x hx
      obtain ⟨hid, hnd, c0, hc0, hce0, hsel⟩ := hf.2 e he
      obtain ⟨c, hc, hce, hname, regular, written, hperm, -, hreg, hwri, hrows, htot, hwt⟩ := her.shown
      have hcd : c.objectId = d.objectId := by rw [hce, hid, hde]
      obtain ⟨hn1, hn2⟩ := hin c hc d (hds d hd) hcd
      have hget : dget pt.contests d.objectId = some e.2 := by
        rw [hde]; exact dget_of_mem hf.1 he
      -- the ids in the tally are those of the contest
      have hmemids : ∀ sid, sid ∈ e.2.selections.map Prod.fst ↔ sid ∈ d.ballotSelections.map SelectionDescription.objectId := by
        intro sid
        constructor
        · intro hs0
          obtain ⟨s, hs, rfl⟩ := List.mem_map.1 hs0
          obtain ⟨d', hd', hd1, hd2, -⟩ := (hrep d.objectId s.1 s.2.tally).1 ⟨e.2, s.2, hget, dget_of_mem hnd hs, rfl⟩
          have : d' = d := List.inj_on_of_nodup_map hids.1 (hds d' hd') (hds d hd) hd1
          subst this
          exact hd2
        · intro hs
          obtain ⟨pc, ps, hp1, hp2, -⟩ := (hrep d.objectId sid (votes d sid)).2 ⟨d, hd, rfl, hs, rfl⟩
          rw [hget] at hp1
          cases hp1
          exact (mem_dkeys_iff _ _).2 ⟨ps, hp2⟩
      have hselnd : (d.ballotSelections.map SelectionDescription.objectId).Nodup := by
        have := hids.2 d (hds d hd)
        rw [List.map_append] at this
        exact this.of_append_left
      have hvotes : ∀ s ∈ e.2.selections, s.2.tally = votes d s.1 := by
        intro s hs
        obtain ⟨d', hd', hd1, -, hd3⟩ := (hrep d.objectId s.1 s.2.tally).1 ⟨e.2, s.2, hget, dget_of_mem hnd hs, rfl⟩
        have : d' = d := List.inj_on_of_nodup_map hids.1 (hds d' hd') (hds d hd) hd1
        subst this
        exact hd3
      -- from the numbers to the descriptions
      have hfind : ∀ p : PTSelection, p ∈ regular ++ written → ∃ s ∈ d.ballotSelections, s.objectId = p.objectId ∧ p.tally = votes d s.objectId := by
        intro p hp
        obtain ⟨s, hs, rfl⟩ := List.mem_map.1 (hperm.subset hp)
        have h0 := (hsel s hs).1
        obtain ⟨x, hx, hx'⟩ := List.mem_map.1 ((hmemids s.1).1 (List.mem_map.2 ⟨s, hs, rfl⟩))
        exact ⟨x, hx, by rw [hx', h0], by rw [hx']; exact hvotes s hs⟩
      have hdescr : ∀ ps : List PTSelection, (∀ p ∈ ps, p ∈ regular ++ written) →
          ∃ ss : List SelectionDescription, ss.map (fun s => (s.objectId, votes d s.objectId)) = ps.map (fun p => (p.objectId, p.tally)) ∧
            ∀ s ∈ ss, s ∈ d.ballotSelections := by
        intro ps hps
        induction ps with
        | nil => exact ⟨[], rfl, by simp⟩
        | cons p ps ih =>
          obtain ⟨ss, i1, i2⟩ := ih (fun x hx => hps x (List.mem_cons_of_mem _ hx))
          obtain ⟨s, s1, s2, s3⟩ := hfind p (hps p List.mem_cons_self)
          refine ⟨s :: ss, ?_, fun x hx => ?_⟩
          · rw [List.map_cons, List.map_cons, i1, s2, ← s2, s3]
          · rcases List.mem_cons.1 hx with rfl | hx
            · exact s1
            · exact i2 x hx
      obtain ⟨rs, r1, r2⟩ := hdescr regular (fun p hp => List.mem_append_left _ hp)
      obtain ⟨ws, w1, w2⟩ := hdescr written (fun p hp => List.mem_append_right _ hp)
      have rid : rs.map SelectionDescription.objectId = regular.map (fun p => p.objectId) := by
        have := congrArg (List.map Prod.fst) r1
        simpa [List.map_map, Function.comp_def] using this
      have wid : ws.map SelectionDescription.objectId = written.map (fun p => p.objectId) := by
        have := congrArg (List.map Prod.fst) w1
        simpa [List.map_map, Function.comp_def] using this
      have rvo : rs.map (fun s => votes d s.objectId) = regular.map (fun p => p.tally) := by
        have := congrArg (List.map Prod.snd) r1
        simpa [List.map_map, Function.comp_def] using this
      have wvo : ws.map (fun s => votes d s.objectId) = written.map (fun p => p.tally) := by
        have := congrArg (List.map Prod.snd) w1
        simpa [List.map_map, Function.comp_def] using this
      have hwmem : ∀ s ∈ d.ballotSelections, (m.WriteIn c s.objectId ↔ m.IsWriteIn s) := by
        intro s hs
        constructor
        · rintro ⟨x, hx, hxe, k, hk1, hk2, hk3⟩
          rw [hn2] at hx
          have : x = s := List.inj_on_of_nodup_map hselnd hx hs hxe
          subst this
          exact ⟨k, hk1, hk2, hk3⟩
        · rintro ⟨k, hk1, hk2, hk3⟩
          exact ⟨s, by rw [hn2]; exact hs, rfl, k, hk1, hk2, hk3⟩
      refine ⟨by rw [hname, hn1], rs, ws, ?_, ?_, ?_, ?_, ?_, ?_⟩
      · -- the selections, in some order
        have hidperm : ((rs ++ ws).map SelectionDescription.objectId).Perm (d.ballotSelections.map SelectionDescription.objectId) := by
          rw [List.map_append, rid, wid, ← List.map_append]
          have h1 := hperm.map (fun p : PTSelection => p.objectId)
          rw [List.map_map] at h1
          have h2 : e.2.selections.map ((fun p : PTSelection => p.objectId) ∘ fun x => x.2) = e.2.selections.map Prod.fst :=
            List.map_congr_left (fun s hs => (hsel s hs).1)
          rw [h2] at h1
          exact h1.trans ((List.perm_ext_iff_of_nodup hnd hselnd).2 hmemids)
        have hnd1 : (rs ++ ws).Nodup := List.Nodup.of_map _ (hidperm.nodup_iff.2 hselnd)
        refine (List.perm_ext_iff_of_nodup hnd1 (List.Nodup.of_map _ hselnd)).2 (fun s => ⟨fun h => ?_, fun h => ?_⟩)
        · rcases List.mem_append.1 h with h | h
          · exact r2 s h
          · exact w2 s h
        · obtain ⟨s', h1, h2⟩ := List.mem_map.1 (hidperm.symm.subset (List.mem_map.2 ⟨s, h, rfl⟩))
          have : s' = s := List.inj_on_of_nodup_map hselnd (by
            rcases List.mem_append.1 h1 with h | h
            · exact r2 s' h
            · exact w2 s' h) h h2
          exact this ▸ h1
      · intro s hs hw
        have : s.objectId ∈ regular.map (fun p => p.objectId) := by rw [← rid]; exact List.mem_map.2 ⟨s, hs, rfl⟩
        obtain ⟨p, hp, hpe⟩ := List.mem_map.1 this
        exact hreg p hp (by rw [hpe]; exact (hwmem s (r2 s hs)).2 hw)
      · intro s hs
        have : s.objectId ∈ written.map (fun p => p.objectId) := by rw [← wid]; exact List.mem_map.2 ⟨s, hs, rfl⟩
        obtain ⟨p, hp, hpe⟩ := List.mem_map.1 this
        have := hwri p hp
        rw [hpe] at this
        exact (hwmem s (w2 s hs)).1 this
      · -- the rows
        clear htot hwt hperm hreg hfind hdescr rid rvo
        generalize r.nonWriteInTotal = total at hrows
        generalize r.selections = rows at hrows
        induction hrows generalizing rs with
        | nil =>
          have : rs = [] := by simpa using r1
          subst this
          exact .nil
        | @cons p row ps rows hp _ ih' =>
          cases rs with
          | nil => simp at r1
          | cons s rs =>
            rw [List.map_cons, List.map_cons] at r1
            obtain ⟨h0, h1⟩ := List.cons.inj r1
            obtain ⟨h01, h02⟩ := Prod.mk.inj h0
            refine .cons ⟨?_, ?_, ?_⟩ (ih' rs h1 (fun x hx => r2 x (List.mem_cons_of_mem _ hx)))
            · obtain ⟨x, hx, hxe, hrest⟩ := hp.described
              rw [hn2] at hx
              have : x = s := List.inj_on_of_nodup_map hselnd hx (r2 s List.mem_cons_self) (hxe.trans h01.symm)
              subst this
              exact hrest
            · rw [hp.tally, ← h02]
            · rw [hp.tally]; exact hp.percent
      · rw [htot, rvo]
      · rw [hwt, wvo]
        have : (ws = []) ↔ (written = []) := by
          have := congrArg List.length wid
          simp only [List.length_map] at this
          rw [← List.length_eq_zero_iff, ← List.length_eq_zero_iff, this]
        by_cases hw : written = []
        · rw [if_pos hw, if_pos (this.2 hw)]
        · rw [if_neg hw, if_neg (fun h => hw (this.1 h))]
  obtain ⟨l, h1, h2, h3⟩ := step pt.contests out (fun _ h => h) hall
  refine ⟨l, ?_, h3⟩
  have hln : (l.map (fun d => d.objectId)).Nodup := by rw [h1]; exact hf.1
  refine (List.perm_ext_iff_of_nodup (List.Nodup.of_map _ hln) hn).2 (fun d => ⟨h2 d, fun hd => ?_⟩)
  obtain ⟨s, hs⟩ := List.exists_mem_of_ne_nil _ (hdv d (hds d hd)).2
  obtain ⟨pc, ps, hp1, -, -⟩ := (hrep d.objectId s.objectId (votes d s.objectId)).2 ⟨d, hd, rfl, List.mem_map.2 ⟨s, hs, rfl⟩, rfl⟩
  have : d.objectId ∈ l.map (fun d => d.objectId) := by rw [h1]; exact (mem_dkeys_iff _ _).2 ⟨pc, hp1⟩
  obtain ⟨d', hd', hde⟩ := List.mem_map.1 this
  have : d' = d := List.inj_on_of_nodup_map hids.1 (hds d' (h2 d' hd')) (hds d hd) hde
  exact this ▸ hd'

/-- The contests of a decryption are among those that were decrypted. -/
theorem decryptContestsLoop_among {maxE : Nat} {shares : List (String × DecShare)} {bh : Nat} {m : Manifest} {rp : Bool}
    (cs : List CtContest) (d r : List (String × PTContest)) (h : decryptContestsLoop E maxE shares bh m rp cs d = .ok (some r)) :
    ∀ i ∈ dkeys r, i ∈ dkeys d ∨ ∃ c ∈ cs, c.objectId = i := by
  induction cs generalizing d with
  | nil => unfold decryptContestsLoop at h; cases h; exact fun i hi => .inl hi
  | cons c cs ih =>
    unfold decryptContestsLoop at h
    split at h
    · intro i hi
      rcases ih d h i hi with h1 | ⟨x, hx, h1⟩
      · exact .inl h1
      · exact .inr ⟨x, List.mem_cons_of_mem _ hx, h1⟩
    · simp only [bind, Except.bind] at h
      split at h
      · cases h
      · rename_i o _
        cases o with
        | none => cases h
        | some p =>
          intro i hi
          rcases ih _ h i hi with h1 | ⟨x, hx, h1⟩
          · obtain ⟨e, he, rfl⟩ := List.mem_map.1 h1
            rcases mem_dset he with h2 | h2
            · exact .inr ⟨c, List.mem_cons_self, by rw [h2]⟩
            · exact .inl (List.mem_map.2 ⟨e, h2, rfl⟩)
          · exact .inr ⟨x, List.mem_cons_of_mem _ hx, h1⟩

/-- What a completed decryption shows. -/
theorem pages_of_decrypted (hv : E.P.Valid) (hpq : (E.P.q - 1) * (E.P.q - 1) < E.P.p) {maxE : Nat} (hmax1 : 1 ≤ maxE)
    {json : ContestData → Bytes} {m : Manifest} {im : InternalManifest} (hem : ElectionReady E m im) (hk : m.KnownCandidates)
    {parse : List Char → Option SBallot} {db : GuiDb} {eid : String}
    {e e' : ElectionDoc} {team : List Guardian} {vs : List VotedBallot} {net : Nat → Nat → Bool} (hnet : ∀ n, ∃ k < 3, net n k = true)
    {t : Tally} {d : GuiDecryption} {r : GuiResult} (h : Decrypted E maxE parse db eid e m im team vs net e' t d r)
    (hvs : ∀ v ∈ vs, v.Encrypted E json im e.context ∧ ∃ d, im.StyleHas v.plain.styleId d) :
    (∃ out, guiGetTally db (some (d.setCompleted r)) = .ok (eid, out) ∧ m.ShowsVotes im.contests (electionResult im vs) out) ∧
    (d.setCompleted r).spoiledIds = ((firsts vs).filter (fun v => decide (v.state = .spoiled))).map (fun v => v.plain.objectId) ∧
    ∀ v ∈ firsts vs, v.state = .spoiled → ∃ out,
      guiGetSpoiledBallot db (some (d.setCompleted r)) v.plain.objectId = .ok (eid, out) ∧
      m.ShowsVotes (im.contests.filter (im.onStyle v.plain.styleId)) (v.plain.votesFor im) out := by
  obtain ⟨im', him', hids, -, -, -, hmap, -⟩ := C40_unique_ids_partial E m hem.manifest
  rw [hem.internal] at him'
  cases him'
  have hcn : im.contests.Nodup := List.Nodup.of_map _ hids.1
  have hres : isValidResidue E.P e.context.elgamalPublicKey = true := by
    rw [← h.same.2, h.guardians.joint]
    exact jointKey_residue hv team _ _ h.guardians.keys
  have hcore : ∀ v ∈ firsts vs, _ := fun v hv' =>
    ballot_core hv hpq maxE hmax1 json m im hem e.context hres v (hvs v (firsts_subset vs v hv')).1
  have hspoiled := spoiledOf_submitted E (firsts vs)
  obtain ⟨r', hr', -, r2, r3, r4, -⟩ := s2_complete hv h.guardians (by rw [h.id]; exact h.election) h.ready
    (by rw [h.id]; exact h.read net hnet) h.shares h.all
  rw [h.result] at hr'
  cases hr'
  obtain ⟨dm, hann, hpt, hpts, -, -⟩ := s2Compute_parts (by rw [h.id]; exact h.election) (by rw [h.id]; exact h.read net hnet)
    h.ready.tallied h.result
  rw [h.same.1, h.same.2] at r2 r4 hpt hpts
  have hel : db.getElection eid = .ok e' := by
    unfold GuiDb.getElection; rw [h.election]
  have hkeysr : dkeys r.ballots = ((firsts vs).filter (fun v => decide (v.state = .spoiled))).map (fun v => v.plain.objectId) := by
    unfold dkeys
    rw [r3, hspoiled, List.map_map]
    refine List.map_congr_left (fun v hv' => ?_)
    exact (hcore v (List.mem_filter.1 hv').1).2.1
  have hkn : (dkeys r.ballots).Nodup := by
    rw [hkeysr]
    exact (firsts_nodup vs).sublist (List.filter_sublist.map _)
  refine ⟨?_, hkeysr, ?_⟩
  · have hf : r.tally.FromManifest m := by
      unfold DM.plaintextTally at hpt
      split at hpt
      · cases hpt
      · exact decryptTally_from hpt
    obtain ⟨out, ho, hs⟩ := report_shows hem hk hf (fun d hd => hd) hcn (votes := electionResult im vs) (fun i hi => by
      obtain ⟨x, hx, rfl⟩ := List.mem_map.1 hi
      obtain ⟨-, -, c, hc, hce, -⟩ := hf.2 x hx
      have h1 : { c with primaryPartyIds := none } ∈ im.contests.map (fun d => d.toContestDescription) := by
        rw [hmap]; exact List.mem_map.2 ⟨c, hc, rfl⟩
      obtain ⟨d', hd', he'⟩ := List.mem_map.1 h1
      exact ⟨d', hd', by show d'.toContestDescription.objectId = _; rw [he']; exact hce⟩) (h.reports r.tally r2)
    refine ⟨out, ?_, hs⟩
    simp only [guiGetTally, bind, Except.bind, pure, Except.pure, GuiDecryption.setCompleted, h.id, hel, h.same.1, ho]
  · intro v hv' hst
    obtain ⟨pt, h1, h2, h3⟩ := r4 (submitBallot E v.enc v.state) (by
      rw [hspoiled]
      exact List.mem_map.2 ⟨v, List.mem_filter.2 ⟨hv', by simpa using hst⟩, rfl⟩)
    obtain ⟨-, hidv, hrep⟩ := hcore v hv'
    have hmemb := mem_of_dget h1
    -- it is the only one with its id
    have hall : ∀ x ∈ r.ballots, x.2.objectId = x.1 := by
      intro x hx
      have hx1 : x.1 ∈ r.ballots.map (fun x => x.1) := List.mem_map.2 ⟨x, hx, rfl⟩
      rw [r3] at hx1
      obtain ⟨b, hb, hbe⟩ := List.mem_map.1 hx1
      obtain ⟨pt', g1, g2, -⟩ := r4 b hb
      have : dget r.ballots x.1 = some x.2 := dget_of_mem hkn hx
      rw [← hbe, g1] at this
      cases this
      rw [g2, hbe]
    have hby : getSpoiledBallotById (r.ballots.map (·.2)) v.plain.objectId = .ok pt := by
      have hm : pt ∈ (r.ballots.map (·.2)).filter (fun b => b.objectId == v.plain.objectId) := by
        refine List.mem_filter.2 ⟨List.mem_map.2 ⟨_, hmemb, rfl⟩, ?_⟩
        rw [h2]
        simp only [beq_iff_eq]
        exact hidv
      have hu : ∀ b ∈ (r.ballots.map (·.2)).filter (fun b => b.objectId == v.plain.objectId), b = pt := by
        intro b hb
        obtain ⟨hb1, hb2⟩ := List.mem_filter.1 hb
        obtain ⟨x, hx, rfl⟩ := List.mem_map.1 hb1
        have hx1 := hall x hx
        have : dget r.ballots x.1 = some x.2 := dget_of_mem hkn hx
        rw [← hx1, beq_iff_eq.1 hb2, ← hidv] at this
        exact (Option.some.inj (this.symm.trans h1))
      unfold getSpoiledBallotById
      cases hl : (r.ballots.map (·.2)).filter (fun b => b.objectId == v.plain.objectId) with
      | nil => rw [hl] at hm; cases hm
      | cons b bs => rw [hu b (by rw [hl]; exact List.mem_cons_self)]
    -- where it comes from
    unfold DM.plaintextBallots at hpts
    split at hpts
    · cases hpts
    cases hloop : plaintextBallotsLoop E maxE dm e.context m (spoiledOf ((firsts vs).map (fun v => submitBallot E v.enc v.state))) [] with
    | error x => rw [hloop] at hpts; cases hpts
    | ok x =>
      rw [hloop] at hpts
      have hx : x = r.ballots := by simpa [Except.map] using hpts
      subst hx
      rcases plaintextBallotsLoop_mem maxE dm e.context m _ [] _ hloop _ hmemb with hc | ⟨b', hb', hid', shares, -, -, hdcr⟩
      · cases hc
      · have hbb : b' = submitBallot E v.enc v.state := List.inj_on_of_nodup_map h.ready.ids hb' (by
          rw [hspoiled]
          exact List.mem_map.2 ⟨v, List.mem_filter.2 ⟨hv', by simpa using hst⟩, rfl⟩) hid'.symm
        subst hbb
        have hf := decryptBallot_from hdcr
        have hkeys : ∀ i ∈ dkeys pt.contests, ∃ c ∈ im.contests.filter (im.onStyle v.plain.styleId), c.objectId = i := by
          intro i hi
          have hdcr' := hdcr
          unfold decryptBallotWithShares at hdcr'
          simp only [bind, Except.bind, pure, Except.pure] at hdcr'
          cases hl : decryptContestsLoop E maxE shares e.context.cryptoExtendedBaseHash m true (submitBallot E v.enc v.state).toCts [] with
          | error x => rw [hl] at hdcr'; cases hdcr'
          | ok o =>
            rw [hl] at hdcr'
            cases o with
            | none => cases hdcr'
            | some y =>
              simp only [Option.map_some, Except.ok.injEq, Option.some.injEq] at hdcr'
              rw [← hdcr'] at hi
              rcases decryptContestsLoop_among _ [] y hl i hi with h0 | ⟨c, hc, rfl⟩
              · simp [dkeys] at h0
              obtain ⟨ds, hspec⟩ := encryptBallot_some hv hpq hres (fun d hd => by
                obtain ⟨-, -, -, -, hd, -⟩ := hd
                exact hem.seats d hd) (hvs v (firsts_subset vs v hv')).1
              obtain ⟨hmem, hsub⟩ := hspec.styleContests
              unfold SBallot.toCts at hc
              rw [submit_contests, List.map_map] at hc
              obtain ⟨c', hc', rfl⟩ := List.mem_map.1 hc
              obtain ⟨d, hd, n, real, phs, fill, hs⟩ := forall₂_left hspec.contests hc'
              exact ⟨d, List.mem_filter.2 ⟨hsub.subset hd,
                (onStyle_iff im v.plain.styleId d (hsub.subset hd)).2 ((hmem d).1 hd)⟩, hs.id.symm⟩
        obtain ⟨out, ho, hs⟩ := report_shows hem hk hf (ds := im.contests.filter (im.onStyle v.plain.styleId))
          (fun d hd => (List.mem_filter.1 hd).1) (hcn.filter _) (votes := v.plain.votesFor im) hkeys (fun cid sid n => by
            rw [hrep pt h3 cid sid n]
            constructor
            · rintro ⟨d, hd, h4, h5, h6, h7⟩
              exact ⟨d, List.mem_filter.2 ⟨hd, h5⟩, h4, h6, h7⟩
            · rintro ⟨d, hd, h4, h6, h7⟩
              exact ⟨d, (List.mem_filter.1 hd).1, h4, (List.mem_filter.1 hd).2, h6, h7⟩)
        refine ⟨out, ?_, hs⟩
        simp only [guiGetSpoiledBallot, bind, Except.bind, pure, Except.pure, GuiDecryption.setCompleted, h.id, hel, h.same.1, hby, ho]

/-- **C83.**  When all guardians joined the decryption of an election and an administrator opened it, the page of the tally shows every
contest once, with its name and, for every candidate, the name, the party and the number of ballots that were cast for them; the list of
spoiled ballots has the spoiled ballots, and the page of each shows the contests of its style with the voter's marks.
Partial: for contests that C70 covers, and for manifests whose selections are all for candidates of the manifest. -/
theorem C83_pages_partial (hv : E.P.Valid) (hpq : (E.P.q - 1) * (E.P.q - 1) < E.P.p) (maxE : Nat)
    (hmax1 : 1 ≤ maxE) (json : ContestData → Bytes) (m : Manifest) (im : InternalManifest) (hem : ElectionReady E m im)
    (hk : m.KnownCandidates)
    -- the election and its guardians
    (parse : List Char → Option SBallot) (db : GuiDb) (eid : String) (e : ElectionDoc)
    (hdb : dget db.elections eid = some e) (hm : e.manifest = m) (hhash : e.context.manifestHash = im.manifestHash)
    (team : List Guardian) (ht : ElectionTeam E.P e team) (hteam : team ≠ [])
    (horders : ∀ g ∈ team, 0 ≤ g.electionKeys.sequenceOrder)
    (hdistinct : (team.map (fun g => (g.electionKeys.sequenceOrder : ZMod E.P.q))).Nodup)
    (hquorum : e.context.quorum ≤ team.length)
    (guardianOf : String → Option Guardian) (hf : OwnFiles guardianOf team)
    -- the uploads
    (hempty : db.docsOf eid = []) (ops : List UploadOp)
    (hend : ∀ d ∈ (db.run parse ops).docsOf eid, d.contents.getLast? = some '}') (vs : List VotedBallot)
    (hvs : ∀ v ∈ vs, v.Encrypted E json im e.context ∧ ∃ d, im.StyleHas v.plain.styleId d)
    (hops : uploadedTo parse im.manifestHash eid ops = vs.map (fun v => submitBallot E v.enc v.state))
    (hsmall : (counted vs).length < E.P.q) (hmax : (counted vs).length ≤ maxE)
    -- the decryption
    (joins : List (String × (Nat → Nat → Bool) × JoinSeeds))
    (hjoins : ∀ j ∈ joins, (guardianOf j.1).isSome ∧ ∀ n, ∃ k < 3, j.2.1 n k = true)
    (hall : ∀ g ∈ team, ∃ j ∈ joins, j.1 = g.id) (net : Nat → Nat → Bool) (hnet : ∀ n, ∃ k < 3, net n k = true) :
    ∃ d d', joinAll E parse (db.run parse ops) guardianOf joins (GuiDecryption.create eid team.length) = .ok d ∧
      tryRunStage2 E maxE parse net (db.run parse ops) d true = (.ok true, d') ∧
      (∃ out, guiGetTally (db.run parse ops) (some d') = .ok (eid, out) ∧ m.ShowsVotes im.contests (electionResult im vs) out) ∧
      d'.spoiledIds = ((firsts vs).filter (fun v => decide (v.state = .spoiled))).map (fun v => v.plain.objectId) ∧
      ∀ v ∈ firsts vs, v.state = .spoiled → ∃ out,
        guiGetSpoiledBallot (db.run parse ops) (some d') v.plain.objectId = .ok (eid, out) ∧
        m.ShowsVotes (im.contests.filter (im.onStyle v.plain.styleId)) (v.plain.votesFor im) out := by
  obtain ⟨e', t, d, r, hd, h⟩ := decryption_core hv hpq maxE hmax1 json m im hem parse db eid e hdb hm hhash team ht hteam horders
    hdistinct hquorum guardianOf hf hempty ops hend vs hvs hops hsmall hmax joins hjoins hall net hnet
  exact ⟨d, d.setCompleted r, hd, h.stage, pages_of_decrypted hv hpq hmax1 hem hk hnet h hvs⟩

/-- **C83.**  The same for an election whose guardians held their key ceremony in the GUI and that was created in the GUI: the pages show
the votes.  Partial: as `C83_pages_partial`. -/
theorem C83_election_pages_partial {loads : Bytes → R (List Char)} (hv : E.P.Valid) (hpq : (E.P.q - 1) * (E.P.q - 1) < E.P.p)
    -- the key ceremony
    (hlen : HmacLen E) (hl : ReadsCoordinate loads) (hq : E.P.q ≤ 256 ^ 246) (n quorum : Int) (hn : 0 < n) (hqn : quorum ≤ n)
    (hnq : n.toNat < E.P.q) (evs evs' : List KCEvent) (s s' : KCSystem) (hs : s = (KCSystem.init n quorum).run E loads evs)
    (hs' : s' = s.run E loads evs') (hnd : s'.doc.joined.Nodup) (hnamed : "" ∉ s'.doc.joined)
    (hall : (s'.doc.joined.length : Int) = n)
    -- the election
    (parseManifest : List Char → Option Manifest) (kcId name : String) (raw : List Char)
    (url : Option String) (e : GuiElection) (pkg : EncryptionPackage)
    (he : computeElection E parseManifest kcId s.doc name raw url = .ok (e, pkg)) (maxE : Nat) (hmax1 : 1 ≤ maxE)
    (json : ContestData → Bytes) (im : InternalManifest) (hem : ElectionReady E e.manifest im) (hk : e.manifest.KnownCandidates)
    -- the uploads
    (parse : List Char → Option SBallot) (db : GuiDb) (eid : String) (hdb : dget db.elections eid = some e.doc)
    (hempty : db.docsOf eid = []) (ops : List UploadOp)
    (hend : ∀ d ∈ (db.run parse ops).docsOf eid, d.contents.getLast? = some '}') (vs : List VotedBallot)
    (hvs : ∀ v ∈ vs, v.Encrypted E json im e.context ∧ ∃ d, im.StyleHas v.plain.styleId d)
    (hops : uploadedTo parse im.manifestHash eid ops = vs.map (fun v => submitBallot E v.enc v.state))
    (hsmall : (counted vs).length < E.P.q) (hmax : (counted vs).length ≤ maxE)
    -- the decryption
    (joins : List (String × (Nat → Nat → Bool) × JoinSeeds))
    (hjoins : ∀ j ∈ joins, j.1 ∈ s'.doc.joined ∧ ∀ n, ∃ k < 3, j.2.1 n k = true)
    (heach : ∀ id ∈ s'.doc.joined, ∃ j ∈ joins, j.1 = id) (net : Nat → Nat → Bool) (hnet : ∀ n, ∃ k < 3, net n k = true) :
    ∃ d d', joinAll E parse (db.run parse ops) (loadFromDecryption s'.files e.guardians e.quorum) joins
        (GuiDecryption.create eid e.guardians) = .ok d ∧
      tryRunStage2 E maxE parse net (db.run parse ops) d true = (.ok true, d') ∧
      (∃ out, guiGetTally (db.run parse ops) (some d') = .ok (eid, out) ∧
        e.manifest.ShowsVotes im.contests (electionResult im vs) out) ∧
      d'.spoiledIds = ((firsts vs).filter (fun v => decide (v.state = .spoiled))).map (fun v => v.plain.objectId) ∧
      ∀ v ∈ firsts vs, v.state = .spoiled → ∃ out,
        guiGetSpoiledBallot (db.run parse ops) (some d') v.plain.objectId = .ok (eid, out) ∧
        e.manifest.ShowsVotes (im.contests.filter (im.onStyle v.plain.styleId)) (v.plain.votesFor im) out := by
  obtain ⟨team, ht, hg, hne, hord, hdistinct, hquo, hf, hload, hids, hrecs⟩ := gui_team hv hlen hl hq n quorum hn hqn hnq evs evs' s s'
    hs hs' hnd hnamed hall parseManifest kcId name raw url e pkg he
  have hcreate : GuiDecryption.create eid e.guardians = GuiDecryption.create eid team.length := by rw [hg]
  rw [hcreate]
  have hhash : e.doc.context.manifestHash = im.manifestHash := by
    rw [show e.doc.context = e.context from rfl, created_context he]
    exact (internal_hash hem.internal).symm
  exact C83_pages_partial hv hpq maxE hmax1 json e.manifest im hem hk parse db eid e.doc hdb rfl hhash team ht hne hord hdistinct hquo
    _ hf hempty ops hend vs hvs hops hsmall hmax joins
    (fun j hj => ⟨hload _ (hjoins j hj).1, (hjoins j hj).2⟩) (fun g hg' => heach _ (hids g hg')) net hnet

/-- **C83.**  Before a decryption is completed no page shows results, and no spoiled ballot is listed. -/
theorem C83_not_completed (db : GuiDb) (d : GuiDecryption) (h : d.completed = none) (id : String) :
    guiGetTally db (some d) = .error .value ∧ guiGetSpoiledBallot db (some d) id = .error .value ∧ d.spoiledIds = [] := by
  unfold guiGetTally guiGetSpoiledBallot GuiDecryption.spoiledIds GuiDb.getElection
  simp only [h]
  cases dget db.elections d.electionId <;> exact ⟨rfl, rfl, trivial⟩

/-- **C83.**  The page of a spoiled ballot opens exactly for the ids of ballots among the results: any other id is an error. -/
theorem C83_other_ballot (db : GuiDb) (d : GuiDecryption) (id : String)
    (h : ∀ r, d.completed = some r → ∀ b ∈ r.ballots, b.2.objectId ≠ id) : ∃ x, guiGetSpoiledBallot db (some d) id = .error x := by
  cases hg : guiGetSpoiledBallot db (some d) id with
  | error x => exact ⟨x, rfl⟩
  | ok o =>
    exfalso
    simp only [guiGetSpoiledBallot, GuiDb.getElection, bind, Except.bind] at hg
    cases he : dget db.elections d.electionId with
    | none => rw [he] at hg; cases hg
    | some e =>
      simp only [he] at hg
      cases hc : d.completed with
      | none => simp only [hc, getSpoiledBallotById, List.filter_nil] at hg; cases hg
      | some r =>
        have : (r.ballots.map (·.2)).filter (fun b => b.objectId == id) = [] := by
          rw [List.filter_eq_nil_iff]
          intro b hb
          obtain ⟨x, hx, rfl⟩ := List.mem_map.1 hb
          simpa using h r hc x hx
        simp only [hc, getSpoiledBallotById, this] at hg
        cases hg

/-- The pages show the same whenever they are opened: they depend on the completed decryption and on the manifest only. -/
theorem C83_only_results (db db' : GuiDb) (d d' : GuiDecryption) (id : String) (he : d.electionId = d'.electionId)
    (hc : d.completed = d'.completed)
    (hm : (dget db.elections d.electionId).map (fun e => e.manifest) = (dget db'.elections d'.electionId).map (fun e => e.manifest)) :
    guiGetTally db (some d) = guiGetTally db' (some d') ∧ guiGetSpoiledBallot db (some d) id = guiGetSpoiledBallot db' (some d') id := by
  rw [← he] at hm
  simp only [guiGetTally, guiGetSpoiledBallot, GuiDb.getElection, bind, Except.bind, hc, ← he]
  cases h1 : dget db.elections d.electionId <;> cases h2 : dget db'.elections d.electionId <;>
    simp only [h1, h2, Option.map_some, Option.map_none, Option.some.injEq, reduceCtorEq] at hm
  · exact ⟨rfl, rfl⟩
  · simp only [hm]
    exact ⟨trivial, trivial⟩

/-- **C83.**  Results once shown stay: late uploads do not change the pages of a completed decryption. -/
theorem C83_late_uploads (parse : List Char → Option SBallot) (db : GuiDb) (d : GuiDecryption) (ops : List UploadOp) (id : String) :
    guiGetTally (db.run parse ops) (some d) = guiGetTally db (some d) ∧
    guiGetSpoiledBallot (db.run parse ops) (some d) id = guiGetSpoiledBallot db (some d) id := by
  refine C83_only_results _ _ d d id rfl rfl ?_
  have hall : ∀ (ops : List UploadOp) (db : GuiDb), SameElections (db.run parse ops).elections db.elections := by
    intro ops
    induction ops with
    | nil => exact fun _ _ => rfl
    | cons op ops ih => exact fun db k => (ih (db.step parse op) k).trans ((step_cases parse db op).1 k)
  have h := hall ops db d.electionId
  have h' := congrArg (Option.map Prod.fst) h
  simp only [Option.map_map] at h'
  exact h'

end EG
