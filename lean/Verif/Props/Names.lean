import Verif.Lemmas.Names
import Verif.Lemmas.Polynomial
import Verif.Props.Manifest
import Verif.Spec.ToyElection

/-!
# C73: the results are shown under the names of the manifest
-/

namespace EG

theorem InternationalizedText.Says.unique {t : InternationalizedText} {lang v w : String} (hv : t.Says lang v) (hw : t.Says lang w) :
    v = w := (getI8nValue_says (default := "") hv).symm.trans (getI8nValue_says hw)

/-- C73.  The name of the election: its first text.  A manifest with a name without texts has none, and asking for it raises. -/
theorem C73_election_name (m : Manifest) : (m.name = none → m.getName = .ok "") ∧
    (∀ l ls, m.name = some ⟨l :: ls⟩ → m.getName = .ok l.value) ∧ (m.name = some ⟨[]⟩ → m.getName = .error .index) ∧
    ((∃ n, m.getName = .ok n) ↔ m.Named) := by
  refine ⟨fun h => by simp [Manifest.getName, h], fun l ls h => by simp [Manifest.getName, h],
    fun h => by simp [Manifest.getName, h], fun ⟨n, hn⟩ => ?_, getName_of_named⟩
  by_contra hc
  rw [getName_of_not_named hc] at hn
  cases hn

/-- C73.  How a candidate is shown, in any language. -/
theorem C73_candidate_name (c : Candidate) (lang v : String) : c.getName lang = v ↔ c.Shown lang v := by
  refine ⟨fun h => h ▸ c.shown lang, fun h => ?_⟩
  unfold Candidate.getName
  cases h with
  | writeIn h => simp [h]
  | name v h hv => rw [if_neg (by simpa using h), getI8nValue_says hv]
  | id h hv => rw [if_neg (by simpa using h), getI8nValue_default hv]

/-- C73.  A decrypted tally has nothing that the manifest does not have. -/
theorem C73_tally_from_manifest {E : Env} {maxE : Nat} {t : Tally} {shares : List (String × DecShare)} {bh : Nat} {m : Manifest}
    {pt : PlaintextTally} (h : decryptTally E maxE t shares bh m = .ok (some pt)) : pt.FromManifest m := decryptTally_from h

/-- C73.  Neither has a decrypted ballot. -/
theorem C73_ballot_from_manifest {E : Env} {maxE : Nat} {b : SBallot} {shares : List (String × DecShare)} {bh : Nat} {m : Manifest}
    {pt : PlaintextTally} (h : decryptBallotWithShares E maxE b shares bh m = .ok (some pt)) : pt.FromManifest m :=
  decryptBallot_from h

theorem printContests_ok {m : Manifest} {pt : PlaintextTally} (h : pt.FromManifest m) :
    ∃ out, printContests m.getContestNames (m.getSelectionNames "en") pt = .ok out := by
  unfold printContests
  suffices hh : ∀ e ∈ pt.contests, ∃ b, (do
      let lines ← e.2.selections.mapM (fun s => do
        let name ← dgetR (m.getSelectionNames "en") s.2.objectId
        return (name, s.2.tally))
      return (⟨dget m.getContestNames e.2.objectId, lines⟩ : PrintedContest) : R PrintedContest) = .ok b ∧ True by
    obtain ⟨out, ho, -⟩ := mapM_relates (p := fun _ _ => True) pt.contests hh
    exact ⟨out, ho⟩
  · intro e he
    obtain ⟨-, -, c, hc, -, hs⟩ := h.2 e he
    obtain ⟨ls, hls, -⟩ := mapM_relates (p := fun _ _ => True)
        (f := fun s : String × PTSelection => do
          let name ← dgetR (m.getSelectionNames "en") s.2.objectId
          return (name, s.2.tally)) e.2.selections (fun s hs' => by
      obtain ⟨h1, h2⟩ := hs s hs'
      obtain ⟨d, hd, hde⟩ := List.mem_map.1 h2
      obtain ⟨n, hn⟩ := selectionName_isSome m "en" hc hd
      refine ⟨(n, s.2.tally), ?_, trivial⟩
      rw [dgetR_some (v := n) (by rw [h1, ← hde]; exact hn)]
      rfl)
    refine ⟨⟨dget m.getContestNames e.2.objectId, ls⟩, ?_, trivial⟩
    rw [hls]
    rfl

theorem printContests_shows {m : Manifest} (hn : (m.candidates.map Candidate.objectId).Nodup)
    (hc : (m.contests.map ContestDescription.objectId).Nodup) (hd : m.DistinctSelections) {pt : PlaintextTally}
    (h : pt.FromManifest m) :
    ∃ out, printContests m.getContestNames (m.getSelectionNames "en") pt = .ok out ∧ m.Prints pt out := by
  unfold printContests Manifest.Prints
  refine mapM_relates pt.contests (fun e he => ?_)
  obtain ⟨h1, -, c, hcm, hce, hs⟩ := h.2 e he
  obtain ⟨ls, hls, hf⟩ := mapM_relates (p := fun (s : String × PTSelection) (line : String × Nat) =>
        ∃ d ∈ c.ballotSelections, d.objectId = s.1 ∧ m.ShowsSelection d line.1 ∧ line.2 = s.2.tally)
      (f := fun s : String × PTSelection => do
        let name ← dgetR (m.getSelectionNames "en") s.2.objectId
        return (name, s.2.tally)) e.2.selections (fun s hs' => by
    obtain ⟨h1, h2⟩ := hs s hs'
    obtain ⟨d, hdm, hde⟩ := List.mem_map.1 h2
    obtain ⟨n, hn, hsh⟩ := selection_shown m hd hn hcm hdm
    refine ⟨(n, s.2.tally), ?_, d, hdm, hde, hsh, rfl⟩
    rw [dgetR_some (v := n) (by rw [h1, ← hde]; exact hn)]
    rfl)
  refine ⟨⟨dget m.getContestNames e.2.objectId, ls⟩, ?_, c, hcm, hce, ?_, hf⟩
  · rw [hls]; rfl
  · rw [h1, ← hce]; exact contestName_eq m hc hcm

/-- C73.  Printing the results of a decryption never raises, whatever the manifest. -/
theorem C73_print_returns {m : Manifest} {pt : PlaintextTally} {spoiled : List (String × PlaintextTally)} (h : pt.FromManifest m)
    (hs : ∀ e ∈ spoiled, e.2.FromManifest m) : ∃ out, printElectionResults m pt spoiled = .ok out := by
  unfold printElectionResults
  obtain ⟨o, ho⟩ := printContests_ok h
  obtain ⟨os, hos, -⟩ := mapM_relates (p := fun _ _ => True) (f := fun e : String × PlaintextTally => do
      let cs ← printContests m.getContestNames (m.getSelectionNames "en") e.2
      return (e.1, cs)) spoiled (fun e he => by
    obtain ⟨o, ho⟩ := printContests_ok (hs e he)
    exact ⟨(e.1, o), by rw [ho]; rfl, trivial⟩)
  refine ⟨(o, os), ?_⟩
  simp only [ho]
  exact congrArg (fun x => x >>= fun b => (pure (o, b) : R _)) hos

/-- C73.  The command line prints every contest under its name, and every selection under the name of its candidate with its number,
for the tally and for every spoiled ballot.  Partial: selection ids have to differ between contests. -/
theorem C73_printed_partial {m : Manifest} (ok : m.isValid = true) (hd : m.DistinctSelections) {pt : PlaintextTally}
    {spoiled : List (String × PlaintextTally)} (h : pt.FromManifest m) (hs : ∀ e ∈ spoiled, e.2.FromManifest m) :
    ∃ out, printElectionResults m pt spoiled = .ok out ∧ m.Prints pt out.1 ∧
      List.Forall₂ (fun (e : String × PlaintextTally) (p : String × List PrintedContest) => p.1 = e.1 ∧ m.Prints e.2 p.2)
        spoiled out.2 := by
  have ok := (C41_iff_partial m).1 ok
  unfold printElectionResults
  obtain ⟨o, ho, hp⟩ := printContests_shows ok.candidateIds ok.contestIds hd h
  obtain ⟨os, hos, hps⟩ := mapM_relates
      (p := fun (e : String × PlaintextTally) (p : String × List PrintedContest) => p.1 = e.1 ∧ m.Prints e.2 p.2)
      (f := fun e : String × PlaintextTally => do
      let cs ← printContests m.getContestNames (m.getSelectionNames "en") e.2
      return (e.1, cs)) spoiled (fun e he => by
    obtain ⟨o, ho, hp⟩ := printContests_shows ok.candidateIds ok.contestIds hd (hs e he)
    exact ⟨(e.1, o), by rw [ho]; rfl, rfl, hp⟩)
  refine ⟨(o, os), ?_, hp, hps⟩
  simp only [ho]
  exact congrArg (fun x => x >>= fun b => (pure (o, b) : R _)) hos

theorem sum_le_of_mem' {l : List PTSelection} {s : PTSelection} (h : s ∈ l) : s.tally ≤ (l.map (fun s => s.tally)).sum :=
  List.le_sum_of_mem (List.mem_map.2 ⟨s, h, rfl⟩)

theorem contestDetails_reports {m : Manifest} (ok : ManifestOk m) (hd : m.DistinctSelections) (hk : m.KnownCandidates)
    {w : List (String × Bool)} (hw : ∀ c ∈ m.contests, ∀ s ∈ c.ballotSelections, ∀ k ∈ m.candidates,
      k.objectId = s.candidateId → dget w s.objectId = some (k.isWriteIn == some true))
    {ps : List (String × String)} (hps : ∀ c ∈ m.contests, ∀ s ∈ c.ballotSelections, ∀ k ∈ m.candidates,
      k.objectId = s.candidateId → ∃ n, dget ps s.objectId = some n ∧ m.ShowsParty k n)
    {c : ContestDescription} (hc : c ∈ m.contests) (ss : List PTSelection)
    (hss : ∀ s ∈ ss, s.objectId ∈ c.ballotSelections.map SelectionDescription.objectId) (pc : PTContest)
    (hpc : pc.selections.map (·.2) = ss) (hid : pc.objectId = c.objectId) :
    ∃ r, getContestDetails c.name (m.getSelectionNames "en") w ps ss = .ok r ∧ m.ReportsContest pc r := by
  have desc : ∀ s ∈ ss, ∃ d ∈ c.ballotSelections, d.objectId = s.objectId ∧ ∃ k ∈ m.candidates, k.objectId = d.candidateId ∧
      dget w s.objectId = some (k.isWriteIn == some true) ∧ (∃ n, dget ps s.objectId = some n ∧ m.ShowsParty k n) ∧
      dget (m.getSelectionNames "en") s.objectId = some (k.getName "en") := by
    intro s hs
    obtain ⟨d, hdm, hde⟩ := List.mem_map.1 (hss s hs)
    obtain ⟨k, hkm, hke⟩ := hk c hc d hdm
    refine ⟨d, hdm, hde, k, hkm, hke, ?_, ?_, ?_⟩
    · rw [← hde]; exact hw c hc d hdm k hkm hke
    · rw [← hde]; exact hps c hc d hdm k hkm hke
    · rw [← hde, selectionName_eq m "en" hd hc hdm, ← hke, candidateName_eq m "en" ok.candidateIds hkm]; rfl
  have uniq : ∀ d ∈ c.ballotSelections, ∀ d' ∈ c.ballotSelections, d.objectId = d'.objectId → d = d' := fun d hd d' hd' h =>
    List.inj_on_of_nodup_map (ok.contests c hc).ids hd hd' h
  have wi : ∀ s ∈ ss, ((dget w s.objectId).getD false = true ↔ m.WriteIn c s.objectId) := by
    intro s hs
    obtain ⟨d, hdm, hde, k, hkm, hke, h1, -⟩ := desc s hs
    rw [h1, Option.getD_some, beq_iff_eq]
    constructor
    · intro h; exact ⟨d, hdm, hde, k, hkm, hke, h⟩
    · rintro ⟨d', hdm', hde', k', hkm', hke', h'⟩
      have e1 := uniq d hdm d' hdm' (hde.trans hde'.symm)
      have e2 : k = k' := List.inj_on_of_nodup_map ok.candidateIds hkm hkm' (by rw [hke, hke', e1])
      rw [e2]; exact h'
  have hfl : ss.mapM (fun s => do return (s, ← dgetR w s.objectId))
      = (.ok (ss.map (fun s => (s, (dget w s.objectId).getD false))) : R (List (PTSelection × Bool))) := by
    refine mapM_ok _ _ _ (fun s hs => ?_)
    obtain ⟨d, hdm, hde, k, hkm, hke, h1, -⟩ := desc s hs
    rw [dgetR_some h1, h1]
    rfl
  have hreg : ((ss.map (fun s => (s, (dget w s.objectId).getD false))).filter (fun e => !e.2)).map (·.1)
      = ss.filter (fun s => !(dget w s.objectId).getD false) := by
    rw [List.filter_map, List.map_map]
    simp [Function.comp_def]
  have hwr : ((ss.map (fun s => (s, (dget w s.objectId).getD false))).filter (fun e => e.2)).map (fun e => e.1.tally)
      = (ss.filter (fun s => (dget w s.objectId).getD false)).map (fun s => s.tally) := by
    rw [List.filter_map, List.map_map]
    simp [Function.comp_def]
  set regular := ss.filter (fun s => !(dget w s.objectId).getD false) with hr
  set written := ss.filter (fun s => (dget w s.objectId).getD false) with hwt
  obtain ⟨rep, hrep, hfa⟩ := mapM_relates (p := m.ReportsSelection c (regular.map (fun s => s.tally)).sum)
      (f := fun s : PTSelection => do
        let name ← dgetR (m.getSelectionNames "en") s.objectId
        return ⟨name, s.tally, (dget ps s.objectId).getD "",
          if s.tally = 0 then (0, 1) else (s.tally, (regular.map (fun s => s.tally)).sum)⟩) regular (fun s hs => by
    have hs' := (List.mem_filter.1 hs).1
    obtain ⟨d, hdm, hde, k, hkm, hke, h1, ⟨n, h2, h2'⟩, h3⟩ := desc s hs'
    rw [dgetR_some h3]
    refine ⟨_, rfl, ⟨d, hdm, hde, k, hkm, hke, k.shown "en", ?_⟩, rfl, ?_⟩
    · rw [h2]; exact h2'
    · simp only
      split
      · rename_i h0; simp [h0]
      · exact ⟨rfl, lt_of_lt_of_le (Nat.pos_of_ne_zero (by assumption)) (sum_le_of_mem' hs)⟩)
  refine ⟨⟨c.name, rep, (regular.map (fun s => s.tally)).sum,
    if (written.map (fun s => s.tally)).length > 0 then some (written.map (fun s => s.tally)).sum else none⟩, ?_, ⟨c, hc, hid.symm, rfl,
    regular, written, ?_, ?_, ?_, ?_, hfa, rfl, ?_⟩⟩
  · unfold getContestDetails getSelectionsReport
    rw [hfl]
    simp only [bind, Except.bind, hreg, hwr]
    simp only [bind, Except.bind] at hrep
    rw [hrep]
    rfl
  · rw [hpc]
    have := List.filter_append_perm (fun s : PTSelection => !(dget w s.objectId).getD false) ss
    simpa [hr, hwt] using this
  · rw [hpc]; exact List.filter_sublist
  · intro s hs
    obtain ⟨h1, h2⟩ := List.mem_filter.1 hs
    rw [← wi s h1]
    simpa using h2
  · intro s hs
    obtain ⟨h1, h2⟩ := List.mem_filter.1 hs
    exact (wi s h1).1 h2
  · simp only
    cases written <;> simp

/-- C73.  The report of the GUI shows every contest under its name, every selection that is no write-in under the name and the party
of its candidate with its number and its share of the contest, and the sum of the write-ins.  Partial: selection ids have to differ
between contests, and every selection needs its candidate. -/
theorem C73_report_partial {m : Manifest} (ok : m.isValid = true) (hd : m.DistinctSelections) (hk : m.KnownCandidates)
    {pt : PlaintextTally} (h : pt.FromManifest m) :
    ∃ out, getPlaintextBallotReport m pt = .ok out ∧ List.Forall₂ (fun e r => m.ReportsContest e.2 r) pt.contests out := by
  have ok := (C41_iff_partial m).1 ok
  obtain ⟨w, hw, hw'⟩ := writeIns_ok m hk ok.candidateIds hd
  obtain ⟨ps, hps, hps'⟩ := parties_ok m ok hd
  unfold getPlaintextBallotReport
  rw [hw, hps]
  refine mapM_relates (p := fun e r => m.ReportsContest e.2 r) pt.contests (fun e he => ?_)
  obtain ⟨h1, -, c, hc, hce, hs⟩ := h.2 e he
  have hnm : dget m.getContestNames e.2.objectId = some c.name := by
    rw [h1, ← hce]; exact contestName_eq m ok.contestIds hc
  rw [hnm]
  refine contestDetails_reports ok hd hk hw' hps' hc _ ?_ e.2 rfl (h1.trans hce.symm)
  intro s hs'
  obtain ⟨s', hm, rfl⟩ := List.mem_map.1 hs'
  obtain ⟨h2, h3⟩ := hs s' hm
  rw [h2]; exact h3

/-- C73.  If a selection names no candidate of the manifest, the GUI has no report, whatever the results. -/
theorem C73_report_unknown_candidate {m : Manifest} (hk : ¬ m.KnownCandidates) (pt : PlaintextTally) :
    getPlaintextBallotReport m pt = .error .key := by
  unfold getPlaintextBallotReport
  rw [writeIns_error m hk]
  rfl

/-! ### Concrete cases -/

/-- The toy manifest with names: `x` has an English name and a party, `y` only a German name, `z` is the write-in. -/
def namedManifest : Manifest :=
  { toyManifest with
    parties := [⟨"p", ⟨[⟨"Green", "en"⟩]⟩, none, none, none⟩]
    candidates := [⟨"x", ⟨[⟨"Ada E.", "de"⟩, ⟨"Ada", "en"⟩]⟩, some "p", none, none⟩, ⟨"y", ⟨[⟨"Bert", "de"⟩]⟩, none, none, none⟩,
      ⟨"z", ⟨[⟨"other", "en"⟩]⟩, none, none, some true⟩]
    contests := [⟨"c", 1, "u", .one_of_m, 1, some 1, "first", [⟨"sx", 1, "x"⟩, ⟨"sy", 2, "y"⟩, ⟨"sw", 3, "z"⟩], none, none, none⟩,
      ⟨"d", 2, "w", .one_of_m, 1, some 1, "second", [⟨"sz", 1, "y"⟩], none, none, none⟩] }

/-- A selection of a plaintext tally. -/
def shownSelection (id : String) (n : Nat) : String × PTSelection := (id, ⟨id, n, 0, ⟨1, 1⟩, []⟩)

/-- A result for it. -/
def namedTally : PlaintextTally :=
  ⟨"t", [("c", ⟨"c", [shownSelection "sx" 3, shownSelection "sy" 1, shownSelection "sw" 2]⟩), ("d", ⟨"d", [shownSelection "sz" 0]⟩)]⟩

example : namedManifest.isValid = true ∧ namedManifest.DistinctSelections ∧ namedManifest.KnownCandidates ∧
    namedTally.FromManifest namedManifest := by
  refine ⟨by decide +kernel, by unfold Manifest.DistinctSelections; decide +kernel, by unfold Manifest.KnownCandidates; decide +kernel,
    by unfold PlaintextTally.FromManifest; decide +kernel⟩

example : printElectionResults namedManifest namedTally [("b", namedTally)] = .ok
    ([⟨some "first", [("Ada", 3), ("y", 1), ("Write-In", 2)]⟩, ⟨some "second", [("y", 0)]⟩],
     [("b", [⟨some "first", [("Ada", 3), ("y", 1), ("Write-In", 2)]⟩, ⟨some "second", [("y", 0)]⟩])]) := by decide +kernel

example : getPlaintextBallotReport namedManifest namedTally = .ok
    [⟨"first", [⟨"Ada", 3, "Green", (3, 4)⟩, ⟨"y", 1, "", (1, 4)⟩], 4, some 2⟩, ⟨"second", [⟨"y", 0, "", (0, 1)⟩], 0, none⟩] := by
  decide +kernel

/-- C73 fails for the name of the election: a manifest with a name without texts is accepted as valid, but the commands and the GUI,
which show the name, raise. -/
theorem C73_unnamed_fails : ({ toyManifest with name := some ⟨[]⟩ } : Manifest).isValid = true ∧
    ({ toyManifest with name := some ⟨[]⟩ } : Manifest).getName = .error .index := by
  refine ⟨by decide +kernel, rfl⟩

/-- The toy manifest without its third candidate. -/
def unknownCandidate : Manifest := { toyManifest with candidates := toyManifest.candidates.take 2 }

/-- C73 fails for the report of the GUI: a manifest that is accepted as valid may have a selection for a candidate it does not have.
The command line prints the candidate's id, but the GUI can show neither the tally nor any spoiled ballot. -/
theorem C73_unknown_candidate_fails : unknownCandidate.isValid = true ∧
    (∀ pt, getPlaintextBallotReport unknownCandidate pt = .error .key) ∧
    printElectionResults unknownCandidate ⟨"t", [("d", ⟨"d", [shownSelection "sz" 2]⟩)]⟩ [] = .ok ([⟨some "second", [("z", 2)]⟩], []) := by
  refine ⟨by decide +kernel, C73_report_unknown_candidate ?_, by decide +kernel⟩
  unfold Manifest.KnownCandidates
  decide +kernel

/-- The toy manifest with the same selection id in both contests. -/
def sharedSelection : Manifest :=
  { toyManifest with
    contests := [⟨"c", 1, "u", .one_of_m, 1, some 1, "first", [⟨"sx", 1, "x"⟩, ⟨"sy", 2, "y"⟩], none, none, none⟩,
      ⟨"d", 2, "w", .one_of_m, 1, some 1, "second", [⟨"sx", 1, "z"⟩], none, none, none⟩] }

/-- C73 fails if two contests have a selection with the same id: the manifest is valid, but the votes of candidate `x` are shown as
the votes of candidate `z`. -/
theorem C73_shared_selection_fails : sharedSelection.isValid = true ∧
    (printElectionResults sharedSelection ⟨"t", [("c", ⟨"c", [shownSelection "sx" 2, shownSelection "sy" 1]⟩)]⟩ []
      = .ok ([⟨some "first", [("z", 2), ("y", 1)]⟩], [])) ∧
    (getPlaintextBallotReport sharedSelection ⟨"t", [("c", ⟨"c", [shownSelection "sx" 2, shownSelection "sy" 1]⟩)]⟩
      = .ok [⟨"first", [⟨"z", 2, "", (2, 3)⟩, ⟨"y", 1, "", (1, 3)⟩], 3, none⟩]) := by
  refine ⟨by decide +kernel, by decide +kernel, by decide +kernel⟩

end EG
