import Verif.Props.Marking
import Verif.Props.CliTextToy

/-!
# C87: instances
-/

namespace EG

/-- Draws for two ballots, of the two styles of the toy manifest. -/
def toyDraws : List BallotDraws :=
  [⟨0, "b", fun _ => ⟨fun i => i + 1, 3, fun i => i % 2 == 0, fun i => 2 * i + 1⟩⟩, ⟨1, "v", fun _ => ⟨fun i => i, 0, fun _ => false, fun i => i⟩⟩]

/-- The ballots that are marked with these draws. -/
def toyMarked : List PlaintextBallot := [⟨"b", "s", [⟨"c", [⟨"sy", 1, false, none⟩, ⟨"sx", 0, false, none⟩]⟩]⟩,
  ⟨"v", "t", [⟨"c", [⟨"sx", 1, false, none⟩]⟩, ⟨"d", [⟨"sz", 1, false, none⟩]⟩]⟩]

/-- C87 for the toy manifest: a full ballot each, with an explicit vote against a candidate on the first. -/
example : generateFakeBallots toyIM toyDraws none false false = .ok toyMarked ∧
    generateFakeBallots toyIM toyDraws (some "nowhere") false false = .error .index := by decide +kernel

/-- With null votes the second is blank. -/
example : (generateFakeBallots toyIM toyDraws none true true).map (fun bs => bs.map (fun b => b.contests.map (fun c => c.chosen)))
    = .ok [[1], [0, 0]] := by decide +kernel

/-- The single ballot, for the toy manifest. -/
example : getFakeBallot toyIM none false (fun _ => ⟨fun i => i + 1, 3, fun i => i % 2 == 0, fun i => 2 * i + 1⟩)
    = .ok ⟨"some-unique-ballot-id-123", "s", [⟨"c", [⟨"sy", 1, false, none⟩, ⟨"sx", 0, false, none⟩]⟩]⟩ := by decide +kernel

/-- The case of `C87_no_seats_fails`: a contest without seats. -/
example (r : ContestDraws) : getRandomContest r ⟨{ (exDescription none).toContestDescription with numberElected := 0 }, []⟩ false true = .error .value :=
  (C87_no_seats_fails r _ (by decide) rfl).1

theorem toyNonces : ∀ i ∈ ["b", "v"], ∀ d ∈ toyIM.contests, NoncesUsable toyEnv d (nonceSeed toyEnv toyIM.manifestHash i 9) := by
  unfold NoncesUsable
  decide +kernel

theorem toyOrders : ∀ d ∈ toyIM.contests, OrdersUsable d := by
  unfold OrdersUsable
  decide +kernel

/-- C87 for the toy election: three guardians, two marked ballots; both are cast, and the two contests have as many votes as ballots have them. -/
example : ∃ pkg keys bs mdir dir sdir r,
    setupCommandText toyEnv extraSmallConstants cliRands toyRnd.backups (3 : Nat) (2 : Nat) cliManifest none [] = .ok (pkg, keys) ∧
    markCommandText toyEnv pkg.manifest pkg.context toyDraws none (some []) = .ok (bs, some mdir) ∧
    encryptCommandText toyEnv toyRnd.device pkg.manifest pkg.context (.dir (mdir.map (·.2)).reverse) [(9, 17), (9, 18)] [] = .ok dir ∧
    submitCommandText toyEnv pkg.manifest pkg.context (.dir ((dir.drop 1).map (·.2))) (some (.dir [])) [] = .ok sdir ∧
    importCommandText toyEnv extraSmallConstants 12 toyRnd.seeds pkg.manifest pkg.context (.dir (sdir.map (·.2))) (keys.map (·.2))
      (some (toRaw Device.toJson toyRnd.device)) true = .ok r ∧
    (∃ x y, r.results.tally.Reports "c" "sx" x ∧ r.results.tally.Reports "c" "sy" y ∧ x + y = 2) ∧ r.results.tally.Reports "d" "sz" 1 := by
  obtain ⟨pkg, keys, h1, h2⟩ := C87_pipeline_partial (E := toyEnv) extraSmall_valid (by decide) (fun _ _ => by simp [toyEnv])
    (by decide +kernel) 12 (by decide) 3 2 (by decide) (by decide) (by decide) (by decide) cliRands
    (fun _ _ => rfl) (by
      intro i r hr
      simp only [cliRands, List.mem_cons, List.not_mem_nil, or_false] at hr
      have : i % 9 < 9 := Nat.mod_lt _ (by decide)
      rcases hr with rfl | rfl
      · show i % 9 + 4 < 13; omega
      · show 2 < 13; omega)
    toyRnd.backups cliManifest typedManifest cliManifest_read toyIM typedReady
    (by intro t ht; revert t; decide +kernel)
    (by
      have : ∀ d ∈ toyIM.contests, d.votesAllowed = some d.numberElected := by decide +kernel
      intro d hd v hv
      rw [this d hd] at hv
      cases hv
      exact le_refl _)
    toyOrders
    (by
      intro s hs
      have hs' : ∀ s ∈ toyIM.ballotStyles, toyIM.contests.filter (toyIM.onStyle s.objectId) ≠ [] := by decide +kernel
      obtain ⟨d, hd⟩ := List.exists_mem_of_ne_nil _ (hs' s hs)
      obtain ⟨hd1, hd2⟩ := List.mem_filter.1 hd
      exact ⟨d, (onStyle_iff toyIM _ d hd1).1 hd2⟩)
    none extraSmallConstants rfl
  obtain ⟨bs, mdir, h3, h4, h5, -, -, h6⟩ := h2 toyDraws none ⟨"s", fun _ h => (by cases h), by decide +kernel⟩ (by decide) (by decide)
  have hbs : bs = toyMarked := by
    have : generateFakeBallots toyIM toyDraws none false false = .ok toyMarked := by decide +kernel
    rw [this] at h4
    cases h4
    rfl
  subst hbs
  have hl : mdir.length = 2 := by rw [h5]; rfl
  obtain ⟨dir, h7, h8, h9, h10⟩ := h6 (mdir.map (·.2)).reverse (List.reverse_perm _) toyRnd.device [(9, 17), (9, 18)] (by simp [hl])
    (by decide +kernel) (by
      intro b hb r hr d hd
      have hr9 : r.1 = 9 := by revert r; decide
      have hbi : b.objectId ∈ ["b", "v"] := by revert b; decide
      rw [hr9]
      exact toyNonces _ hbi d hd)
  have hl' : dir.length = 3 := by
    have := h8.length_eq
    rwa [List.length_map] at this
  obtain ⟨e, e1, e2, rfl⟩ : ∃ e e1 e2, dir = [e, e1, e2] := by
    match dir, hl' with
    | [e, e1, e2], _ => exact ⟨e, e1, e2, rfl⟩
  cases Option.some.inj h9
  obtain ⟨sdir, h11, h12⟩ := h10 [e1, e2] [] (List.Perm.refl _) (show 2 < 13 by omega) (by simp)
  obtain ⟨r, cast, spoiled, h13, h14, -, -, h15⟩ := h12 _ _ (List.Perm.refl _) (List.Perm.refl _) toyRnd.seeds
  refine ⟨pkg, keys, _, mdir, _, sdir, r, h1, h3, h7, h11, h13, ?_⟩
  have hnames : [e1.1, e2.1].Perm ["b.json", "v.json"] := by
    have : ["device.json", e1.1, e2.1].Perm ["device.json", "b.json", "v.json"] := h8
    exact (List.perm_cons _).1 this
  have hall : ballotsNamed [e1, e2] toyMarked = toyMarked := by
    unfold ballotsNamed
    rw [List.filter_eq_self]
    intro b hb
    have : b.objectId ++ ".json" ∈ ["b.json", "v.json"] := by revert b; decide
    exact decide_eq_true (hnames.symm.subset this)
  rw [hall] at h15
  have hcs : toyIM.contests.map (fun d => (d.objectId, d.numberElected, d.ballotSelections.map (fun s => s.objectId),
      (toyMarked.filter (fun b => toyIM.onStyle b.styleId d)).length)) = [("c", 1, ["sx", "sy"], 2), ("d", 1, ["sz"], 1)] := by decide +kernel
  obtain ⟨c, ds, hcc, hc, hds⟩ := List.map_eq_cons_iff.1 hcs
  obtain ⟨d, ds, rfl, hd, -⟩ := List.map_eq_cons_iff.1 hds
  simp only [Prod.mk.injEq] at hc hd
  obtain ⟨hc1, hc2, hc3, hc4⟩ := hc
  obtain ⟨hd1, hd2, hd3, hd4⟩ := hd
  obtain ⟨cc, hcr, hcn⟩ := h15 c (by rw [hcc]; simp)
  obtain ⟨cd, hdr, hdn⟩ := h15 d (by rw [hcc]; simp)
  rw [hc2, hc4] at hcn
  rw [hd2, hd4] at hdn
  obtain ⟨s1, l1, hs1, he1, hl1⟩ := List.map_eq_cons_iff.1 hc3
  obtain ⟨s2, l2, rfl, he2, hl2⟩ := List.map_eq_cons_iff.1 hl1
  cases List.map_eq_nil_iff.1 hl2
  obtain ⟨s3, l3, hs3, he3, hl3⟩ := List.map_eq_cons_iff.1 hd3
  cases List.map_eq_nil_iff.1 hl3
  rw [hs1] at hcr
  rw [hs3] at hdr
  cases hcr with
  | cons ha hrest =>
    cases hrest with
    | cons hb hnil =>
      cases hnil
      cases hdr with
      | cons hz hnil =>
        cases hnil
        rw [hc1, he1] at ha
        rw [hc1, he2] at hb
        rw [hd1, he3] at hz
        simp only [List.sum_cons, List.sum_nil] at hcn hdn
        refine ⟨⟨_, _, ha, hb, by omega⟩, ?_⟩
        rename_i z
        have : z = 1 := by omega
        rw [← this]
        exact hz

/-- The case of `C87_votes_allowed_fails`: a contest for one seat with two votes allowed, and a ballot that `mark-ballots` makes for it. -/
example : ∃ bs, generateFakeBallots (toyInternal toyTwoVotes) toyDraws none false false = .ok bs ∧
    (∃ b ∈ bs, ∃ d ∈ (toyInternal toyTwoVotes).contests, (toyInternal toyTwoVotes).onStyle b.styleId d = true ∧ d.isValid = true ∧ 1 ≤ d.numberElected ∧
      d.votesAllowed = some 2 ∧ d.numberElected < 2) ∧
    ∀ b ∈ bs, ∀ ctx seed nonce now enc, encryptBallot toyEnv contestDataJson b (toyInternal toyTwoVotes) ctx seed nonce now false ≠ .ok (some enc) := by
  have hg : generateFakeBallots (toyInternal toyTwoVotes) toyDraws none false false = .ok toyMarked := by decide +kernel
  have hon : ∀ b ∈ toyMarked, ∃ d ∈ (toyInternal toyTwoVotes).contests, (toyInternal toyTwoVotes).onStyle b.styleId d = true ∧ d.isValid = true ∧
      1 ≤ d.numberElected ∧ d.votesAllowed = some 2 ∧ d.numberElected < 2 := by decide +kernel
  refine ⟨toyMarked, hg, ⟨⟨"b", "s", [⟨"c", [⟨"sy", 1, false, none⟩, ⟨"sx", 0, false, none⟩]⟩]⟩, by decide, hon _ (by decide)⟩, ?_⟩
  intro b hb ctx seed nonce now enc
  obtain ⟨d, hd, h1, h2, h3, h4, h5⟩ := hon b hb
  exact C87_votes_allowed_fails (E := toyEnv) contestDataJson (toyInternal toyTwoVotes) (by unfold InternalManifest.UniqueIds; decide +kernel) toyDraws none
    toyMarked hg b hb d ((onStyle_iff _ _ d hd).1 h1) h2 h3 2 h4 h5 ctx seed nonce now false enc

end EG
