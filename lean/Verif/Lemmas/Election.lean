import Verif.Spec.Election
import Verif.Spec.Tally
import Verif.Lemmas.EncryptBallot
import Verif.Lemmas.KeyCeremonyMediator
import Verif.Props.BallotBox
import Verif.Props.Batch
import Verif.Props.Encrypt
import Verif.Props.Validator

/-!
# Encrypted ballots in the ballot box and in the tally
-/

namespace EG

variable {E : Env}

/-! ### The shape of an encrypted ballot -/

theorem ContestSpec.selIds {key baseHash seed : Nat} {c : PlaintextContest} {d : ContestWithPlaceholders}
    {enc : CContest} {n : Nat} {real phs : List CSelection} {fill : List Nat}
    (h : ContestSpec E key baseHash seed c d enc n real phs fill) :
    enc.ballotSelections.map (fun s => s.objectId)
      = (d.ballotSelections ++ d.placeholders).map SelectionDescription.objectId := by
  have h1 : real.map (fun s => s.objectId) = d.ballotSelections.map SelectionDescription.objectId := by
    have := h.real
    clear h
    generalize d.ballotSelections = z at this ⊢
    induction this with
    | nil => rfl
    | cons hh _ ih => simp [hh.holds.id, ih]
  have h2 : phs.map (fun s => s.objectId) = (d.placeholders.zip fill).map (fun x => x.1.objectId) := by
    have := h.phs
    clear h
    generalize d.placeholders.zip fill = z at this
    induction this with
    | nil => rfl
    | cons hh _ ih => simp [hh.holds.id, ih]
  have h3 : (d.placeholders.zip fill).map (fun x => x.1.objectId)
      = d.placeholders.map SelectionDescription.objectId := by
    have h4 : (d.placeholders.zip fill).map Prod.fst = d.placeholders := by
      rw [List.map_fst_zip]
      exact h.fillLen.ge
    conv_rhs => rw [← h4]
    rw [List.map_map]
    rfl
  rw [h.sels, List.map_append, List.map_append, h1, h2, h3]

theorem BallotSpec.matches {b : PlaintextBallot} {m : InternalManifest} {ctx : Context} {cseed nonce : Nat} {now : Int}
    {ds : List ContestWithPlaceholders} {enc : CBallot} (h : BallotSpec E b m ctx cseed nonce now ds enc)
    (hids : m.UniqueIds) : enc.MatchesStyle E m := by
  obtain ⟨hmem, hsub⟩ := h.styleContests
  intro d hd
  rw [h.styleId] at hd
  have hdin := (hmem d).2 hd
  obtain ⟨c, hc, n, real, phs, fill, hs⟩ := forall₂_mem_right h.contests hdin
  have hn : (enc.contests.map CContest.objectId).Nodup := by
    rw [h.ids]
    exact hids.1.sublist (hsub.map _)
  refine ⟨c, ?_, hs.hash, ?_, ?_⟩
  · rw [← hs.id]
    exact find_of_nodup hn hc
  · have := congrArg List.length hs.selIds
    simpa using this
  · intro sd hsd
    obtain ⟨s, hss, hsel⟩ := forall₂_mem_right hs.real hsd
    have hns : (c.ballotSelections.map (fun s => s.objectId)).Nodup := by
      rw [hs.selIds]
      exact hids.2 d (hsub.subset hdin)
    refine ⟨s, ?_, hsel.holds.hash⟩
    rw [← hsel.holds.id]
    exact find_of_nodup hns (by rw [hs.sels]; simp [hss])

theorem BallotSpec.forElection {b : PlaintextBallot} {m : InternalManifest} {ctx : Context} {cseed nonce : Nat}
    {now : Int} {ds : List ContestWithPlaceholders} {enc : CBallot}
    (h : BallotSpec E b m ctx cseed nonce now ds enc) (hids : m.UniqueIds)
    (hsorted : m.contests.Pairwise (fun c d => c.sequenceOrder ≤ d.sequenceOrder))
    (hsome : ∃ d, m.StyleHas b.styleId d) : ballotIsValidForElection E enc m ctx true = .ok true := by
  refine (C32_election E enc m ctx true).2 ⟨((C32_iff E enc m).1).2 ⟨?_, h.matches hids⟩, fun _ => h.valid hsorted hsome⟩
  obtain ⟨d, s, us, h1, -⟩ := hsome
  have h2 := List.find?_some h1
  exact ⟨s, List.mem_of_find?_eq_some h1, by rw [h.styleId]; simpa using h2⟩

theorem BallotSpec.sorted {b : PlaintextBallot} {m : InternalManifest} {ctx : Context} {cseed nonce : Nat}
    {now : Int} {ds : List ContestWithPlaceholders} {enc : CBallot}
    (h : BallotSpec E b m ctx cseed nonce now ds enc)
    (hsorted : m.contests.Pairwise (fun c d => c.sequenceOrder ≤ d.sequenceOrder)) :
    enc.contests.Pairwise (fun c d => c.sequenceOrder ≤ d.sequenceOrder) := by
  have hp : (ds.map (fun d => d.sequenceOrder)).Pairwise (fun a b : Int => a ≤ b) :=
    List.pairwise_map.2 (hsorted.sublist h.styleContests.2)
  rw [← h.orders] at hp
  exact List.pairwise_map.1 hp

theorem BallotSpec.nonempty {b : PlaintextBallot} {m : InternalManifest} {ctx : Context} {cseed nonce : Nat}
    {now : Int} {ds : List ContestWithPlaceholders} {enc : CBallot}
    (h : BallotSpec E b m ctx cseed nonce now ds enc) (hsome : ∃ d, m.StyleHas b.styleId d) : enc.contests ≠ [] := by
  intro hnil
  have hcs := h.contests
  rw [hnil] at hcs
  obtain ⟨d, hd⟩ := hsome
  have := (h.styleContests.1 d).2 hd
  cases hcs
  cases this

theorem BallotSpec.regular {b : PlaintextBallot} {m : InternalManifest} {ctx : Context} {cseed nonce : Nat}
    {now : Int} {ds : List ContestWithPlaceholders} {enc : CBallot}
    (h : BallotSpec E b m ctx cseed nonce now ds enc) (hids : m.UniqueIds) : enc.Regular m := by
  obtain ⟨hmem, hsub⟩ := h.styleContests
  refine ⟨by rw [h.ids]; exact hids.1.sublist (hsub.map _), ?_, ?_⟩
  · intro c hc
    obtain ⟨d, hd, n, real, phs, fill, hs⟩ := forall₂_left h.contests hc
    exact ⟨d, by rw [h.styleId]; exact (hmem d).1 hd, hs.id.symm⟩
  · intro c hc d' hd' hid s hs hph sd hsd hsid
    obtain ⟨d, hd, n, real, phs, fill, hspec⟩ := forall₂_left h.contests hc
    have hdd : d' = d := eq_of_id hids.1 hd' (hsub.subset hd) (by rw [hid, hspec.id])
    subst hdd
    rw [hspec.sels, List.mem_append] at hs
    rcases hs with hs | hs
    · obtain ⟨sd', -, hh⟩ := forall₂_left hspec.real hs
      rw [hh.holds.flag] at hph
      cases hph
    · obtain ⟨x, hx, hh⟩ := forall₂_left hspec.phs hs
      have hn := hids.2 d' hd'
      rw [List.map_append, List.nodup_append] at hn
      exact hn.2.2 _ (List.mem_map_of_mem hsd) _ (List.mem_map_of_mem (List.of_mem_zip hx).1)
        (by rw [hsid, hh.holds.id])

theorem distinct_same {m : InternalManifest} (hm : m.DistinctSelections) {d d' : ContestWithPlaceholders}
    (hd : d ∈ m.contests) (hd' : d' ∈ m.contests) {x : String}
    (hx : x ∈ (d.ballotSelections ++ d.placeholders).map SelectionDescription.objectId)
    (hx' : x ∈ (d'.ballotSelections ++ d'.placeholders).map SelectionDescription.objectId) : d = d' := by
  unfold InternalManifest.DistinctSelections at hm
  rw [List.nodup_flatMap] at hm
  by_contra hne
  have hsym : Std.Symm (Function.onFun List.Disjoint
      (fun d : ContestWithPlaceholders => (d.ballotSelections ++ d.placeholders).map SelectionDescription.objectId)) :=
    ⟨fun a b hab x hx hx' => hab hx' hx⟩
  exact (hm.2.forall hd hd' hne) hx hx'

theorem BallotSpec.separate {b : PlaintextBallot} {m : InternalManifest} {ctx : Context} {cseed nonce : Nat}
    {now : Int} {ds : List ContestWithPlaceholders} {enc : CBallot}
    (h : BallotSpec E b m ctx cseed nonce now ds enc) (hm : m.DistinctSelections) : enc.Separate m := by
  obtain ⟨hmem, hsub⟩ := h.styleContests
  constructor
  · have heq : enc.contests.flatMap (fun c => c.ballotSelections.map (fun s => s.objectId))
        = ds.flatMap (fun d => (d.ballotSelections ++ d.placeholders).map SelectionDescription.objectId) := by
      have := h.contests
      clear h hmem hsub
      generalize enc.contests = cs at this
      induction this with
      | nil => rfl
      | cons hh _ ih =>
        obtain ⟨n, real, phs, fill, hs⟩ := hh
        simp only [List.flatMap_cons]
        rw [hs.selIds, ih]
    rw [heq]
    exact hm.sublist (hsub.flatMap _)
  · intro c hc s hs d' hd' sd hsd hsid
    obtain ⟨d, hd, n, real, phs, fill, hspec⟩ := forall₂_left h.contests hc
    rw [hspec.id]
    have hx : s.objectId ∈ (d.ballotSelections ++ d.placeholders).map SelectionDescription.objectId := by
      rw [← hspec.selIds]
      exact List.mem_map_of_mem (f := fun s : CSelection => s.objectId) hs
    have hx' : s.objectId ∈ (d'.ballotSelections ++ d'.placeholders).map SelectionDescription.objectId := by
      rw [← hsid]
      exact List.mem_map_of_mem (List.mem_append_left _ hsd)
    rw [distinct_same hm hd' (hsub.subset hd) hx' hx]

/-! ### Submitting -/

theorem submit_contests (b : CBallot) (st : BallotBoxState) :
    (submitBallot E b st).contests = b.contests.map CContest.stripNonces := rfl

theorem submit_regular {b : CBallot} {m : InternalManifest} (st : BallotBoxState) (h : b.Regular m) :
    (submitBallot E b st).toCBallot.Regular m := by
  refine ⟨?_, ?_, ?_⟩
  · rw [submit_contests, List.map_map]; exact h.ids
  · intro c hc
    rw [submit_contests] at hc
    obtain ⟨c', hc', rfl⟩ := List.mem_map.1 hc
    exact h.style c' hc'
  · intro c hc d hd hid s hs hph
    rw [submit_contests] at hc
    obtain ⟨c', hc', rfl⟩ := List.mem_map.1 hc
    obtain ⟨s', hs', rfl⟩ := List.mem_map.1 hs
    exact h.flags c' hc' d hd hid s' hs' hph

theorem submit_separate {b : CBallot} {m : InternalManifest} (st : BallotBoxState) (h : b.Separate m) :
    (submitBallot E b st).toCBallot.Separate m := by
  constructor
  · have : (submitBallot E b st).contests.flatMap (fun c => c.ballotSelections.map (fun s => s.objectId))
        = b.contests.flatMap (fun c => c.ballotSelections.map (fun s => s.objectId)) := by
      rw [submit_contests, List.flatMap_map]
      refine List.flatMap_congr (fun c _ => ?_)
      show (c.ballotSelections.map _).map _ = _
      rw [List.map_map]
      rfl
    rw [this]
    exact h.ids
  · intro c hc s hs
    rw [submit_contests] at hc
    obtain ⟨c', hc', rfl⟩ := List.mem_map.1 hc
    obtain ⟨s', hs', rfl⟩ := List.mem_map.1 hs
    exact h.contest c' hc' s' hs'

theorem contribution_submit (b : CBallot) (st : BallotBoxState) (cid sid : String) :
    contribution (submitBallot E b st).contests cid sid = contribution b.contests cid sid := by
  unfold contribution
  rw [submit_contests, List.filter_map, List.filterMap_map]
  refine List.filterMap_congr (fun c _ => ?_)
  show Option.map _ ((c.ballotSelections.map _).find? _) = _
  rw [List.find?_map, Option.map_map]
  rfl

/-! ### The ballot box -/

/-- The stored ballots. -/
def stored (E : Env) (vs : List VotedBallot) : Store SBallot :=
  (firsts vs).map (fun v => (v.plain.objectId, submitBallot E v.enc v.state))

theorem mem_firsts_ids (vs : List VotedBallot) (x : String) :
    x ∈ (firsts vs).map (fun w => w.plain.objectId) ↔ x ∈ vs.map (fun w => w.plain.objectId) := by
  induction vs with
  | nil => rfl
  | cons w vs ih =>
    rw [firsts, List.map_cons, List.map_cons, List.mem_cons, List.mem_cons]
    refine or_congr_right' (fun hne => ?_)
    rw [← ih]
    constructor
    · intro h
      obtain ⟨y, hy, hye⟩ := List.mem_map.1 h
      exact List.mem_map.2 ⟨y, (List.mem_filter.1 hy).1, hye⟩
    · intro h
      obtain ⟨y, hy, hye⟩ := List.mem_map.1 h
      refine List.mem_map.2 ⟨y, List.mem_filter.2 ⟨hy, ?_⟩, hye⟩
      rw [decide_eq_true_eq, hye]
      exact hne

theorem firsts_append (vs : List VotedBallot) (v : VotedBallot) : firsts (vs ++ [v]) =
    if v.plain.objectId ∈ vs.map (fun w => w.plain.objectId) then firsts vs else firsts vs ++ [v] := by
  induction vs with
  | nil => simp [firsts]
  | cons w vs ih =>
    simp only [List.cons_append, firsts, ih, List.map_cons, List.mem_cons]
    by_cases h : v.plain.objectId = w.plain.objectId
    · rw [if_pos (Or.inl h)]
      split
      · rfl
      · simp [h]
    · by_cases hm : v.plain.objectId ∈ vs.map (fun w => w.plain.objectId)
      · rw [if_pos hm, if_pos (Or.inr hm)]
      · rw [if_neg hm, if_neg (by simp only [h, hm, or_self, not_false_eq_true])]
        simp [h]

theorem firsts_nodup (vs : List VotedBallot) : ((firsts vs).map (fun v => v.plain.objectId)).Nodup := by
  induction vs with
  | nil => simp [firsts]
  | cons v vs ih =>
    simp only [firsts, List.map_cons, List.nodup_cons]
    refine ⟨?_, ih.sublist (List.filter_sublist.map _)⟩
    intro h
    obtain ⟨x, hx, hxe⟩ := List.mem_map.1 h
    have := (List.mem_filter.1 hx).2
    simp [hxe] at this

theorem firsts_subset (vs : List VotedBallot) : ∀ v ∈ firsts vs, v ∈ vs := by
  induction vs with
  | nil => simp [firsts]
  | cons v vs ih =>
    intro w hw
    rcases List.mem_cons.1 hw with rfl | hw
    · simp
    · exact List.mem_cons_of_mem _ (ih w (List.mem_filter.1 hw).1)

theorem runBox_append (m : InternalManifest) (ctx : Context) (s : Store SBallot) (a b : List BoxOp) :
    runBox E m ctx s (a ++ b) = runBox E m ctx (runBox E m ctx s a) b := by
  induction a generalizing s with
  | nil => rfl
  | cons x a ih => exact ih _

/-- The box holds the first ballot with each id. -/
theorem runBox_stored {m : InternalManifest} {ctx : Context} (vs : List VotedBallot)
    (hid : ∀ v ∈ vs, v.enc.objectId = v.plain.objectId)
    (hval : ∀ v ∈ vs, ballotIsValidForElection E v.enc m ctx true = .ok true) :
    runBox E m ctx [] (vs.map (fun v => ⟨v.enc, v.state⟩)) = stored E vs := by
  induction vs using List.reverseRecOn with
  | nil => rfl
  | append_singleton vs v ih =>
    rw [List.map_append, runBox_append, ih (fun w hw => hid w (by simp [hw])) (fun w hw => hval w (by simp [hw]))]
    have h1 := hval v (by simp)
    have h2 := hid v (by simp)
    have hk : dkeys (stored E vs) = (firsts vs).map (fun w => w.plain.objectId) := by
      simp [stored, dkeys, Function.comp_def]
    simp only [List.map_cons, List.map_nil, runBox, submitBallotToBox, h1]
    unfold stored
    rw [firsts_append]
    by_cases hm : v.plain.objectId ∈ vs.map (fun w => w.plain.objectId)
    · rw [if_pos hm]
      rw [← mem_firsts_ids, ← hk] at hm
      obtain ⟨x, hx⟩ := (mem_dkeys_iff _ _).1 hm
      have hx' : Store.get (stored E vs) v.enc.objectId = some x := by rw [h2]; exact hx
      unfold stored at hx'
      rw [hx']
    · rw [if_neg hm]
      rw [← mem_firsts_ids, ← hk] at hm
      have hx' : Store.get (stored E vs) v.enc.objectId = none := by
        rw [h2]; exact (dget_eq_none_iff _ _).2 hm
      have hs : (submitBallot E v.enc v.state).objectId = v.plain.objectId := h2
      unfold stored at hx' hm
      rw [hx']
      simp only [hs, Store.set]
      rw [dset_fresh _ hm, List.map_append]
      rfl

/-! ### The tally -/

theorem foldl_dset_map {α β : Type} (k : α → String) (w : α → β) (l : List α) (d : List (String × β))
    (hn : (l.map k).Nodup) (hd : ∀ x ∈ l, k x ∉ dkeys d) :
    l.foldl (fun d x => dset d (k x) (w x)) d = d ++ l.map (fun x => (k x, w x)) := by
  induction l generalizing d with
  | nil => simp
  | cons a l ih =>
    simp only [List.map_cons, List.nodup_cons] at hn
    rw [List.foldl_cons, dset_fresh _ (hd a List.mem_cons_self), ih _ hn.2]
    · simp
    · intro x hx hc
      rw [dkeys, List.map_append, List.mem_append] at hc
      rcases hc with hc | hc
      · exact hd x (List.mem_cons_of_mem _ hx) hc
      · simp only [List.map_cons, List.map_nil, List.mem_singleton] at hc
        exact hn.1 (hc ▸ List.mem_map_of_mem hx)

/-- The entry of a contest in a new tally, when the selections have different ids. -/
def freshEntry (E : Env) (d : ContestWithPlaceholders) : TallyContest :=
  ⟨d.objectId, d.sequenceOrder, d.cryptoHash E,
    d.ballotSelections.map (fun s => (s.objectId, ⟨s.objectId, s.sequenceOrder, s.cryptoHash E, ⟨1, 1⟩⟩))⟩

theorem buildTally_map {m : InternalManifest} (hids : m.UniqueIds) :
    buildTallyCollection E m = m.contests.map (fun d => (d.objectId, freshEntry E d)) := by
  rw [buildTallyCollection_eq,
    foldl_dset_map (fun c : ContestWithPlaceholders => c.objectId) (newEntry E) m.contests [] hids.1 (by simp [dkeys]),
    List.nil_append]
  refine List.map_congr_left (fun d hd => ?_)
  have hn := hids.2 d hd
  rw [List.map_append, List.nodup_append] at hn
  unfold newEntry freshEntry
  rw [foldl_dset_map (fun s : SelectionDescription => s.objectId)
    (fun s => (⟨s.objectId, s.sequenceOrder, s.cryptoHash E, ⟨1, 1⟩⟩ : TallySelection)) d.ballotSelections [] hn.1
    (by simp [dkeys])]
  rfl

/-- What the counted ballots hold for a selection. -/
def ballotCts (vs : List VotedBallot) (cid sid : String) : List Ciphertext :=
  (counted vs).flatMap (fun v => contribution v.enc.contests cid sid)

/-- The encrypted tally of an election. -/
def electionCts (E : Env) (im : InternalManifest) (vs : List VotedBallot) : List CtContest :=
  im.contests.map (fun d => ⟨d.objectId, d.sequenceOrder, d.cryptoHash E, d.ballotSelections.map (fun sd =>
    ⟨sd.objectId, (ballotCts vs d.objectId sd.objectId).foldl (ctMul E.P) ⟨1, 1⟩⟩)⟩)

theorem castOf_stored {m : InternalManifest} {ctx : Context} (vs : List VotedBallot)
    (hval : ∀ v ∈ vs, ballotIsValidForElection E (submitBallot E v.enc v.state).toCBallot m ctx true = .ok true)
    (id : String) :
    castOf ((stored E vs).all.filter (fun b => decide ((newTally E id m).contains b = false ∧ b.state ≠ .unknown ∧
      ballotIsValidForElection E b.toCBallot m ctx true = .ok true)))
      = (counted vs).map (fun v => submitBallot E v.enc v.state) := by
  unfold castOf counted stored Store.all
  rw [List.map_map, List.filter_filter, List.filter_map]
  congr 1
  refine List.filter_congr (fun v hv => ?_)
  have h := hval v (firsts_subset vs v hv)
  have hs : (submitBallot E v.enc v.state).state = v.state := rfl
  simp only [Function.comp, h, hs, Tally.contains, newTally]
  cases v.state <;> simp

theorem tally_stored {m : InternalManifest} {ctx : Context} (hm : TallyManifest m) (hids : m.UniqueIds)
    (vs : List VotedBallot) (hid : ∀ v ∈ vs, v.enc.objectId = v.plain.objectId)
    (hreg : ∀ v ∈ vs, v.enc.Regular m) (hsep : ∀ v ∈ vs, v.enc.Separate m)
    (hval : ∀ v ∈ vs, ballotIsValidForElection E (submitBallot E v.enc v.state).toCBallot m ctx true = .ok true) :
    ∃ t, tallyBallots E m ctx true (stored E vs) = .ok (some t) ∧ t.objectId = "election-results" ∧
      t.toCts = electionCts E m vs ∧
      (∀ x, x ∈ t.castIds ↔ ∃ v ∈ counted vs, v.plain.objectId = x) ∧
      (∀ x, x ∈ t.spoiledIds ↔ ∃ v ∈ firsts vs, v.state = .spoiled ∧ v.plain.objectId = x) := by
  have hmem : ∀ b ∈ (stored E vs).all, ∃ v ∈ vs, v ∈ firsts vs ∧ b = submitBallot E v.enc v.state := by
    intro b hb
    unfold stored Store.all at hb
    rw [List.map_map] at hb
    obtain ⟨v, hv, rfl⟩ := List.mem_map.1 hb
    exact ⟨v, firsts_subset vs v hv, hv, rfl⟩
  have hbr : ∀ b ∈ (stored E vs).all, b.toCBallot.Regular m := by
    intro b hb
    obtain ⟨v, hv, -, rfl⟩ := hmem b hb
    exact submit_regular _ (hreg v hv)
  have hbn : ((stored E vs).all.map (fun b => b.objectId)).Nodup := by
    unfold stored Store.all
    rw [List.map_map, List.map_map]
    have : (firsts vs).map (((fun b : SBallot => b.objectId) ∘ (fun e : String × SBallot => e.2)) ∘
        fun v => (v.plain.objectId, submitBallot E v.enc v.state)) = (firsts vs).map (fun v => v.plain.objectId) :=
      List.map_congr_left (fun v hv => hid v (firsts_subset vs v hv))
    rw [this]
    exact firsts_nodup vs
  have hbv : ∀ b ∈ (stored E vs).all, ballotIsValidForElection E b.toCBallot m ctx true = .ok true := by
    intro b hb
    obtain ⟨v, hv, -, rfl⟩ := hmem b hb
    exact hval v hv
  have hbatch := C37_batch_partial E m hm ctx true (newTally E "election-results" m) (newTally_wf E m)
    (newTally_shape E m) (stored E vs).all hbr (fun b hb => by
      obtain ⟨v, hv, -, rfl⟩ := hmem b hb
      exact submit_separate _ (hsep v hv)) hbn (fun b _ => by simp [Tally.contains, newTally])
    (fun b hb => ⟨true, hbv b hb⟩) (fun b hb _ => hbv b hb)
  obtain ⟨h1, h2, h3, -⟩ := run_spec E m hm ctx true (stored E vs).all (newTally E "election-results" m)
    (newTally_wf E m) (newTally_shape E m) hbr
  have hacc := accepted_eq E m hm ctx true (stored E vs).all hbn (newTally E "election-results" m) (newTally_wf E m)
    (newTally_shape E m) hbr
  rw [hacc] at h1 h2 h3
  rw [castOf_stored vs hval] at h1
  refine ⟨(runAppends E m ctx true true (newTally E "election-results" m) (stored E vs).all).2, ?_, ?_, ?_, ?_, ?_⟩
  · unfold tallyBallots
    rw [hbatch]
  · have : ∀ (bs : List SBallot) (t : Tally), (runAppends E m ctx true true t bs).2.objectId = t.objectId := by
      intro bs
      induction bs with
      | nil => intro t; rfl
      | cons b bs ih =>
        intro t
        simp only [runAppends]
        rw [ih]
        unfold Tally.append
        split
        · rfl
        · split
          · rfl
          · split
            · rfl
            · rfl
            · split
              · simp only [addCast]; split <;> rfl
              · rfl
              · rfl
    exact this _ _
  · unfold Tally.toCts
    rw [h1]
    show List.map _ (bump E.P _ (buildTallyCollection E m)) = _
    rw [buildTally_map hids]
    unfold bump electionCts ballotCts freshEntry TallyContest.toCt
    simp only [List.map_map, Function.comp_def, List.flatMap_map, contribution_submit]
  · intro x
    rw [h2]
    simp only [newTally, List.not_mem_nil, false_or]
    constructor
    · rintro ⟨b, hb, hst, rfl⟩
      obtain ⟨v, hv, hvf, rfl⟩ := hmem b (List.mem_filter.1 hb).1
      exact ⟨v, List.mem_filter.2 ⟨hvf, decide_eq_true hst⟩, (hid v hv).symm⟩
    · rintro ⟨v, hv, rfl⟩
      obtain ⟨hvf, hst⟩ := List.mem_filter.1 hv
      rw [decide_eq_true_eq] at hst
      have hin := firsts_subset vs v hvf
      refine ⟨submitBallot E v.enc v.state, List.mem_filter.2 ⟨List.mem_map.2 ⟨_, List.mem_map.2 ⟨v, hvf, rfl⟩, rfl⟩, ?_⟩,
        hst, hid v hin⟩
      have hs : (submitBallot E v.enc v.state).state = v.state := rfl
      exact decide_eq_true ⟨by simp [Tally.contains], by rw [hs, hst]; decide, hval v hin⟩
  · intro x
    rw [h3]
    simp only [newTally, List.not_mem_nil, false_or]
    constructor
    · rintro ⟨b, hb, hst, rfl⟩
      obtain ⟨v, hv, hvf, rfl⟩ := hmem b (List.mem_filter.1 hb).1
      exact ⟨v, hvf, hst, (hid v hv).symm⟩
    · rintro ⟨v, hvf, hst, rfl⟩
      have hin := firsts_subset vs v hvf
      refine ⟨submitBallot E v.enc v.state, List.mem_filter.2 ⟨List.mem_map.2 ⟨_, List.mem_map.2 ⟨v, hvf, rfl⟩, rfl⟩, ?_⟩,
        hst, hid v hin⟩
      have hs : (submitBallot E v.enc v.state).state = v.state := rfl
      exact decide_eq_true ⟨by simp [Tally.contains], by rw [hs, hst]; decide, hval v hin⟩

/-! ### The encrypted votes -/

theorem onStyle_iff (m : InternalManifest) (sid : String) (d : ContestWithPlaceholders) (hd : d ∈ m.contests) :
    m.onStyle sid d = true ↔ m.StyleHas sid d := by
  unfold InternalManifest.onStyle InternalManifest.StyleHas
  cases m.ballotStyles.find? (fun s => s.objectId == sid) with
  | none => simp
  | some s =>
    cases hg : s.geopoliticalUnitIds with
    | none => simp [hg]
    | some us => simp [hg, hd]

theorem BallotSpec.contribution {b : PlaintextBallot} {m : InternalManifest} {ctx : Context} {cseed nonce : Nat}
    {now : Int} {ds : List ContestWithPlaceholders} {enc : CBallot}
    (h : BallotSpec E b m ctx cseed nonce now ds enc) (hids : m.UniqueIds) (d : ContestWithPlaceholders)
    (hd : d ∈ m.contests) (sd : SelectionDescription) (hsd : sd ∈ d.ballotSelections) :
    b.votesFor m d sd.objectId ≤ 1 ∧
    ((∃ ct, EG.contribution enc.contests d.objectId sd.objectId = [ct] ∧
      Encrypts E.P ctx.elgamalPublicKey (b.votesFor m d sd.objectId) ct) ∨
    EG.contribution enc.contests d.objectId sd.objectId = [] ∧ b.votesFor m d sd.objectId = 0) := by
  obtain ⟨hmem, hsub⟩ := h.styleContests
  unfold PlaintextBallot.votesFor
  by_cases hst : m.StyleHas b.styleId d
  · rw [if_pos ((onStyle_iff m b.styleId d hd).2 hst)]
    obtain ⟨c, hc, n, real, phs, fill, hs⟩ := forall₂_mem_right h.contests ((hmem d).2 hst)
    obtain ⟨s, hss, hsel⟩ := forall₂_mem_right hs.real hsd
    refine ⟨hsel.holds.binary, Or.inl ⟨s.ciphertext, ?_, ?_⟩⟩
    · have hn : (enc.contests.map CContest.objectId).Nodup := by
        rw [h.ids]
        exact hids.1.sublist (hsub.map _)
      have hf : enc.contests.filter (fun c => c.objectId == d.objectId) = [c] := by
        have h1 : c ∈ enc.contests.filter (fun c => c.objectId == d.objectId) :=
          List.mem_filter.2 ⟨hc, by simp [hs.id]⟩
        have h2 : ∀ x ∈ enc.contests.filter (fun c => c.objectId == d.objectId), x = c := by
          intro x hx
          obtain ⟨hx1, hx2⟩ := List.mem_filter.1 hx
          exact eq_of_id hn hx1 hc (by rw [hs.id]; simpa using hx2)
        have h3 : (enc.contests.filter (fun c => c.objectId == d.objectId)).Nodup :=
          (List.Nodup.of_map _ hn).filter _
        generalize enc.contests.filter (fun c => c.objectId == d.objectId) = l at h1 h2 h3
        match l, h1, h2, h3 with
        | [x], _, h2, _ => rw [h2 x (by simp)]
        | x :: y :: l, _, h2, h3 =>
          rw [h2 x (by simp), h2 y (by simp)] at h3
          simp at h3
      have hns : (c.ballotSelections.map (fun s => s.objectId)).Nodup := by
        rw [hs.selIds]
        exact hids.2 d hd
      have hfind : c.ballotSelections.find? (fun x => x.objectId == sd.objectId) = some s := by
        rw [← hsel.holds.id]
        exact find_of_nodup hns (by rw [hs.sels]; simp [hss])
      unfold EG.contribution
      rw [hf]
      simp [hfind]
    · obtain ⟨r, -, hr⟩ := hsel.holds.vote
      exact ⟨r, hr⟩
  · rw [if_neg (by rw [onStyle_iff m b.styleId d hd]; exact hst)]
    refine ⟨Nat.zero_le _, Or.inr ⟨?_, rfl⟩⟩
    unfold EG.contribution
    rw [List.filter_eq_nil_iff.2, List.filterMap_nil]
    intro c hc hcd
    obtain ⟨d', hd', n, real, phs, fill, hs⟩ := forall₂_left h.contests hc
    have : d' = d := eq_of_id hids.1 (hsub.subset hd') hd (by rw [← hs.id]; simpa using hcd)
    subst this
    exact hst ((hmem d').1 hd')

/-- A product of encryptions encrypts the sum. -/
theorem encrypts_product {P : Params} (hv : P.Valid) {α : Type} (l : List α) (f : α → List Ciphertext) (votes : α → Nat)
    (K : Nat) (h : ∀ a ∈ l, (∃ ct, f a = [ct] ∧ Encrypts P K (votes a) ct) ∨ f a = [] ∧ votes a = 0) :
    Encrypts P K (l.map votes).sum ((l.flatMap f).foldl (ctMul P) ⟨1, 1⟩) := by
  have hprod := foldl_ctMul_product (P := P) hv.one_lt_p (l.flatMap f)
  have key : ∃ r : Nat,
      (((l.flatMap f).map Ciphertext.pad).prod : ZMod P.p) = (P.g : ZMod P.p) ^ r ∧
      (((l.flatMap f).map Ciphertext.data).prod : ZMod P.p)
        = (P.g : ZMod P.p) ^ (l.map votes).sum * (K : ZMod P.p) ^ r := by
    clear hprod
    induction l with
    | nil => exact ⟨0, by simp, by simp⟩
    | cons b l ih =>
      obtain ⟨r, hr1, hr2⟩ := ih (fun x hx => h x (List.mem_cons_of_mem _ hx))
      rcases h b List.mem_cons_self with ⟨ct, hct, s, henc⟩ | ⟨h0, hv0⟩
      · obtain ⟨-, -, e1, e2⟩ := (encryptsWith_iff_cast hv).1 henc
        refine ⟨s + r, ?_, ?_⟩
        · simp only [List.flatMap_cons, hct, List.singleton_append, List.map_cons, List.prod_cons, Nat.cast_mul, hr1,
            e1, pow_add]
        · simp only [List.flatMap_cons, hct, List.singleton_append, List.map_cons, List.prod_cons, Nat.cast_mul, hr2,
            e2, List.sum_cons, pow_add]
          ring
      · refine ⟨r, ?_, ?_⟩
        · simpa only [List.flatMap_cons, h0, List.nil_append] using hr1
        · simpa only [List.flatMap_cons, h0, List.nil_append, List.map_cons, hv0, List.sum_cons, zero_add] using hr2
  obtain ⟨r, hr1, hr2⟩ := key
  have hp : 0 < P.p := by have := hv.one_lt_p; omega
  refine ⟨r, (encryptsWith_iff_cast hv).2 ⟨?_, ?_, ?_, ?_⟩⟩
  · rw [hprod.1]; exact Nat.mod_lt _ hp
  · rw [hprod.2]; exact Nat.mod_lt _ hp
  · rw [hprod.1, ZMod.natCast_mod, hr1]
  · rw [hprod.2, ZMod.natCast_mod, hr2]

end EG
