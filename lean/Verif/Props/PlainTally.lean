import Verif.Model.PlainTally
import Verif.Spec.Equality
import Verif.Lemmas.Dict
import Verif.Props.Election

/-!
# C97: the tally of plaintext ballots

`accumulate_plaintext_ballots` is what the tests compare a decrypted tally with.  When is it the result?
-/

namespace EG

/-- All selections on some ballots. -/
def allSelections (bs : List PlaintextBallot) : List PlaintextSelection :=
  bs.flatMap (fun b => b.contests.flatMap (·.ballotSelections))

theorem foldlM_flatMap {α β σ : Type} (f : σ → β → R σ) (g : α → List β) (l : List α) (t : σ) :
    l.foldlM (fun t a => (g a).foldlM f t) t = (l.flatMap g).foldlM f t := by
  induction l generalizing t with
  | nil => rfl
  | cons a l ih =>
    rw [List.foldlM_cons, List.flatMap_cons, List.foldlM_append]
    congr 1
    funext t'
    exact ih t'

theorem accumulate_flat (bs : List PlaintextBallot) :
    accumulatePlaintext bs = (allSelections bs).foldlM plainTallySelection [] := by
  unfold accumulatePlaintext allSelections
  rw [← foldlM_flatMap]
  congr 1
  funext t b
  exact foldlM_flatMap plainTallySelection (fun c : PlaintextContest => c.ballotSelections) b.contests t

theorem plainTallySelection_ok (t : List (String × Int)) (s : PlaintextSelection) (h : s.isPlaceholder = false) :
    ∃ t', plainTallySelection t s = .ok t' ∧
      ∀ k, dget t' k = if s.objectId = k then some ((dget t k).getD 0 + s.vote) else dget t k := by
  unfold plainTallySelection
  rw [h]
  simp only [Bool.false_eq_true, if_false]
  by_cases hk : s.objectId ∈ dkeys t
  · simp only [if_pos hk]
    cases hg : dget t s.objectId with
    | none => exact absurd hk ((dget_eq_none_iff t s.objectId).mp hg)
    | some v =>
      refine ⟨dset t s.objectId (v + s.vote), by simp [dgetR, hg, bind, Except.bind, pure, Except.pure], fun k => ?_⟩
      rw [dget_dset]
      split
      · rename_i hh; subst hh; rw [hg]; rfl
      · rfl
  · simp only [if_neg hk]
    have hg : dget t s.objectId = none := (dget_eq_none_iff t s.objectId).mpr hk
    have h0 : dget (dset t s.objectId 0) s.objectId = some 0 := by rw [dget_dset, if_pos rfl]
    refine ⟨dset (dset t s.objectId 0) s.objectId (0 + s.vote),
      by simp [dgetR, h0, bind, Except.bind, pure, Except.pure], fun k => ?_⟩
    rw [dget_dset, dget_dset]
    split
    · rename_i hh; subst hh; rw [hg]; rfl
    · rfl

/-- The total of some selections for an id. -/
def selectionTotal (l : List PlaintextSelection) (sid : String) : Int :=
  ((l.filter (fun s => decide (s.objectId = sid))).map (·.vote)).sum

theorem fold_ok (l : List PlaintextSelection) (t : List (String × Int)) (h : ∀ s ∈ l, s.isPlaceholder = false) :
    ∃ t', l.foldlM plainTallySelection t = .ok t' ∧
      ∀ k, dget t' k = if k ∈ l.map (·.objectId) then some ((dget t k).getD 0 + selectionTotal l k) else dget t k := by
  induction l generalizing t with
  | nil => exact ⟨t, rfl, fun k => by simp⟩
  | cons s l ih =>
    obtain ⟨t1, h1, h2⟩ := plainTallySelection_ok t s (h s List.mem_cons_self)
    obtain ⟨t2, h3, h4⟩ := ih t1 (fun x hx => h x (List.mem_cons_of_mem _ hx))
    refine ⟨t2, by rw [List.foldlM_cons, h1]; exact h3, fun k => ?_⟩
    rw [h4, h2]
    by_cases hk : s.objectId = k
    · by_cases hl : k ∈ l.map (·.objectId)
      · simp [hk, hl, selectionTotal, add_assoc]
      · have h0 : selectionTotal l k = 0 := by
          unfold selectionTotal
          rw [List.filter_eq_nil_iff.mpr]
          · rfl
          · intro x hx hc
            exact hl (List.mem_map.mpr ⟨x, hx, by simpa using hc⟩)
        have : selectionTotal (s :: l) k = s.vote := by
          unfold selectionTotal at h0 ⊢
          simp [hk, h0]
        simp [hk, hl, this]
    · have hne : ¬ k = s.objectId := fun h => hk h.symm
      simp [hk, hne, selectionTotal]

theorem fold_error (l : List PlaintextSelection) (t : List (String × Int)) (h : ∃ s ∈ l, s.isPlaceholder = true) :
    l.foldlM plainTallySelection t = .error .assertion := by
  induction l generalizing t with
  | nil => obtain ⟨s, hs, -⟩ := h; cases hs
  | cons s l ih =>
    rw [List.foldlM_cons]
    cases hs : s.isPlaceholder with
    | true => simp [plainTallySelection, hs, bind, Except.bind]
    | false =>
      obtain ⟨t1, h1, -⟩ := plainTallySelection_ok t s hs
      rw [h1]
      refine ih t1 ?_
      obtain ⟨x, hx, hp⟩ := h
      rcases List.mem_cons.mp hx with rfl | hx
      · rw [hs] at hp; cases hp
      · exact ⟨x, hx, hp⟩

theorem selectionTotal_all (bs : List PlaintextBallot) (sid : String) :
    selectionTotal (allSelections bs) sid = (bs.map (fun b => b.totalFor sid)).sum := by
  induction bs with
  | nil => rfl
  | cons b bs ih =>
    have : allSelections (b :: bs) = b.contests.flatMap (·.ballotSelections) ++ allSelections bs := by
      simp [allSelections]
    rw [this, List.map_cons, List.sum_cons, ← ih]
    unfold selectionTotal PlaintextBallot.totalFor
    rw [List.filter_append, List.map_append, List.sum_append]

/-- **C97.**  `accumulate_plaintext_ballots` fails exactly when a selection on some ballot is marked as placeholder;
otherwise it has an entry for exactly the selection ids on the ballots, with the sum of the votes for that id. -/
theorem C97_accumulate (bs : List PlaintextBallot) :
    ((∃ s ∈ allSelections bs, s.isPlaceholder = true) → accumulatePlaintext bs = .error .assertion) ∧
    ((∀ s ∈ allSelections bs, s.isPlaceholder = false) → ∃ t, accumulatePlaintext bs = .ok t ∧
      ∀ sid, dget t sid = if ∃ s ∈ allSelections bs, s.objectId = sid
        then some ((bs.map (fun b => b.totalFor sid)).sum) else none) := by
  rw [accumulate_flat]
  refine ⟨fold_error _ _, fun h => ?_⟩
  obtain ⟨t, ht, hg⟩ := fold_ok (allSelections bs) [] h
  refine ⟨t, ht, fun sid => ?_⟩
  rw [hg, dget_nil, selectionTotal_all]
  simp [List.mem_map]

/-- **C97.**  The order of the ballots does not matter for any entry. -/
theorem C97_order (bs bs' : List PlaintextBallot) (h : bs.Perm bs') (t t' : List (String × Int))
    (ht : accumulatePlaintext bs = .ok t) (ht' : accumulatePlaintext bs' = .ok t') (sid : String) :
    dget t sid = dget t' sid := by
  have hp : ∀ s, s ∈ allSelections bs ↔ s ∈ allSelections bs' := by
    intro s; exact (h.flatMap_right _).mem_iff
  have key : ∀ (bs : List PlaintextBallot) t, accumulatePlaintext bs = .ok t → dget t sid =
      if ∃ s ∈ allSelections bs, s.objectId = sid then some ((bs.map (fun b => b.totalFor sid)).sum) else none := by
    intro bs t ht
    by_cases hb : ∃ s ∈ allSelections bs, s.isPlaceholder = true
    · rw [(C97_accumulate bs).1 hb] at ht; cases ht
    · obtain ⟨t'', h1, h2⟩ := (C97_accumulate bs).2 (fun s hs => by
        by_contra hc; exact hb ⟨s, hs, by simpa using hc⟩)
      rw [ht] at h1; cases h1; exact h2 sid
  rw [key bs t ht, key bs' t' ht']
  have hsum : (bs.map (fun b => b.totalFor sid)).sum = (bs'.map (fun b => b.totalFor sid)).sum := by
    have := h.map (fun b => b.totalFor sid)
    clear ht ht' hp key h
    generalize bs.map (fun b => b.totalFor sid) = l at *
    generalize bs'.map (fun b => b.totalFor sid) = l' at *
    induction this with
    | nil => rfl
    | cons x _ ih => simp [ih]
    | swap x y l => simp only [List.sum_cons]; omega
    | trans _ _ ih1 ih2 => exact ih1.trans ih2
  simp only [hp, hsum]

/-- A ballot as a voter may fill it in: its contests are those of its style, each at most once, with described
selections, each at most once, and not overvoted. -/
structure PlaintextBallot.WellMarked (m : InternalManifest) (b : PlaintextBallot) : Prop where
  contests : (b.contests.map (·.objectId)).Nodup
  known : ∀ c ∈ b.contests, ∃ d ∈ m.contests, d.objectId = c.objectId ∧ m.onStyle b.styleId d = true ∧
    c.over d = false ∧ ∀ s ∈ c.ballotSelections, s.objectId ∈ d.ballotSelections.map SelectionDescription.objectId
  selections : ∀ c ∈ b.contests, (c.ballotSelections.map (·.objectId)).Nodup
  votes : ∀ c ∈ b.contests, ∀ s ∈ c.ballotSelections, 0 ≤ s.vote
  noPlaceholder : ∀ c ∈ b.contests, ∀ s ∈ c.ballotSelections, s.isPlaceholder = false

theorem sum_find {α : Type} (key : α → String) (f : α → Int) (k : String) (l : List α) (hn : (l.map key).Nodup)
    (hz : ∀ x ∈ l, key x ≠ k → f x = 0) :
    (l.map f).sum = match l.find? (fun x => key x == k) with
      | some x => f x
      | none => 0 := by
  induction l with
  | nil => rfl
  | cons a l ih =>
    rw [List.map_cons, List.nodup_cons] at hn
    have ih' := ih hn.2 (fun x hx => hz x (List.mem_cons_of_mem _ hx))
    rw [List.map_cons, List.sum_cons, ih', List.find?_cons]
    by_cases h : key a = k
    · have hnone : l.find? (fun x => key x == k) = none := by
        rw [List.find?_eq_none]
        intro x hx hc
        refine hn.1 (List.mem_map.mpr ⟨x, hx, ?_⟩)
        rw [h]; simpa using hc
      simp [h, hnone]
    · have hb : (key a == k) = false := by simpa using h
      rw [hb, hz a List.mem_cons_self h]
      simp

theorem selectionTotal_marked (c : PlaintextContest) (sid : String) (hn : (c.ballotSelections.map (·.objectId)).Nodup)
    (h0 : ∀ s ∈ c.ballotSelections, 0 ≤ s.vote) : selectionTotal c.ballotSelections sid = c.marked sid := by
  have e : ∀ l : List PlaintextSelection, selectionTotal l sid =
      (l.map (fun s : PlaintextSelection => if s.objectId = sid then s.vote else 0)).sum := by
    intro l
    unfold selectionTotal
    induction l with
    | nil => rfl
    | cons a l ih =>
      by_cases h : a.objectId = sid
      · simp [h, ih]
      · simp [h, ih]
  rw [e, sum_find (fun s : PlaintextSelection => s.objectId) _ sid _ hn (fun x _ hx => if_neg hx)]
  unfold PlaintextContest.marked
  cases hs : c.ballotSelections.find? (fun s => s.objectId == sid) with
  | none => rfl
  | some s =>
    have hm := List.mem_of_find?_eq_some hs
    have hid : s.objectId = sid := by simpa using List.find?_some hs
    have := h0 s hm
    simp only [if_pos hid]
    omega

theorem totalFor_flat (b : PlaintextBallot) (sid : String) :
    b.totalFor sid = (b.contests.map (fun c => selectionTotal c.ballotSelections sid)).sum := by
  unfold PlaintextBallot.totalFor
  generalize b.contests = l
  induction l with
  | nil => rfl
  | cons c l ih =>
    rw [List.flatMap_cons, List.filter_append, List.map_append, List.sum_append, ih]
    rfl

/-- **C97.**  On a well marked ballot, the sum over all contests for a selection id is the vote that counts. -/
theorem C97_ballot (m : InternalManifest) (hc : (m.contests.map (·.objectId)).Nodup) (hd : m.DistinctSelections)
    (b : PlaintextBallot) (hb : b.WellMarked m) (d : ContestWithPlaceholders) (hdm : d ∈ m.contests) (sid : String)
    (hs : sid ∈ d.ballotSelections.map SelectionDescription.objectId) : b.totalFor sid = b.votesFor m d sid := by
  have uniq : ∀ d' ∈ m.contests, sid ∈ d'.ballotSelections.map SelectionDescription.objectId → d' = d := by
    intro d' hd' hs'
    unfold InternalManifest.DistinctSelections at hd
    rw [List.nodup_flatMap] at hd
    by_contra hne
    have hmem : ∀ x : ContestWithPlaceholders, sid ∈ x.ballotSelections.map SelectionDescription.objectId →
        sid ∈ (x.ballotSelections ++ x.placeholders).map SelectionDescription.objectId := by
      intro x hx; rw [List.map_append]; exact List.mem_append_left _ hx
    have hpw := hd.2
    have hsym : Std.Symm (Function.onFun List.Disjoint (fun d : ContestWithPlaceholders =>
        (d.ballotSelections ++ d.placeholders).map SelectionDescription.objectId)) :=
      ⟨fun _ _ h => List.Disjoint.symm h⟩
    exact (hpw.forall hd' hdm hne) (hmem d' hs') (hmem d hs)
  rw [totalFor_flat, sum_find (fun c : PlaintextContest => c.objectId) _ d.objectId _ hb.contests]
  · unfold PlaintextBallot.votesFor PlaintextBallot.voted
    cases hf : b.contests.find? (fun c => c.objectId == d.objectId) with
    | none =>
      have hz : (PlaintextContest.mk d.objectId (d.ballotSelections.map (fun s => ⟨s.objectId, 0, false, none⟩))).marked sid = 0 := by
        unfold PlaintextContest.marked
        split
        · rename_i s h
          obtain ⟨x, -, rfl⟩ := List.mem_map.mp (List.mem_of_find?_eq_some h)
          rfl
        · rfl
      simp only [PlaintextContest.effective]
      rw [hz]
      split
      · split <;> rfl
      · rfl
    | some c =>
      have hcm := List.mem_of_find?_eq_some hf
      have hcid : c.objectId = d.objectId := by simpa using List.find?_some hf
      obtain ⟨d', hd', h1, h2, h3, h4⟩ := hb.known c hcm
      have hdd : d' = d := by
        have := List.inj_on_of_nodup_map hc hd' hdm (by rw [h1, hcid])
        exact this
      subst hdd
      simp only [PlaintextContest.effective, h2, h3, if_true, Bool.false_eq_true, if_false]
      exact selectionTotal_marked c sid (hb.selections c hcm) (hb.votes c hcm)
  · intro c hcm hne
    obtain ⟨d', hd', h1, h2, h3, h4⟩ := hb.known c hcm
    unfold selectionTotal
    rw [List.filter_eq_nil_iff.mpr]
    · rfl
    · intro s hsm hcs
      have : sid ∈ d'.ballotSelections.map SelectionDescription.objectId := by
        have := h4 s hsm
        rwa [of_decide_eq_true hcs] at this
      rw [uniq d' hd' this] at h1
      exact hne h1.symm

/-- **C97 (partial).**  For an election whose counted ballots are all well marked, the tally of the plaintexts that the
tests expect is the result of the election, for every selection of every contest; an id without entry has no votes.
The result is what `C60_election_partial` proves to be decrypted.  Without "well marked" it is wrong
(`C97_overvote_fails`). -/
theorem C97_expected_partial {E : Env} (m : Manifest) (im : InternalManifest) (he : ElectionReady E m im)
    (vs : List VotedBallot) (hw : ∀ v ∈ counted vs, v.plain.WellMarked im) :
    ∃ t, accumulatePlaintext ((counted vs).map (·.plain)) = .ok t ∧
      ∀ d ∈ im.contests, ∀ sid ∈ d.ballotSelections.map SelectionDescription.objectId,
        (dget t sid).getD 0 = (electionResult im vs d sid : Int) := by
  obtain ⟨im', him', hids, -⟩ := C40_unique_ids_partial E m he.manifest
  rw [he.internal] at him'
  cases him'
  have hnop : ∀ s ∈ allSelections ((counted vs).map (·.plain)), s.isPlaceholder = false := by
    intro s hs
    obtain ⟨b, hb, hs⟩ := List.mem_flatMap.mp hs
    obtain ⟨v, hv, rfl⟩ := List.mem_map.mp hb
    obtain ⟨c, hc, hs⟩ := List.mem_flatMap.mp hs
    exact (hw v hv).noPlaceholder c hc s hs
  obtain ⟨t, ht, hg⟩ := (C97_accumulate _).2 hnop
  refine ⟨t, ht, fun d hd sid hs => ?_⟩
  have hsum : (((counted vs).map (·.plain)).map (fun b => b.totalFor sid)).sum = (electionResult im vs d sid : Int) := by
    unfold electionResult
    generalize counted vs = l at hw
    induction l with
    | nil => rfl
    | cons v l ih =>
      simp only [List.map_cons, List.sum_cons, Nat.cast_add]
      rw [ih (fun x hx => hw x (List.mem_cons_of_mem _ hx)),
        C97_ballot im hids.1 he.distinct v.plain (hw v List.mem_cons_self) d hd sid hs]
  rw [hg]
  split
  · exact hsum
  · rename_i hne
    rw [← hsum]
    have : ∀ b ∈ (counted vs).map (·.plain), b.totalFor sid = 0 := by
      intro b hb
      unfold PlaintextBallot.totalFor
      rw [List.filter_eq_nil_iff.mpr]
      · rfl
      · intro s hs' hcs
        exact hne ⟨s, List.mem_flatMap.mpr ⟨b, hb, hs'⟩, of_decide_eq_true hcs⟩
    have hz : ∀ l : List PlaintextBallot, (∀ b ∈ l, b.totalFor sid = 0) → (l.map (fun b => b.totalFor sid)).sum = 0 := by
      intro l hl
      induction l with
      | nil => rfl
      | cons b l ih =>
        rw [List.map_cons, List.sum_cons, hl b List.mem_cons_self, ih (fun x hx => hl x (List.mem_cons_of_mem _ hx))]
        rfl
    rw [hz _ this]
    rfl

/-- The two ballots of the toy election that count are well marked. -/
private theorem toy_wellMarked (id : String) (x y z : Int)
    (h : (x = 1 ∧ y = 0 ∧ z = 1) ∨ (x = 0 ∧ y = 1 ∧ z = 1)) : (toyVote id x y z).WellMarked toyIM := by
  have hcs : ∀ c ∈ (toyVote id x y z).contests, c = ⟨"c", [⟨"sx", x, false, none⟩, ⟨"sy", y, false, none⟩]⟩ ∨
      c = ⟨"d", [⟨"sz", z, false, none⟩]⟩ := by
    intro c hc
    simpa [toyVote] using hc
  have ht : ∀ (c : PlaintextContest), (∃ d ∈ toyIM.contests, d.objectId = c.objectId ∧
      toyIM.onStyle "t" d = true ∧ c.over d = false ∧
      ∀ s ∈ c.ballotSelections, s.objectId ∈ d.ballotSelections.map SelectionDescription.objectId) ↔
      (∃ d ∈ toyIM.contests, d.objectId = c.objectId ∧ toyIM.onStyle (toyVote id x y z).styleId d = true ∧
        c.over d = false ∧ ∀ s ∈ c.ballotSelections, s.objectId ∈ d.ballotSelections.map SelectionDescription.objectId) :=
    fun c => Iff.rfl
  rcases h with ⟨rfl, rfl, rfl⟩ | ⟨rfl, rfl, rfl⟩
  all_goals
    refine ⟨by simp [toyVote], fun c hc => ?_, fun c hc => ?_, fun c hc => ?_, fun c hc => ?_⟩
    · rw [← ht]
      rcases hcs c hc with rfl | rfl <;> decide +kernel
    all_goals rcases hcs c hc with rfl | rfl <;> decide +kernel

example : ∃ t, accumulatePlaintext ((counted toyVoteds).map (·.plain)) = .ok t ∧ (dget t "sz").getD 0 = 2 :=
  ⟨[("sx", 1), ("sy", 1), ("sz", 2)], by decide +kernel, by decide +kernel⟩

example : ∃ t, accumulatePlaintext ((counted toyVoteds).map (·.plain)) = .ok t ∧
    ∀ d ∈ toyIM.contests, ∀ sid ∈ d.ballotSelections.map SelectionDescription.objectId,
      (dget t sid).getD 0 = (electionResult toyIM toyVoteds d sid : Int) := by
  refine C97_expected_partial toyManifest toyIM toyReady toyVoteds ?_
  have hc : counted toyVoteds = [toyVoted "b" 1 0 1 3 .cast, toyVoted "v" 0 1 1 3 .cast] := rfl
  rw [hc]
  intro v hv
  simp only [List.mem_cons, List.not_mem_nil, or_false] at hv
  rcases hv with rfl | rfl
  · exact toy_wellMarked "b" 1 0 1 (Or.inl ⟨rfl, rfl, rfl⟩)
  · exact toy_wellMarked "v" 0 1 1 (Or.inr ⟨rfl, rfl, rfl⟩)

/-- **C97, the limit of the oracle.**  With an overvoted ballot, which is encrypted and cast like any other, the tally of
the plaintexts has votes that the election does not count. -/
theorem C97_overvote_fails : ∃ v : VotedBallot, v.Encrypted toyEnv toyJson toyIM toyDCtx ∧ counted [v] = [v] ∧
    accumulatePlaintext [v.plain] = .ok [("sx", 1), ("sy", 1), ("sz", 1)] ∧
    ∀ d ∈ toyIM.contests, d.objectId = "c" → electionResult toyIM [v] d "sx" = 0 ∧
      electionResult toyIM [v] d "sy" = 0 := by
  refine ⟨toyVoted "b" 1 1 1 7 .cast, ?_, rfl, by decide +kernel, by decide +kernel⟩
  have h : ((encryptBallot toyEnv toyJson (toyVote "b" 1 1 1) toyIM toyDCtx 3 7 17 true).toOption.join).isSome = true := by
    decide +kernel
  unfold VotedBallot.Encrypted toyVoted
  dsimp only
  cases he : encryptBallot toyEnv toyJson (toyVote "b" 1 1 1) toyIM toyDCtx 3 7 17 true with
  | error e => rw [he] at h; cases h
  | ok o => cases o with
    | none => rw [he] at h; cases h
    | some b => rfl

end EG
