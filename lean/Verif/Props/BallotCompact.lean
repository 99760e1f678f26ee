import Verif.Spec.BallotCompact
import Verif.Lemmas.Dict
import Verif.Lemmas.EncryptCongr
import Verif.Spec.ToyElection

/-!
# C52, C53: compact ballots
-/

namespace EG

variable {E : Env}

/-! ### The two directions as list functions -/

theorem compactSelections_eq (b : PlaintextBallot) :
    compactSelections b = b.flat.map (fun s => decide (s.vote = 1)) := by
  have h1 : ∀ (l : List PlaintextSelection) (acc : List Bool),
      l.foldl (fun acc s => acc ++ [decide (s.vote = 1)]) acc = acc ++ l.map (fun s => decide (s.vote = 1)) := by
    intro l
    induction l with
    | nil => simp
    | cons s l ih => intro acc; rw [List.foldl_cons, ih]; simp
  have h2 : ∀ (l : List PlaintextContest) (acc : List Bool),
      l.foldl (fun acc c => c.ballotSelections.foldl (fun acc s => acc ++ [decide (s.vote = 1)]) acc) acc
        = acc ++ (l.flatMap (fun c => c.ballotSelections)).map (fun s => decide (s.vote = 1)) := by
    intro l
    induction l with
    | nil => simp
    | cons c l ih => intro acc; rw [List.foldl_cons, ih, h1]; simp
  have := h2 b.contests []
  rw [List.nil_append] at this
  exact this

theorem compactWriteIns_fold (l : List PlaintextSelection) (d : List (Nat × String)) (n : Nat)
    (hd : ∀ i, n < i → dget d i = none) :
    (l.foldl compactWriteInStep (d, n)).2 = n + l.length ∧
    (∀ i, i ≤ n → dget (l.foldl compactWriteInStep (d, n)).1 i = dget d i) ∧
    (∀ i, i < l.length → dget (l.foldl compactWriteInStep (d, n)).1 (n + i + 1)
      = (l[i]?.bind (fun s => s.writeIn.filter (fun t => decide (t ≠ ""))))) ∧
    (∀ i, n + l.length < i → dget (l.foldl compactWriteInStep (d, n)).1 i = none) := by
  induction l generalizing d n with
  | nil => exact ⟨rfl, fun _ _ => rfl, fun i hi => absurd hi (by simp), fun i hi => hd i (by simpa using hi)⟩
  | cons s l ih =>
    rw [List.foldl_cons]
    have hstep : ∃ d', compactWriteInStep (d, n) s = (d', n + 1) ∧ (∀ i, i ≠ n + 1 → dget d' i = dget d i) ∧
        dget d' (n + 1) = s.writeIn.filter (fun t => decide (t ≠ "")) := by
      unfold compactWriteInStep
      cases hw : s.writeIn with
      | none => exact ⟨d, rfl, fun _ _ => rfl, by rw [hd _ (Nat.lt_succ_self n)]; rfl⟩
      | some t =>
        by_cases ht : t = ""
        · simp only [ht, if_true]
          exact ⟨d, rfl, fun _ _ => rfl, by rw [hd _ (Nat.lt_succ_self n)]; rfl⟩
        · simp only [ht, if_false]
          refine ⟨_, rfl, fun i hi => ?_, ?_⟩
          · rw [dget_dset, if_neg (fun h => hi h.symm)]
          · rw [dget_dset, if_pos rfl]; simp [Option.filter, ht]
    obtain ⟨d', h1, h2, h3⟩ := hstep
    rw [h1]
    obtain ⟨i1, i2, i3, i4⟩ := ih d' (n + 1) (fun i hi => by rw [h2 i (by omega)]; exact hd i (by omega))
    refine ⟨by rw [i1, List.length_cons]; omega, fun i hi => ?_, fun i hi => ?_, fun i hi => ?_⟩
    · rw [i2 i (by omega), h2 i (by omega)]
    · cases i with
      | zero => rw [i2 _ (by omega)]; simpa using h3
      | succ i =>
        have := i3 i (by simpa using hi)
        rw [show n + (i + 1) + 1 = n + 1 + i + 1 by omega, this]
        rfl
    · exact i4 i (by rw [List.length_cons] at hi; omega)

theorem compactWriteIns_get (b : PlaintextBallot) (i : Nat) :
    dget (compactWriteIns b) i = if i = 0 then none else (b.texts[i - 1]?).join := by
  have hflat : ∀ (l : List PlaintextContest) (d : List (Nat × String) × Nat),
      l.foldl (fun d c => c.ballotSelections.foldl compactWriteInStep d) d
        = (l.flatMap (fun c => c.ballotSelections)).foldl compactWriteInStep d := by
    intro l
    induction l with
    | nil => intro d; rfl
    | cons c l ih => intro d; rw [List.foldl_cons, ih, List.flatMap_cons, List.foldl_append]
  unfold compactWriteIns
  rw [hflat]
  obtain ⟨_, h2, h3, h4⟩ := compactWriteIns_fold b.flat [] 0 (fun _ _ => rfl)
  change dget (b.flat.foldl compactWriteInStep ([], 0)).1 i = _
  cases i with
  | zero => rw [h2 0 (Nat.le_refl 0)]; rfl
  | succ i =>
    rw [if_neg (Nat.succ_ne_zero i), Nat.succ_sub_one]
    by_cases hi : i < b.flat.length
    · have := h3 i hi
      rw [Nat.zero_add] at this
      rw [this]
      unfold PlaintextBallot.texts
      rw [List.getElem?_map]
      cases b.flat[i]? <;> rfl
    · rw [h4 (i + 1) (by omega)]
      unfold PlaintextBallot.texts
      rw [List.getElem?_map, List.getElem?_eq_none (by omega)]
      rfl

/-- The selections that `expand` makes from the entries of the compact ballot starting at `index`. -/
def expanded (cb : CompactBallot) (inStyle : Bool) (ds : List SelectionDescription) (index : Nat) :
    List PlaintextSelection :=
  ds.zipIdx.map (fun e => ⟨e.1.objectId, if cb.selections[index + e.2]?.getD false then 1 else 0, !inStyle,
    dget cb.writeIns (index + e.2)⟩)

theorem expanded_cons (cb : CompactBallot) (inStyle : Bool) (d : SelectionDescription) (ds : List SelectionDescription)
    (index : Nat) : expanded cb inStyle (d :: ds) index
      = ⟨d.objectId, if cb.selections[index]?.getD false then 1 else 0, !inStyle, dget cb.writeIns index⟩
        :: expanded cb inStyle ds (index + 1) := by
  unfold expanded
  rw [List.zipIdx_cons, List.map_cons, Nat.zero_add, List.zipIdx_succ, List.map_map]
  simp only [Nat.add_zero, List.cons.injEq, true_and]
  refine List.map_congr_left (fun e _ => ?_)
  simp only [Function.comp, show index + (e.2 + 1) = index + 1 + e.2 by omega]

theorem expandSelections_eq (cb : CompactBallot) (inStyle : Bool) (ds : List SelectionDescription) (index : Nat)
    (acc : List PlaintextSelection) :
    expandSelections cb inStyle ds index acc =
      if ds.length = 0 ∨ index + ds.length ≤ cb.selections.length then
        .ok (acc ++ expanded cb inStyle ds index, index + ds.length)
      else .error .index := by
  induction ds generalizing index acc with
  | nil => simp [expandSelections, expanded]
  | cons d ds ih =>
    unfold expandSelections
    by_cases hi : index < cb.selections.length
    · rw [List.getElem?_eq_getElem hi]
      simp only
      rw [ih, expanded_cons, List.getElem?_eq_getElem hi]
      by_cases h2 : index + 1 + ds.length ≤ cb.selections.length
      · rw [if_pos (Or.inr h2), if_pos (Or.inr (by rw [List.length_cons]; omega)), List.length_cons]
        simp only [Option.getD_some, List.append_assoc, List.singleton_append]
        congr 2
        omega
      · by_cases h0 : ds.length = 0
        · omega
        · rw [if_neg (by omega), if_neg (by rw [List.length_cons]; omega)]
    · rw [List.getElem?_eq_none (by omega), if_neg (by rw [List.length_cons]; omega)]

/-- The contests that `expand` makes. -/
def expandedContests (cb : CompactBallot) (styleIds : List String) :
    List ContestWithPlaceholders → Nat → List PlaintextContest
  | [], _ => []
  | c :: cs, index =>
    ⟨c.objectId, expanded cb (decide (c.objectId ∈ styleIds))
      (sequenceOrderSort SelectionDescription.sequenceOrder c.ballotSelections) index⟩ ::
      expandedContests cb styleIds cs (index + (sequenceOrderSort SelectionDescription.sequenceOrder
        c.ballotSelections).length)

/-- The number of selections of some contests. -/
def totalSize (cs : List ContestWithPlaceholders) : Nat :=
  (cs.map (fun c => (sequenceOrderSort SelectionDescription.sequenceOrder c.ballotSelections).length)).sum

theorem expandContests_eq (cb : CompactBallot) (styleIds : List String) (cs : List ContestWithPlaceholders) (index : Nat)
    (acc : List PlaintextContest) (hi : index ≤ cb.selections.length) :
    expandContests cb styleIds cs index acc =
      if index + totalSize cs ≤ cb.selections.length then .ok (acc ++ expandedContests cb styleIds cs index)
      else .error .index := by
  induction cs generalizing index acc with
  | nil => simp [expandContests, totalSize, expandedContests, hi]
  | cons c cs ih =>
    unfold expandContests
    rw [expandSelections_eq]
    simp only [bind, Except.bind]
    set n := (sequenceOrderSort SelectionDescription.sequenceOrder c.ballotSelections).length with hn
    have ht : totalSize (c :: cs) = n + totalSize cs := by simp [totalSize, hn]
    by_cases h : index + n ≤ cb.selections.length
    · rw [if_pos (Or.inr h)]
      simp only
      rw [ih _ _ h, ht, ← Nat.add_assoc]
      simp [expandedContests, ← hn]
    · rw [if_neg (by omega), if_neg (by omega)]

theorem expanded_flat (cb : CompactBallot) (inStyle : Bool) (ds : List SelectionDescription) (index : Nat) :
    (expanded cb inStyle ds index).map (fun s => s.objectId) = ds.map (fun d => d.objectId) ∧
    (expanded cb inStyle ds index).map (fun s => s.vote)
      = (List.range' index ds.length).map (fun i => if cb.selections[i]?.getD false then 1 else 0) ∧
    (expanded cb inStyle ds index).map (fun s => s.writeIn)
      = (List.range' index ds.length).map (fun i => dget cb.writeIns i) ∧
    ∀ s ∈ expanded cb inStyle ds index, s.isPlaceholder = !inStyle := by
  induction ds generalizing index with
  | nil => simp [expanded]
  | cons d ds ih =>
    obtain ⟨h1, h2, h3, h4⟩ := ih (index + 1)
    rw [expanded_cons, List.length_cons, List.range'_succ]
    refine ⟨by simp [h1], by simp [h2], by simp [h3], fun s hs => ?_⟩
    rcases List.mem_cons.1 hs with rfl | hs
    · rfl
    · exact h4 s hs

theorem expandedContests_flat (cb : CompactBallot) (styleIds : List String) (cs : List ContestWithPlaceholders)
    (index : Nat) :
    (expandedContests cb styleIds cs index).map (fun c => (c.objectId, c.ballotSelections.map (fun s => s.objectId)))
      = cs.map (fun c => (c.objectId,
        (sequenceOrderSort SelectionDescription.sequenceOrder c.ballotSelections).map (fun s => s.objectId))) ∧
    ((expandedContests cb styleIds cs index).flatMap (fun c => c.ballotSelections)).map (fun s => s.vote)
      = (List.range' index (totalSize cs)).map (fun i => if cb.selections[i]?.getD false then 1 else 0) ∧
    ((expandedContests cb styleIds cs index).flatMap (fun c => c.ballotSelections)).map (fun s => s.writeIn)
      = (List.range' index (totalSize cs)).map (fun i => dget cb.writeIns i) ∧
    ∀ c ∈ expandedContests cb styleIds cs index, ∀ s ∈ c.ballotSelections,
      s.isPlaceholder = !decide (c.objectId ∈ styleIds) := by
  induction cs generalizing index with
  | nil => simp [expandedContests, totalSize]
  | cons c cs ih =>
    set n := (sequenceOrderSort SelectionDescription.sequenceOrder c.ballotSelections).length with hn
    have ht : totalSize (c :: cs) = n + totalSize cs := by simp [totalSize, hn]
    obtain ⟨h1, h2, h3, h4⟩ := ih (index + n)
    obtain ⟨g1, g2, g3, g4⟩ := expanded_flat cb (decide (c.objectId ∈ styleIds))
      (sequenceOrderSort SelectionDescription.sequenceOrder c.ballotSelections) index
    rw [← hn] at g2 g3
    rw [ht]
    have hr : List.range' index (n + totalSize cs) = List.range' index n ++ List.range' (index + n) (totalSize cs) := by
      rw [List.range'_append_1]
    rw [hr]
    unfold expandedContests
    rw [← hn]
    refine ⟨by simp only [List.map_cons, g1, h1], ?_, ?_, ?_⟩
    · rw [List.flatMap_cons, List.map_append, List.map_append, g2, h2]
    · rw [List.flatMap_cons, List.map_append, List.map_append, g3, h3]
    · intro x hx s hs
      rcases List.mem_cons.1 hx with rfl | hx
      · exact g4 s hs
      · exact h4 x hx s hs

theorem totalSize_layout (m : InternalManifest) :
    totalSize (sequenceOrderSort (fun c : ContestWithPlaceholders => c.sequenceOrder) m.contests) = m.size := by
  unfold totalSize InternalManifest.size InternalManifest.layout
  rw [List.map_map]
  congr 1
  refine List.map_congr_left (fun c _ => ?_)
  simp [Function.comp]

/-! ### C52 -/

/-- C52 What expanding does, for every compact ballot: it raises when there are fewer entries than selections in the
manifest; else the result has the contests and selections of the whole manifest in sequence order, the votes are the
entries in that order, and the write-in texts are those stored under the position counted from 0. -/
theorem C52_expand (cb : CompactBallot) (m : InternalManifest) (ds : List ContestWithPlaceholders)
    (hs : m.getContestsFor cb.styleId = .ok ds) :
    if m.size ≤ cb.selections.length then
      ∃ b, expandPlaintext cb m = .ok b ∧ b.objectId = cb.objectId ∧ b.styleId = cb.styleId ∧ b.layout = m.layout ∧
        b.votes = (cb.selections.take m.size).map (fun v => if v then 1 else 0) ∧
        b.flat.map (fun s => s.writeIn) = (List.range m.size).map (fun i => dget cb.writeIns i) ∧
        ∀ c ∈ b.contests, ∀ s ∈ c.ballotSelections,
          (s.isPlaceholder = true ↔ c.objectId ∉ ds.map (fun c => c.objectId))
    else expandPlaintext cb m = .error .index := by
  unfold expandPlaintext plaintextContests
  simp only [hs, bind, Except.bind, pure, Except.pure]
  rw [expandContests_eq _ _ _ _ _ (Nat.zero_le _), totalSize_layout, Nat.zero_add, List.nil_append]
  obtain ⟨h1, h2, h3, h4⟩ := expandedContests_flat cb (ds.map (fun c => c.objectId))
    (sequenceOrderSort (fun c : ContestWithPlaceholders => c.sequenceOrder) m.contests) 0
  rw [totalSize_layout] at h2 h3
  split
  · rename_i hle
    refine ⟨_, rfl, rfl, rfl, h1, ?_, ?_, ?_⟩
    · change ((expandedContests cb _ _ 0).flatMap (fun c => c.ballotSelections)).map (fun s => s.vote) = _
      rw [h2, ← List.range_eq_range']
      refine List.ext_getElem? (fun i => ?_)
      rw [List.getElem?_map, List.getElem?_map, List.getElem?_take]
      by_cases hi : i < m.size
      · rw [if_pos hi, List.getElem?_range hi, List.getElem?_eq_getElem (by omega : i < cb.selections.length)]
        simp only [Option.map_some]
        rw [List.getElem?_eq_getElem (by omega : i < cb.selections.length)]
        rfl
      · rw [if_neg hi, List.getElem?_eq_none (by simpa using hi)]
        rfl
    · change ((expandedContests cb _ _ 0).flatMap (fun c => c.ballotSelections)).map (fun s => s.writeIn) = _
      rw [h3, ← List.range_eq_range']
    · intro c hc s hsel
      rw [h4 c hc s hsel]
      simp
  · rfl

/-- C52 The votes survive the round trip for a ballot that lists all contests and selections of the manifest in sequence
order and has votes 0 and 1 only; every write-in text reappears one place too late and the last one is lost.  So the
whole ballot survives when it has no write-in texts.  Missing for the full claim: ballots with write-ins, and ballots
that leave contests or selections out or list them in another order (see the `_fails` theorems). -/
theorem C52_round_trip_partial (b : PlaintextBallot) (m : InternalManifest) (ds : List ContestWithPlaceholders)
    (hs : m.getContestsFor b.styleId = .ok ds) (hl : b.layout = m.layout) (hv : ∀ v ∈ b.votes, v = 0 ∨ v = 1) :
    ∃ b', expandPlaintext (compressPlaintext b) m = .ok b' ∧ b'.objectId = b.objectId ∧ b'.styleId = b.styleId ∧
      b'.layout = b.layout ∧ b'.votes = b.votes ∧
      b'.flat.map (fun s => s.writeIn) = (none :: b.texts).dropLast := by
  have hsize : m.size = b.flat.length := by
    unfold InternalManifest.size
    rw [← hl]
    unfold PlaintextBallot.layout PlaintextBallot.flat
    rw [List.map_map, List.length_flatMap]
    congr 1
    refine List.map_congr_left (fun c _ => ?_)
    simp [Function.comp]
  have h := C52_expand (compressPlaintext b) m ds hs
  have hlen : (compressPlaintext b).selections.length = b.flat.length := by
    change (compactSelections b).length = _
    rw [compactSelections_eq, List.length_map]
  rw [if_pos (by rw [hsize, hlen])] at h
  obtain ⟨b', h1, h2, h3, h4, h5, h6, _⟩ := h
  refine ⟨b', h1, h2, h3, by rw [h4, hl], ?_, ?_⟩
  · rw [h5, hsize, ← hlen, List.take_length]
    change (compactSelections b).map _ = _
    rw [compactSelections_eq, List.map_map]
    unfold PlaintextBallot.votes
    refine List.map_congr_left (fun s hs' => ?_)
    rcases hv s.vote (List.mem_map.2 ⟨s, hs', rfl⟩) with h | h <;> simp [h]
  · rw [h6, hsize]
    refine List.ext_getElem? (fun i => ?_)
    rw [List.getElem?_map, List.getElem?_dropLast, List.length_cons, Nat.add_sub_cancel]
    have htl : b.texts.length = b.flat.length := by simp [PlaintextBallot.texts]
    rw [htl]
    by_cases hi : i < b.flat.length
    · rw [List.getElem?_range hi, if_pos hi]
      change some (dget (compactWriteIns b) i) = _
      rw [compactWriteIns_get]
      cases i with
      | zero => rfl
      | succ i =>
        rw [if_neg (Nat.succ_ne_zero i), Nat.succ_sub_one, List.getElem?_cons_succ,
          List.getElem?_eq_getElem (by omega)]
        rfl
    · rw [if_neg hi, List.getElem?_eq_none (by simpa using hi)]
      rfl

theorem sameBare_of (l l' : List PlaintextContest)
    (hl : l.map (fun c => (c.objectId, c.ballotSelections.map (fun s => s.objectId)))
      = l'.map (fun c => (c.objectId, c.ballotSelections.map (fun s => s.objectId))))
    (hv : (l.flatMap (fun c => c.ballotSelections)).map (fun s => s.vote)
      = (l'.flatMap (fun c => c.ballotSelections)).map (fun s => s.vote)) :
    l.map (·.bare) = l'.map (·.bare) := by
  have inner : ∀ (s s' : List PlaintextSelection), s.map (fun s => s.objectId) = s'.map (fun s => s.objectId) →
      s.map (fun s => s.vote) = s'.map (fun s => s.vote) → s.map (·.bare) = s'.map (·.bare) := by
    intro s
    induction s with
    | nil => intro s' h _; cases s' with
      | nil => rfl
      | cons _ _ => cases h
    | cons a s ih =>
      intro s' h1 h2
      cases s' with
      | nil => cases h1
      | cons a' s' =>
        simp only [List.map_cons, List.cons.injEq] at h1 h2 ⊢
        exact ⟨by unfold PlaintextSelection.bare; rw [h1.1, h2.1], ih s' h1.2 h2.2⟩
  induction l generalizing l' with
  | nil =>
    cases l' with
    | nil => rfl
    | cons _ _ => cases hl
  | cons c l ih =>
    cases l' with
    | nil => cases hl
    | cons c' l' =>
      simp only [List.map_cons, List.cons.injEq, Prod.mk.injEq] at hl
      obtain ⟨⟨h1, h2⟩, h3⟩ := hl
      have hlen : (c.ballotSelections.map (fun s => s.vote)).length = (c'.ballotSelections.map (fun s => s.vote)).length := by
        have := congrArg List.length h2
        simpa using this
      rw [List.flatMap_cons, List.flatMap_cons, List.map_append, List.map_append] at hv
      obtain ⟨hv1, hv2⟩ := List.append_inj hv hlen
      rw [List.map_cons, List.map_cons, ih l' h3 hv2]
      congr 1
      unfold PlaintextContest.bare
      rw [h1, inner _ _ h2 hv1]

/-- C52 A ballot in the layout of the manifest, with votes 0 and 1, without write-in texts and with the placeholder flag on
exactly the contests outside its style, is recovered exactly. -/
theorem C52_identity_partial (b : PlaintextBallot) (m : InternalManifest) (ds : List ContestWithPlaceholders)
    (hs : m.getContestsFor b.styleId = .ok ds) (hl : b.layout = m.layout) (hv : ∀ v ∈ b.votes, v = 0 ∨ v = 1)
    (hw : ∀ s ∈ b.flat, s.writeIn = none)
    (hp : ∀ c ∈ b.contests, ∀ s ∈ c.ballotSelections,
      (s.isPlaceholder = true ↔ c.objectId ∉ ds.map (fun c => c.objectId))) :
    expandPlaintext (compressPlaintext b) m = .ok b := by
  obtain ⟨b', h1, h2, h3, h4, h5, h6⟩ := C52_round_trip_partial b m ds hs hl hv
  have h7 : ∀ c ∈ b'.contests, ∀ s ∈ c.ballotSelections,
      (s.isPlaceholder = true ↔ c.objectId ∉ ds.map (fun c => c.objectId)) := by
    have h := C52_expand (compressPlaintext b) m ds hs
    split at h
    · obtain ⟨b'', g1, _, _, _, _, _, g⟩ := h
      rw [h1] at g1
      cases g1
      exact g
    · rw [h1] at h; cases h
  have h8 : ∀ s ∈ b'.flat, s.writeIn = none := by
    intro s hs'
    have : s.writeIn ∈ b'.flat.map (fun s => s.writeIn) := List.mem_map.2 ⟨s, hs', rfl⟩
    rw [h6] at this
    rcases List.mem_cons.1 (List.dropLast_subset _ this) with h | h
    · exact h
    · unfold PlaintextBallot.texts at h
      obtain ⟨x, hx, h⟩ := List.mem_map.1 h
      rw [← h, hw x hx]
      rfl
  rw [h1]
  have hbare : b'.contests.map (·.bare) = b.contests.map (·.bare) := sameBare_of _ _ h4 h5
  have hcs : b'.contests = b.contests := by
    have inner : ∀ (q : Bool) (s s' : List PlaintextSelection), s.map (·.bare) = s'.map (·.bare) →
        (∀ x ∈ s, x.isPlaceholder = q ∧ x.writeIn = none) → (∀ x ∈ s', x.isPlaceholder = q ∧ x.writeIn = none) →
        s = s' := by
      intro q s
      induction s with
      | nil => intro s' h _ _; cases s' with
        | nil => rfl
        | cons _ _ => cases h
      | cons a s ih =>
        intro s' h g g'
        cases s' with
        | nil => cases h
        | cons a' s' =>
          simp only [List.map_cons, List.cons.injEq, PlaintextSelection.bare, PlaintextSelection.mk.injEq, and_true] at h
          obtain ⟨⟨e1, e2⟩, e3⟩ := h
          have g1 := g a List.mem_cons_self
          have g2 := g' a' List.mem_cons_self
          rw [ih s' e3 (fun x hx => g x (List.mem_cons_of_mem _ hx)) (fun x hx => g' x (List.mem_cons_of_mem _ hx))]
          congr 1
          cases a; cases a'
          simp_all
    have flat : ∀ (b : PlaintextBallot), (∀ s ∈ b.flat, s.writeIn = none) → ∀ c ∈ b.contests, ∀ s ∈ c.ballotSelections,
        s.writeIn = none := by
      intro b h c hc s hs'
      exact h s (List.mem_flatMap.2 ⟨c, hc, hs'⟩)
    have hw1 := flat b' h8
    have hw2 := flat b hw
    clear h1 h4 h5 h6 h8 hw hl hv
    generalize b'.contests = l at *
    generalize b.contests = l' at *
    induction l generalizing l' with
    | nil =>
      cases l' with
      | nil => rfl
      | cons _ _ => cases hbare
    | cons c l ih =>
      cases l' with
      | nil => cases hbare
      | cons c' l' =>
        simp only [List.map_cons, List.cons.injEq] at hbare
        obtain ⟨e1, e2⟩ := hbare
        rw [ih (fun c hc => h7 c (List.mem_cons_of_mem _ hc)) (fun c hc => hw1 c (List.mem_cons_of_mem _ hc)) l'
          (fun c hc => hp c (List.mem_cons_of_mem _ hc)) (fun c hc => hw2 c (List.mem_cons_of_mem _ hc)) e2]
        congr 1
        have hid := bare_id e1
        have hsel : c.ballotSelections.map (·.bare) = c'.ballotSelections.map (·.bare) := by
          have : c.bare.ballotSelections = c'.bare.ballotSelections := by rw [e1]
          exact this
        have f1 := h7 c List.mem_cons_self
        have f2 := hp c' List.mem_cons_self
        have := inner (decide (c.objectId ∉ ds.map (fun c => c.objectId))) _ _ hsel
          (fun x hx => ⟨by rw [Bool.eq_iff_iff, f1 x hx, decide_eq_true_eq], hw1 c List.mem_cons_self x hx⟩)
          (fun x hx => ⟨by rw [Bool.eq_iff_iff, f2 x hx, decide_eq_true_eq, hid], hw2 c' List.mem_cons_self x hx⟩)
        cases c; cases c'
        simp only at hid this
        rw [hid, this]
  cases b; cases b'
  simp only at h2 h3 hcs
  rw [h2, h3, hcs]

/-- A full ballot of the toy election in style `t`. -/
def toyFull (x y z : Int) (wx wy wz : Option String) : PlaintextBallot := ⟨"v", "t",
  [⟨"c", [⟨"sx", x, false, wx⟩, ⟨"sy", y, false, wy⟩]⟩, ⟨"d", [⟨"sz", z, false, wz⟩]⟩]⟩

example : (toyFull 0 1 1 none none none).layout = toyIM.layout ∧
    expandPlaintext (compressPlaintext (toyFull 0 1 1 none none none)) toyIM = .ok (toyFull 0 1 1 none none none) := by
  constructor <;> decide +kernel

/-- C52 does not hold for write-ins: the text moves to the next selection, and that of the last one is lost. -/
theorem C52_write_in_fails :
    expandPlaintext (compressPlaintext (toyFull 0 1 1 none (some "w") (some "l"))) toyIM
      = .ok (toyFull 0 1 1 none none (some "w")) := by decide +kernel

/-- C52 does not hold for a ballot that lists only the contests of its style: expanding raises `IndexError`. -/
theorem C52_style_ballot_fails :
    expandPlaintext (compressPlaintext ⟨"v", "s", [⟨"c", [⟨"sx", 1, false, none⟩, ⟨"sy", 0, false, none⟩]⟩]⟩) toyIM
      = .error .index := by decide +kernel

/-- C52 does not hold for a ballot that lists its contests in another order: the vote for `sz` becomes one for `sx`. -/
theorem C52_order_fails :
    expandPlaintext (compressPlaintext ⟨"v", "t", [⟨"d", [⟨"sz", 1, false, none⟩]⟩,
      ⟨"c", [⟨"sx", 0, false, none⟩, ⟨"sy", 0, false, none⟩]⟩]⟩) toyIM
      = .ok (toyFull 1 0 0 none none none) := by decide +kernel

/-! ### C53 -/

theorem encryptBallot_parts {json : ContestData → Bytes} {b : PlaintextBallot} {m : InternalManifest} {ctx : Context}
    {cseed nonce : Nat} {now : Int} {verify : Bool} {enc : CBallot}
    (h : encryptBallot E json b m ctx cseed nonce now verify = .ok (some enc)) :
    ∃ ds cs, m.getContestsFor b.styleId = .ok ds ∧
      encryptContests E json b ctx.elgamalPublicKey ctx.cryptoExtendedBaseHash
        (nonceSeed E m.manifestHash b.objectId nonce) verify ds = .ok (some cs) ∧
      enc = makeBallot E b.objectId b.styleId m.manifestHash (some cseed) cs (some nonce) none none now := by
  unfold encryptBallot at h
  simp only [bind, Except.bind, pure, Except.pure] at h
  cases hst : m.getBallotStyle b.styleId with
  | error _ => rw [hst] at h; cases h
  | ok style =>
    rw [hst] at h
    simp only at h
    split at h
    · cases h
    · cases hd : m.getContestsFor b.styleId with
      | error _ => rw [hd] at h; cases h
      | ok ds =>
        rw [hd] at h
        simp only at h
        cases hc : encryptContests E json b ctx.elgamalPublicKey ctx.cryptoExtendedBaseHash
            (nonceSeed E m.manifestHash b.objectId nonce) verify ds with
        | error _ => rw [hc] at h; cases h
        | ok o =>
          cases o with
          | none => rw [hc] at h; cases h
          | some cs =>
            rw [hc] at h
            simp only at h
            refine ⟨ds, cs, rfl, hc, ?_⟩
            split at h
            · simpa using h.symm
            · cases hv : CBallot.isValidEncryption E (makeBallot E b.objectId b.styleId m.manifestHash (some cseed) cs
                (some nonce) none none now) m.manifestHash ctx.elgamalPublicKey ctx.cryptoExtendedBaseHash with
              | error _ => rw [hv] at h; cases h
              | ok x =>
                rw [hv] at h
                cases x with
                | false => cases h
                | true => simpa using h.symm

/-- C53 A submitted ballot is re-created exactly from its compact form, the manifest and the context, for every plaintext
ballot in the layout of the manifest with votes 0 and 1 and without write-in texts, every nonce and every state.  Missing
for the full claim: the ballots excluded in C52. -/
theorem C53_round_trip_partial {json : ContestData → Bytes} (b : PlaintextBallot) (m : InternalManifest) (ctx : Context)
    (cseed nonce : Nat) (now : Int) (verify : Bool) (enc : CBallot) (st : BallotBoxState)
    (hl : b.layout = m.layout) (hv : ∀ v ∈ b.votes, v = 0 ∨ v = 1) (hw : ∀ s ∈ b.flat, s.writeIn = none)
    (h : encryptBallot E json b m ctx cseed nonce now verify = .ok (some enc)) :
    expandSubmitted E json (compressSubmitted (submitBallot E enc st) b nonce) m ctx = .ok (submitBallot E enc st) := by
  obtain ⟨ds, cs, h1, h2, rfl⟩ := encryptBallot_parts h
  obtain ⟨b', g1, g2, g3, g4, g5, g6⟩ := C52_round_trip_partial b m ds h1 hl hv
  have none_all : ∀ (b : PlaintextBallot), (∀ s ∈ b.flat, s.writeIn = none) → ∀ c ∈ b.contests, c.writeIns = none := by
    intro b h c hc
    have : ∀ (l : List PlaintextSelection) (i : String), (∀ s ∈ l, s.writeIn = none) →
        (PlaintextContest.mk i l).writeIns = none := by
      intro l i
      induction l with
      | nil => intros; rfl
      | cons s l ih =>
        intro hl
        have := ih (fun x hx => hl x (List.mem_cons_of_mem _ hx))
        unfold PlaintextContest.writeIns at this ⊢
        rw [List.foldl_cons, hl s List.mem_cons_self]
        exact this
    exact this c.ballotSelections c.objectId (fun s hs => h s (List.mem_flatMap.2 ⟨c, hc, hs⟩))
  have hw' : ∀ s ∈ b'.flat, s.writeIn = none := by
    intro s hs'
    have : s.writeIn ∈ b'.flat.map (fun s => s.writeIn) := List.mem_map.2 ⟨s, hs', rfl⟩
    rw [g6] at this
    rcases List.mem_cons.1 (List.dropLast_subset _ this) with h | h
    · exact h
    · unfold PlaintextBallot.texts at h
      obtain ⟨x, hx, h⟩ := List.mem_map.1 h
      rw [← h, hw x hx]
      rfl
  have hsame : SameBare b' b := sameBare_of _ _ g4 g5
  unfold expandSubmitted
  simp only [compressSubmitted, g1, bind, Except.bind, pure, Except.pure, g3, h1]
  rw [encryptContests_congr _ _ _ _ hsame (none_all b' hw') (none_all b hw)]
  rw [show (compressPlaintext b).objectId = b.objectId from rfl, encryptContests_unverified _ h2, g2]
  rfl

/-- C53 Whatever a compact ballot is expanded to has its id, style, code, code seed, time and state, the hash of the manifest, and no
nonce. -/
theorem C53_keeps {json : ContestData → Bytes} (cb : CompactSubmitted) (m : InternalManifest) (ctx : Context) (sb : SBallot)
    (h : expandSubmitted E json cb m ctx = .ok sb) :
    sb.objectId = cb.plaintext.objectId ∧ sb.styleId = cb.plaintext.styleId ∧ sb.code = cb.code ∧ sb.codeSeed = cb.codeSeed ∧
      sb.timestamp = cb.timestamp ∧ sb.state = cb.state ∧ sb.manifestHash = m.manifestHash ∧ sb.nonce = none := by
  unfold expandSubmitted at h
  simp only [bind, Except.bind, pure, Except.pure] at h
  cases h1 : expandPlaintext cb.plaintext m with
  | error e => rw [h1] at h; cases h
  | ok b =>
  have hb : b.objectId = cb.plaintext.objectId ∧ b.styleId = cb.plaintext.styleId := by
    unfold expandPlaintext at h1
    simp only [bind, Except.bind, pure, Except.pure] at h1
    cases h2 : plaintextContests cb.plaintext m with
    | error e => rw [h2] at h1; cases h1
    | ok cs => rw [h2] at h1; cases h1; exact ⟨rfl, rfl⟩
  rw [h1] at h
  simp only at h
  split at h
  · cases h
  split at h
  · cases h
  split at h
  · cases h
  cases h
  exact ⟨hb.1, hb.2, rfl, rfl, rfl, rfl, rfl, rfl⟩

/-- C53 With write-in texts, whatever is re-created agrees with the original in everything but the encrypted contest
data: ciphertexts, proofs, hashes, code, time and state. -/
theorem C53_same_but_data_partial {json : ContestData → Bytes} (b : PlaintextBallot) (m : InternalManifest)
    (ctx : Context) (cseed nonce : Nat) (now : Int) (verify : Bool) (enc : CBallot) (st : BallotBoxState) (sb : SBallot)
    (hl : b.layout = m.layout) (hv : ∀ v ∈ b.votes, v = 0 ∨ v = 1)
    (h : encryptBallot E json b m ctx cseed nonce now verify = .ok (some enc))
    (h' : expandSubmitted E json (compressSubmitted (submitBallot E enc st) b nonce) m ctx = .ok sb) :
    sb.eraseData = (submitBallot E enc st).eraseData := by
  obtain ⟨ds, cs, h1, h2, rfl⟩ := encryptBallot_parts h
  obtain ⟨b', g1, g2, g3, g4, g5, g6⟩ := C52_round_trip_partial b m ds h1 hl hv
  have hsame : SameBare b' b := sameBare_of _ _ g4 g5
  unfold expandSubmitted at h'
  simp only [compressSubmitted, g1, bind, Except.bind, pure, Except.pure, g3, h1] at h'
  rw [show (compressPlaintext b).objectId = b.objectId from rfl] at h'
  cases hc : encryptContests E json b' ctx.elgamalPublicKey ctx.cryptoExtendedBaseHash
    (nonceSeed E m.manifestHash b.objectId nonce) false ds with
  | error _ => rw [hc] at h'; cases h'
  | ok o =>
    cases o with
    | none => rw [hc] at h'; cases h'
    | some cs' =>
      rw [hc] at h'
      simp only [getOptional] at h'
      cases h'
      have he := encryptContests_erase hsame ds hc (encryptContests_unverified _ h2)
      have hstrip : ∀ cs : List CContest, (cs.map CContest.stripNonces).map (fun c => { c with extendedData := none })
          = (cs.map (·.eraseData)).map CContest.stripNonces := by
        intro cs
        rw [List.map_map, List.map_map]
        rfl
      have hhash : ∀ cs : List CContest,
          (sequenceOrderSort CContest.sequenceOrder cs).map (fun c => HArg.elem c.cryptoHash)
          = (sequenceOrderSort CContest.sequenceOrder (cs.map (·.eraseData))).map (fun c => HArg.elem c.cryptoHash) := by
        intro cs
        unfold sequenceOrderSort sortByInt
        rw [stableSort_map, List.map_map]
        rfl
      unfold submitBallot SBallot.eraseData makeSubmittedBallot
      simp only [g2, makeBallot]
      rw [hstrip, hstrip, he, hhash cs', he, ← hhash cs]
      rfl

/-- The contest data text says whether there are write-ins. -/
def toyJsonW : ContestData → Bytes := fun d => if d.writeIns = none then [1] else [2]

/-- The ballot with a write-in for the last selection, encrypted and cast. -/
def toyWritten : SBallot :=
  match encryptBallot toyEnv toyJsonW (toyFull 0 1 1 none none (some "l")) toyIM toyCtx 3 5 17 with
  | .ok (some e) => submitBallot toyEnv e .cast
  | _ => submitBallot toyEnv toyNoBallot .cast

/-- The authentication codes of the contest data. -/
def SBallot.macs (b : SBallot) : List (Option (List Char)) :=
  b.contests.map (fun c => c.extendedData.map (fun x => x.mac))

/-- C53 does not hold with write-in texts: the encrypted contest data of the re-created ballot differ. -/
theorem C53_write_in_fails :
    toyWritten.objectId = "v" ∧
    ∃ sb, expandSubmitted toyEnv toyJsonW (compressSubmitted toyWritten (toyFull 0 1 1 none none (some "l")) 5) toyIM
      toyCtx = .ok sb ∧ sb.macs ≠ toyWritten.macs := by
  refine ⟨by decide +kernel, ?_⟩
  have h : (match expandSubmitted toyEnv toyJsonW (compressSubmitted toyWritten (toyFull 0 1 1 none none (some "l")) 5)
      toyIM toyCtx with
    | .ok sb => decide (sb.macs ≠ toyWritten.macs)
    | .error _ => false) = true := by decide +kernel
  revert h
  cases expandSubmitted toyEnv toyJsonW (compressSubmitted toyWritten (toyFull 0 1 1 none none (some "l")) 5) toyIM
    toyCtx with
  | error e => exact fun h => absurd h (by simp)
  | ok sb => exact fun h => ⟨sb, rfl, of_decide_eq_true h⟩

/-- The ballot without write-ins comes back, and it is a real ballot. -/
example : (toyFull 0 1 1 none none none).layout = toyIM.layout ∧
    (toySubmit "v" "t" 0 1 1 5 .spoiled).objectId = "v" ∧
    (match expandSubmitted toyEnv toyJson (compressSubmitted (toySubmit "v" "t" 0 1 1 5 .spoiled)
      (toyFull 0 1 1 none none none) 5) toyIM toyCtx with
    | .ok sb => decide (sb.eraseData = (toySubmit "v" "t" 0 1 1 5 .spoiled).eraseData)
    | .error _ => false) = true := by
  refine ⟨?_, ?_, ?_⟩ <;> decide +kernel

end EG
