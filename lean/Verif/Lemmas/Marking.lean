import Verif.Model.Marking
import Verif.Spec.Marking
import Mathlib.Data.List.Perm.Basic
import Mathlib.Data.List.Nodup

/-!
# Lemmas about shuffling and marking
-/

namespace EG

variable {α : Type}

theorem swapAt_perm (l : List α) (i j : Nat) : (swapAt l i j).Perm l := by
  unfold swapAt
  split
  · rename_i a b ha hb
    obtain ⟨hi, rfl⟩ := List.getElem?_eq_some_iff.1 ha
    obtain ⟨hj, rfl⟩ := List.getElem?_eq_some_iff.1 hb
    exact List.set_set_perm hi hj
  · exact List.Perm.refl _

theorem shuffleFrom_perm (draw : Nat → Nat) (i : Nat) (l : List α) : (shuffleFrom draw i l).Perm l := by
  induction i generalizing l with
  | zero => exact List.Perm.refl _
  | succ i ih => exact (ih _).trans (swapAt_perm _ _ _)

theorem shuffle_perm (draw : Nat → Nat) (l : List α) : (shuffle draw l).Perm l := shuffleFrom_perm _ _ _

theorem swapAt_append (a b : List α) {i j : Nat} (hi : i < a.length) (hj : j < a.length) : swapAt (a ++ b) i j = swapAt a i j ++ b := by
  unfold swapAt
  rw [List.getElem?_append_left hi, List.getElem?_append_left hj]
  rw [List.getElem?_eq_getElem hi, List.getElem?_eq_getElem hj]
  simp only
  rw [List.set_append_left _ _ hi, List.set_append_left _ _ (by rw [List.length_set]; exact hj)]

theorem shuffleFrom_append (draw : Nat → Nat) (i : Nat) (a b : List α) (h : i < a.length) :
    shuffleFrom draw i (a ++ b) = shuffleFrom draw i a ++ b := by
  induction i generalizing a with
  | zero => rfl
  | succ i ih =>
    unfold shuffleFrom
    rw [swapAt_append a b h (Nat.lt_of_lt_of_le (Nat.mod_lt _ (by omega)) (by omega)), ih]
    rw [(swapAt_perm _ _ _).length_eq]
    omega

theorem shuffleFrom_congr {draw draw' : Nat → Nat} {i : Nat} (h : ∀ k ≤ i, draw k = draw' k) (l : List α) :
    shuffleFrom draw i l = shuffleFrom draw' i l := by
  induction i generalizing l with
  | zero => rfl
  | succ i ih =>
    unfold shuffleFrom
    rw [h (i + 1) (Nat.le_refl _), ih (fun k hk => h k (by omega))]

/-- Every order can come out. -/
theorem shuffleFrom_any {i : Nat} {a a' : List α} (hl : a.length = i + 1) (h : a.Perm a') : ∃ draw, shuffleFrom draw i a = a' := by
  induction i generalizing a a' with
  | zero =>
    obtain ⟨x, rfl⟩ := List.length_eq_one_iff.1 hl
    exact ⟨fun _ => 0, (List.perm_singleton.1 h.symm).symm⟩
  | succ i ih =>
    have hl' : a'.length = i + 2 := by rw [← h.length_eq, hl]
    obtain ⟨x, y, rfl⟩ : ∃ x y, a' = x ++ [y] := by
      have hne : a' ≠ [] := by intro h; rw [h] at hl'; cases hl'
      exact ⟨_, _, (List.dropLast_append_getLast hne).symm⟩
    obtain ⟨j, hj, hy⟩ := List.mem_iff_getElem.1 (h.symm.subset (List.mem_append_right x (List.mem_singleton.2 rfl)))
    have hi : i + 1 < a.length := by omega
    obtain ⟨b, z, hbz⟩ : ∃ b z, swapAt a (i + 1) j = b ++ [z] := by
      have hne : swapAt a (i + 1) j ≠ [] := by
        intro h
        have := (swapAt_perm a (i + 1) j).length_eq
        rw [h, hl] at this
        cases this
      exact ⟨_, _, (List.dropLast_append_getLast hne).symm⟩
    have hbl : b.length = i + 1 := by
      have := (swapAt_perm a (i + 1) j).length_eq
      rw [hbz, hl, List.length_append, List.length_singleton] at this
      omega
    have hz : z = y := by
      have h1 : (swapAt a (i + 1) j)[i + 1]? = some y := by
        unfold swapAt
        rw [List.getElem?_eq_getElem hi, List.getElem?_eq_getElem hj]
        simp only
        by_cases hji : j = i + 1
        · subst hji
          rw [List.getElem?_set_self (by rw [List.length_set]; exact hi), hy]
        · rw [List.getElem?_set_ne hji, List.getElem?_set_self hi, hy]
      rw [hbz, List.getElem?_append_right (by omega), hbl] at h1
      simpa using h1
    subst hz
    have hbx : b.Perm x := by
      have : (b ++ [z]).Perm (x ++ [z]) := hbz ▸ (swapAt_perm a (i + 1) j).trans h
      exact (List.perm_append_right_iff [z]).1 this
    obtain ⟨draw, hd⟩ := ih hbl hbx
    refine ⟨fun k => if k = i + 1 then j else draw k, ?_⟩
    show shuffleFrom _ i (swapAt a (i + 1) ((if i + 1 = i + 1 then j else draw (i + 1)) % (i + 2))) = _
    rw [if_pos rfl, Nat.mod_eq_of_lt (by omega), hbz, shuffleFrom_append _ _ _ _ (by omega)]
    rw [shuffleFrom_congr (draw' := draw) (fun k hk => by rw [if_neg (by omega)]), hd]

theorem shuffle_any {a a' : List α} (h : a.Perm a') : ∃ draw, shuffle draw a = a' := by
  cases a with
  | nil => exact ⟨fun _ => 0, by rw [← h.nil_eq]; rfl⟩
  | cons x l => exact shuffleFrom_any rfl h

theorem explicitNoes_filter (explicit : Nat → Bool) (i : Nat) (ds : List SelectionDescription) :
    ∃ l l' : List SelectionDescription, (l ++ l').Perm ds ∧ explicitNoes explicit i ds = l.map (fun d => selectionFrom d false false) := by
  induction ds generalizing i with
  | nil => exact ⟨[], [], List.Perm.refl _, rfl⟩
  | cons d ds ih =>
    obtain ⟨l, l', h1, h2⟩ := ih (i + 1)
    unfold explicitNoes
    rw [h2]
    split
    · exact ⟨d :: l, l', h1.cons d, rfl⟩
    · exact ⟨l, d :: l', List.perm_middle.trans (h1.cons d), rfl⟩

theorem explicitNoes_any (l l' : List SelectionDescription) (i : Nat) :
    explicitNoes (fun k => decide (k < i + l.length)) i (l ++ l') = l.map (fun d => selectionFrom d false false) := by
  induction l generalizing i with
  | nil =>
    simp only [List.nil_append, List.map_nil, List.length_nil, Nat.add_zero]
    have : ∀ k, i ≤ k → explicitNoes (fun k => decide (k < i)) k l' = [] := by
      induction l' with
      | nil => intros; rfl
      | cons d ds ih =>
        intro k hk
        unfold explicitNoes
        rw [ih (k + 1) (by omega)]
        simp only [decide_eq_true_eq]
        rw [if_neg (by omega)]
        rfl
    exact this i (Nat.le_refl _)
  | cons d l ih =>
    rw [List.cons_append]
    unfold explicitNoes
    have h : i < i + (d :: l).length := by simp
    simp only [decide_eq_true_eq, if_pos h]
    have e : i + (d :: l).length = i + 1 + l.length := by simp only [List.length_cons]; omega
    rw [e, ih (i + 1)]
    rfl

/-- What is a permutation of an image is the image of a permutation. -/
theorem perm_map_any {α β : Type} (f : α → β) {m m' : List β} (h : m.Perm m') : ∀ l : List α, l.map f = m → ∃ l', l.Perm l' ∧ l'.map f = m' := by
  induction h with
  | nil => exact fun l hl => ⟨l, List.Perm.refl _, hl⟩
  | cons x _ ih =>
    intro l hl
    cases l with
    | nil => cases hl
    | cons a l =>
      rw [List.map_cons, List.cons.injEq] at hl
      obtain ⟨l', h1, h2⟩ := ih l hl.2
      exact ⟨a :: l', h1.cons a, by rw [List.map_cons, hl.1, h2]⟩
  | swap x y t =>
    intro l hl
    match l, hl with
    | a :: b :: l, hl =>
      rw [List.map_cons, List.map_cons, List.cons.injEq, List.cons.injEq] at hl
      exact ⟨b :: a :: l, List.Perm.swap _ _ _, by rw [List.map_cons, List.map_cons, hl.1, hl.2.1, hl.2.2]⟩
  | trans _ _ ih1 ih2 =>
    intro l hl
    obtain ⟨l1, h1, h2⟩ := ih1 l hl
    obtain ⟨l2, h3, h4⟩ := ih2 l1 h2
    exact ⟨l2, h1.trans h3, h4⟩

theorem valid_seats {d : ContestWithPlaceholders} (h : d.isValid = true) : 0 ≤ d.numberElected ∧ d.numberElected ≤ d.ballotSelections.length := by
  unfold ContestWithPlaceholders.isValid ContestDescription.isValid at h
  simp only [Bool.and_eq_true, decide_eq_true_eq] at h
  omega

theorem randint_iff {lo hi k : Int} : (∃ draw, randint draw lo hi = .ok k) ↔ lo ≤ k ∧ k ≤ hi := by
  constructor
  · rintro ⟨draw, h⟩
    unfold randint at h
    split at h
    · cases h
    · injection h with h
      have := Int.emod_nonneg (draw : Int) (show hi - lo + 1 ≠ 0 by omega)
      have := Int.emod_lt_of_pos (draw : Int) (show 0 < hi - lo + 1 by omega)
      omega
  · rintro ⟨h1, h2⟩
    refine ⟨(k - lo).toNat, ?_⟩
    unfold randint
    rw [if_neg (by omega), Int.toNat_of_nonneg (by omega), Int.emod_eq_of_lt (by omega) (by omega)]
    congr 1
    omega

theorem cutPoint_asked {an au : Bool} {seats k : Int} {draw : Nat} (h : cutPoint draw seats an au = .ok k) : VotesAsked an au seats k := by
  unfold cutPoint at h
  split at h
  · rename_i hc
    simp only [Bool.and_eq_true, Bool.not_eq_true'] at hc
    injection h with h
    split at h
    · exact Or.inr (Or.inl ⟨hc.1, h.symm⟩)
    · exact Or.inl h.symm
  · rename_i hc
    obtain ⟨h1, h2⟩ := randint_iff.1 ⟨draw, h⟩
    unfold VotesAsked
    cases an <;> cases au <;> simp at h1 hc ⊢ <;> omega

theorem cutPoint_any {an au : Bool} {seats k : Int} (h0 : 0 ≤ seats) (h : VotesAsked an au seats k)
    (hs : seats = 0 → an = true ∨ au = false) : ∃ draw, cutPoint draw seats an au = .ok k := by
  unfold cutPoint
  cases an <;> cases au <;> simp only [VotesAsked, Bool.and_false, Bool.and_true, Bool.not_true, Bool.not_false, Bool.false_eq_true, if_false,
    if_true, false_and, true_and, or_false, false_or, or_true] at h hs ⊢
  · exact randint_iff.2 (by omega)
  · have : seats ≠ 0 := by simpa using hs
    exact randint_iff.2 (by omega)
  · rcases h with h | h
    · exact ⟨1, by simp [h]⟩
    · exact ⟨0, by simp [h]⟩
  · exact randint_iff.2 (by omega)

theorem chosen_yes (l : List SelectionDescription) :
    ((l.map (fun s => selectionFrom s false true)).filter (fun s => decide (0 < s.vote))).length = l.length := by
  rw [List.filter_eq_self.2]
  · rw [List.length_map]
  · intro s hs
    obtain ⟨d, -, rfl⟩ := List.mem_map.1 hs
    rfl

theorem chosen_no (l : List SelectionDescription) :
    (l.map (fun s => selectionFrom s false false)).filter (fun s => decide (0 < s.vote)) = [] := by
  rw [List.filter_eq_nil_iff]
  intro s hs
  obtain ⟨d, -, rfl⟩ := List.mem_map.1 hs
  simp [selectionFrom]

theorem getRandomContest_marked {r : ContestDraws} {d : ContestWithPlaceholders} {an au : Bool} {c : PlaintextContest}
    (h : getRandomContest r d an au = .ok c) : d.isValid = true ∧ ∃ k, c.Marked d k ∧ VotesAsked an au d.numberElected k := by
  unfold getRandomContest at h
  split at h
  · cases h
  rename_i hval
  have hval : d.isValid = true := by simpa using hval
  refine ⟨hval, ?_⟩
  obtain ⟨h0, hn⟩ := valid_seats hval
  cases hc : cutPoint r.cut d.numberElected an au with
  | error e => rw [hc] at h; cases h
  | ok k =>
    rw [hc] at h
    simp only [bind, Except.bind, pure, Except.pure, Except.ok.injEq] at h
    subst h
    have ha := cutPoint_asked hc
    have hk : 0 ≤ k ∧ k ≤ d.numberElected := by unfold VotesAsked at ha; omega
    refine ⟨k, ?_, ha⟩
    generalize hsh : shuffle r.first d.ballotSelections = sh
    have hp : sh.Perm d.ballotSelections := hsh ▸ shuffle_perm _ _
    obtain ⟨l, l', h1, h2⟩ := explicitNoes_filter r.explicit 0 (sh.drop k.toNat)
    rw [h2]
    have hlast := shuffle_perm r.last ((sh.take k.toNat).map (fun s => selectionFrom s false true) ++ l.map (fun s => selectionFrom s false false))
    have hmem : ∀ s ∈ shuffle r.last ((sh.take k.toNat).map (fun s => selectionFrom s false true) ++ l.map (fun s => selectionFrom s false false)),
        ∃ d b, s = selectionFrom d false b := by
      intro s hs
      rcases List.mem_append.1 (hlast.subset hs) with h | h
      · obtain ⟨d, -, rfl⟩ := List.mem_map.1 h
        exact ⟨d, true, rfl⟩
      · obtain ⟨d, -, rfl⟩ := List.mem_map.1 h
        exact ⟨d, false, rfl⟩
    refine ⟨rfl, ⟨l'.map SelectionDescription.objectId, ?_⟩, ?_, ?_, ?_⟩
    · refine ((hlast.map PlaintextSelection.objectId).append_right _).trans ?_
      rw [List.map_append, List.map_map, List.map_map, List.append_assoc]
      show ((sh.take k.toNat).map SelectionDescription.objectId ++ (l.map SelectionDescription.objectId ++ l'.map SelectionDescription.objectId)).Perm _
      rw [← List.map_append, ← List.map_append]
      refine List.Perm.map _ (((h1.append_left _).trans ?_).trans hp)
      rw [List.take_append_drop]
    · unfold PlaintextContest.chosen
      rw [(hlast.filter _).length_eq, List.filter_append, List.length_append, chosen_yes, chosen_no, List.length_take]
      have := hp.length_eq
      simp only [List.length_nil]
      omega
    · intro s hs
      obtain ⟨d, b, rfl⟩ := hmem s hs
      cases b
      · exact Or.inl rfl
      · exact Or.inr rfl
    · intro s hs
      obtain ⟨d, b, rfl⟩ := hmem s hs
      exact ⟨rfl, rfl⟩

theorem getRandomContest_any {d : ContestWithPlaceholders} {an au : Bool} {c : PlaintextContest} (hval : d.isValid = true) {k : Int}
    (hm : c.Marked d k) (ha : VotesAsked an au d.numberElected k) (hs : d.numberElected = 0 → an = true ∨ au = false) :
    ∃ r, getRandomContest r d an au = .ok c := by
  obtain ⟨h0, hn⟩ := valid_seats hval
  obtain ⟨cut, hcut⟩ := cutPoint_any h0 ha hs
  obtain ⟨rest, hrest⟩ := hm.once
  obtain ⟨cid, sels⟩ := c
  obtain ⟨hid, -, hv, hb, hpl⟩ := hm
  simp only at hid hb hpl hrest
  subst hid
  have hsplit : (sels.filter (fun s => decide (0 < s.vote)) ++ sels.filter (fun s => !decide (0 < s.vote))).Perm sels :=
    List.filter_append_perm _ _
  generalize hys : sels.filter (fun s => decide (0 < s.vote)) = ys at hsplit
  generalize hns : sels.filter (fun s => !decide (0 < s.vote)) = ns at hsplit
  have hperm : (d.ballotSelections.map SelectionDescription.objectId).Perm
      (ys.map PlaintextSelection.objectId ++ (ns.map PlaintextSelection.objectId ++ rest)) := by
    refine hrest.symm.trans ?_
    rw [← List.append_assoc, ← List.map_append]
    exact (hsplit.symm.map _).append_right _
  obtain ⟨l', hl', hmap⟩ := perm_map_any SelectionDescription.objectId hperm _ rfl
  obtain ⟨as, l2, rfl, has, h2⟩ := List.map_eq_append_iff.1 hmap
  obtain ⟨bs, cs, rfl, hbs, hcs⟩ := List.map_eq_append_iff.1 h2
  have hyes : as.map (fun s => selectionFrom s false true) = ys := by
    have e : ys = ys.map (fun s => ⟨s.objectId, 1, false, none⟩) := by
      conv_lhs => rw [← List.map_id ys]
      refine List.map_congr_left (fun s hs => ?_)
      obtain ⟨hs1, hs2⟩ := List.mem_filter.1 (hys ▸ hs)
      obtain ⟨sid, v, ph, w⟩ := s
      have := hb _ hs1
      have := hpl _ hs1
      simp only [decide_eq_true_eq] at hs2
      simp only at this
      obtain ⟨rfl, rfl⟩ := this
      simp only [id_eq, PlaintextSelection.mk.injEq, and_true, true_and]
      simp only at *
      omega
    rw [e, show (fun s : PlaintextSelection => (⟨s.objectId, 1, false, none⟩ : PlaintextSelection))
      = (fun i => ⟨i, 1, false, none⟩) ∘ PlaintextSelection.objectId from rfl, ← List.map_map, ← has, List.map_map]
    rfl
  have hno : bs.map (fun s => selectionFrom s false false) = ns := by
    have e : ns = ns.map (fun s => ⟨s.objectId, 0, false, none⟩) := by
      conv_lhs => rw [← List.map_id ns]
      refine List.map_congr_left (fun s hs => ?_)
      obtain ⟨hs1, hs2⟩ := List.mem_filter.1 (hns ▸ hs)
      obtain ⟨sid, v, ph, w⟩ := s
      have := hb _ hs1
      have := hpl _ hs1
      simp only [Bool.not_eq_true', decide_eq_false_iff_not] at hs2
      simp only at this
      obtain ⟨rfl, rfl⟩ := this
      simp only [id_eq, PlaintextSelection.mk.injEq, and_true, true_and]
      simp only at *
      omega
    rw [e, show (fun s : PlaintextSelection => (⟨s.objectId, 0, false, none⟩ : PlaintextSelection))
      = (fun i => ⟨i, 0, false, none⟩) ∘ PlaintextSelection.objectId from rfl, ← List.map_map, ← hbs, List.map_map]
    rfl
  have hlen : k.toNat = as.length := by
    unfold PlaintextContest.chosen at hv
    simp only at hv
    rw [hys] at hv
    rw [← hv, ← hyes]
    simp
  obtain ⟨first, hf⟩ := shuffle_any hl'
  obtain ⟨last, hla⟩ := shuffle_any hsplit
  refine ⟨⟨first, cut, fun i => decide (i < bs.length), last⟩, ?_⟩
  unfold getRandomContest
  rw [if_neg (by rw [hval]; decide)]
  simp only [hcut, hf, bind, Except.bind, pure, Except.pure]
  have hex := explicitNoes_any bs cs 0
  rw [Nat.zero_add] at hex
  rw [hlen, List.take_left, List.drop_left, hex, hyes, hno, hla]

end EG
