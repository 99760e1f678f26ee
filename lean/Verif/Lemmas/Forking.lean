import Verif.Props.Forgery
import Mathlib.Algebra.Order.BigOperators.Ring.Finset

/-!
# Running a program again with one other hash

If the program succeeds for many hash functions, then for many of them it succeeds again, with a proof for the same text, when the hash of
that text is replaced by another one.
-/

namespace EG

open Finset

/-- The program asks for this text. -/
def Asking.Asked {α : Type} (s : Text → Nat) (t : Text) : Asking α → Prop
  | .shows _ => False
  | .asks u next => u = t ∨ (next (s u)).Asked s t

/-- Whether it does so does not depend on the hash of the text. -/
theorem asked_update {α : Type} (s : Text → Nat) (t : Text) (v : Nat) (A : Asking α) :
    A.Asked (Function.update s t v) t ↔ A.Asked s t := by
  induction A with
  | shows a => exact Iff.rfl
  | asks u next ih =>
    rw [Asking.Asked, Asking.Asked]
    by_cases h : u = t
    · simp [h]
    · rw [Function.update_of_ne h, ih]

open Classical in
theorem card_asked {α : Type} (s : Text → Nat) (T : Finset Text) (A : Asking α) (n : Nat) (hn : A.AtMost n) :
    (T.filter fun t => A.Asked s t).card ≤ n := by
  induction A generalizing n with
  | shows a =>
    have : T.filter (fun t => Asking.Asked s t (.shows a)) = ∅ := filter_eq_empty_iff.2 fun _ _ h => h
    rw [this]; simp
  | asks u next ih =>
    cases n with
    | zero => exact absurd hn (by simp [Asking.AtMost])
    | succ n =>
      have h := ih (s u) n (hn (s u))
      have hsub : T.filter (fun t => Asking.Asked s t (.asks u next)) ⊆ insert u (T.filter fun t => (next (s u)).Asked s t) := by
        intro t ht
        rw [mem_filter, Asking.Asked] at ht
        rw [mem_insert, mem_filter]
        rcases ht.2 with h | h
        · exact Or.inl h.symm
        · exact Or.inr ⟨ht.1, h⟩
      exact (card_le_card hsub).trans ((card_insert_le _ _).trans (Nat.succ_le_succ h))

theorem askTexts_asked {α : Type} (s : Text → Nat) (a : α) (ts : List Text) (t : Text) (ht : t ∈ ts) : (askTexts a ts).Asked s t := by
  induction ts with
  | nil => cases ht
  | cons u ts ih =>
    rw [askTexts, Asking.Asked]
    rcases List.mem_cons.1 ht with h | h
    · exact Or.inl h.symm
    · exact Or.inr (ih h)

theorem thenAsk_asked {α : Type} (s : Text → Nat) (texts : α → List Text) (A : Asking α) (t : Text) (ht : t ∈ texts (A.run s)) :
    (A.thenAsk texts).Asked s t := by
  induction A with
  | shows a => exact askTexts_asked s a _ t ht
  | asks u next ih => exact Or.inr (ih (s u) ht)

/-- A random function is a random function elsewhere and one random value. -/
theorem sum_oracles {β : Type} [AddCommMonoid β] (f : Text → Nat) (T : Finset Text) (M : Nat) (t : Text) (ht : t ∈ T)
    (φ : (Text → Nat) → β) :
    ∑ s ∈ oracles f T M, φ s = ∑ s ∈ oracles f (T.erase t) M, ∑ v ∈ range M, φ (Function.update s t v) := by
  rw [← sum_product']
  refine sum_nbij' (fun s => (Function.update s t (f t), s t)) (fun x => Function.update x.1 t x.2) ?_ ?_ ?_ ?_ ?_
  · intro s hs
    obtain ⟨h1, h2⟩ := mem_oracles.1 hs
    rw [mem_product, mem_oracles, mem_range]
    refine ⟨⟨fun u hu => ?_, fun u hu => ?_⟩, h1 t ht⟩
    · obtain ⟨hu, huT⟩ := mem_erase.1 hu
      simp only [Function.update_of_ne hu]; exact h1 u huT
    · by_cases h : u = t
      · subst h; exact Function.update_self ..
      · simp only [Function.update_of_ne h]
        exact h2 u fun hT => hu (mem_erase.2 ⟨h, hT⟩)
  · rintro ⟨s, v⟩ hx
    rw [mem_product, mem_oracles, mem_range] at hx
    obtain ⟨⟨h1, h2⟩, hv⟩ := hx
    refine mem_oracles.2 ⟨fun u hu => ?_, fun u hu => ?_⟩
    · by_cases h : u = t
      · subst h; simp only [Function.update_self]; exact hv
      · simp only [Function.update_of_ne h]; exact h1 u (mem_erase.2 ⟨h, hu⟩)
    · have h : u ≠ t := fun h => hu (h ▸ ht)
      simp only [Function.update_of_ne h]
      exact h2 u fun hT => hu (mem_of_mem_erase hT)
  · intro s _
    simp
  · rintro ⟨s, v⟩ hx
    rw [mem_product, mem_oracles] at hx
    have := hx.1.2 t (notMem_erase t T)
    simp [← this]
  · intro s _
    simp

open Classical in
/-- The runs that succeed, and the pairs of runs that succeed with proofs for one text and hashes that differ modulo `q`. -/
theorem forking {α : Type} (q M : Nat) (text : α → Text) (good : (Text → Nat) → α → Prop) (A : Asking α)
    [DecidablePred fun s => good s (A.run s)] (n : Nat) (hn : A.AtMost n) (f : Text → Nat) (T : Finset Text) (hT : ∀ s ∈ oracles f T M, good s (A.run s) → text (A.run s) ∈ T) :
    M * ((oracles f T M).filter fun s => good s (A.run s)).card ^ 2
      ≤ (n + 1) * (oracles f T M).card *
        (((oracles f T M ×ˢ range M).filter fun x =>
            let t := text (A.run x.1)
            let s' := Function.update x.1 t x.2
            good x.1 (A.run x.1) ∧ good s' (A.run s') ∧ text (A.run s') = t ∧ x.1 t % q ≠ x.2 % q).card
          + (M / q + 1) * ((oracles f T M).filter fun s => good s (A.run s)).card) := by
  let B := A.thenAsk fun a => [text a]
  have hB : B.AtMost (n + 1) := thenAsk_atMost _ 1 A n hn fun _ _ => le_rfl
  let win : Text → (Text → Nat) → Prop := fun t s => good s (A.run s) ∧ text (A.run s) = t
  have hask : ∀ t s, win t s → B.Asked s t := fun t s h => thenAsk_asked s _ A t (by simp [h.2])
  let O' := fun t => oracles f (T.erase t) M
  let k : Text → (Text → Nat) → Nat := fun t s => ((range M).filter fun v => win t (Function.update s t v)).card
  let a : Text → (Text → Nat) → Nat := fun t s => if B.Asked s t then 1 else 0
  set S := ((oracles f T M).filter fun s => good s (A.run s)).card with hS
  set X := ((oracles f T M ×ˢ range M).filter fun x =>
      let t := text (A.run x.1)
      let s' := Function.update x.1 t x.2
      good x.1 (A.run x.1) ∧ good s' (A.run s') ∧ text (A.run s') = t ∧ x.1 t % q ≠ x.2 % q).card with hX
  -- the runs that succeed, text by text
  have eS : S = ∑ t ∈ T, ∑ s ∈ O' t, k t s := by
    have h1 : S = ∑ t ∈ T, ((oracles f T M).filter fun s => win t s).card := by
      rw [hS, card_eq_sum_card_fiberwise (f := fun s => text (A.run s)) (t := T)]
      · refine sum_congr rfl fun t _ => ?_
        congr 1
        ext s
        simp only [mem_filter, win, and_assoc]
      · intro s hs
        rw [mem_coe, mem_filter] at hs
        exact hT s hs.1 hs.2
    rw [h1]
    refine sum_congr rfl fun t ht => ?_
    rw [card_filter, sum_oracles f T M t ht]
    refine sum_congr rfl fun s _ => ?_
    simp only [k, card_filter]
  -- the pairs, text by text
  have eX : ∑ t ∈ T, ∑ s ∈ O' t, (((range M) ×ˢ (range M)).filter fun x : Nat × Nat =>
      win t (Function.update s t x.1) ∧ win t (Function.update s t x.2) ∧ x.1 % q ≠ x.2 % q).card ≤ X := by
    have h1 : ∑ t ∈ T, ((oracles f T M ×ˢ range M).filter fun x =>
        win t x.1 ∧ win t (Function.update x.1 t x.2) ∧ x.1 t % q ≠ x.2 % q).card ≤ X := by
      rw [← card_biUnion]
      · refine card_le_card fun x hx => ?_
        obtain ⟨t, -, hx⟩ := mem_biUnion.1 hx
        rw [mem_filter] at hx ⊢
        obtain ⟨hx, ⟨h1, h2⟩, ⟨h3, h4⟩, h5⟩ := hx
        refine ⟨hx, ?_⟩
        simp only [h2]
        exact ⟨h1, h3, h4, h5⟩
      · intro t _ t' _ hne
        refine disjoint_left.2 fun x hx hx' => hne ?_
        rw [mem_filter] at hx hx'
        exact hx.2.1.2.symm.trans hx'.2.1.2
    refine le_trans (le_of_eq ?_) h1
    refine sum_congr rfl fun t ht => ?_
    rw [card_filter, sum_product, sum_oracles f T M t ht]
    refine sum_congr rfl fun s _ => ?_
    rw [card_filter, sum_product]
    refine sum_congr rfl fun v _ => sum_congr rfl fun w _ => ?_
    simp only [Function.update_idem, Function.update_self]
  -- one text
  have hk : ∀ t s, k t s ^ 2 ≤ (((range M) ×ˢ (range M)).filter fun x : Nat × Nat =>
      win t (Function.update s t x.1) ∧ win t (Function.update s t x.2) ∧ x.1 % q ≠ x.2 % q).card + (M / q + 1) * k t s := by
    intro t s
    set W := (range M).filter fun v => win t (Function.update s t v) with hW
    have e : k t s ^ 2 = (W ×ˢ W).card := by rw [card_product, sq]
    rw [e, ← card_filter_add_card_filter_not (s := W ×ˢ W) (fun x => x.1 % q ≠ x.2 % q)]
    refine Nat.add_le_add (card_le_card fun x hx => ?_) ?_
    · rw [mem_filter, mem_product, hW, mem_filter, mem_filter] at hx
      rw [mem_filter, mem_product]
      exact ⟨⟨hx.1.1.1, hx.1.2.1⟩, hx.1.1.2, hx.1.2.2, hx.2⟩
    · rw [card_filter, sum_product]
      have : ∀ v ∈ W, (∑ w ∈ W, if ¬ v % q ≠ w % q then 1 else 0) ≤ M / q + 1 := by
        intro v _
        rw [← card_filter]
        refine card_residues M q (v % q) _ fun w hw => ?_
        rw [mem_filter, hW, mem_filter, mem_range] at hw
        exact ⟨hw.1.1, (not_not.1 hw.2).symm⟩
      refine (sum_le_sum this).trans ?_
      rw [sum_const, smul_eq_mul, mul_comm]
  -- only texts that are asked for
  have hak : ∀ t s, k t s = a t s * k t s := by
    intro t s
    by_cases h : B.Asked s t
    · simp [a, h]
    · have : k t s = 0 := by
        refine card_eq_zero.2 (filter_eq_empty_iff.2 fun v _ hw => h ?_)
        exact (asked_update s t v B).1 (hask t _ hw)
      simp [this]
  have hasum : M * ∑ t ∈ T, ∑ s ∈ O' t, a t s ≤ (n + 1) * (oracles f T M).card := by
    have h1 : M * ∑ t ∈ T, ∑ s ∈ O' t, a t s = ∑ t ∈ T, ∑ s ∈ oracles f T M, (if B.Asked s t then 1 else 0) := by
      rw [mul_sum]
      refine sum_congr rfl fun t ht => ?_
      rw [sum_oracles f T M t ht, mul_sum]
      refine sum_congr rfl fun s _ => ?_
      simp only [asked_update, sum_const, card_range, smul_eq_mul, a]
    rw [h1, sum_comm]
    have h2 : ∀ s ∈ oracles f T M, (∑ t ∈ T, if B.Asked s t then 1 else 0) ≤ n + 1 := by
      intro s _
      rw [← card_filter]
      exact card_asked s T B (n + 1) hB
    refine (sum_le_sum h2).trans ?_
    rw [sum_const, smul_eq_mul, mul_comm]
  -- the inequality of Cauchy and Schwarz
  have hcs : (∑ t ∈ T, ∑ s ∈ O' t, a t s * k t s) ^ 2
      ≤ (∑ t ∈ T, ∑ s ∈ O' t, a t s) * ∑ t ∈ T, ∑ s ∈ O' t, k t s ^ 2 := by
    have h := sum_mul_sq_le_sq_mul_sq (T.sigma O') (fun x => a x.1 x.2) (fun x => k x.1 x.2)
    rw [sum_sigma, sum_sigma, sum_sigma] at h
    have ha : ∀ t s, a t s ^ 2 = a t s := by
      intro t s
      simp only [a]
      split <;> rfl
    simpa only [ha] using h
  have hk2 : ∑ t ∈ T, ∑ s ∈ O' t, k t s ^ 2 ≤ X + (M / q + 1) * S := by
    rw [eS, mul_sum]
    refine le_trans (sum_le_sum fun t _ => sum_le_sum fun s _ => hk t s) ?_
    simp only [sum_add_distrib, ← mul_sum]
    exact Nat.add_le_add_right eX _
  have e2 : ∑ t ∈ T, ∑ s ∈ O' t, a t s * k t s = S := by
    rw [eS]
    exact sum_congr rfl fun t _ => sum_congr rfl fun s _ => (hak t s).symm
  rw [e2] at hcs
  calc M * S ^ 2 ≤ M * ((∑ t ∈ T, ∑ s ∈ O' t, a t s) * ∑ t ∈ T, ∑ s ∈ O' t, k t s ^ 2) := Nat.mul_le_mul_left _ hcs
    _ = (M * ∑ t ∈ T, ∑ s ∈ O' t, a t s) * ∑ t ∈ T, ∑ s ∈ O' t, k t s ^ 2 := by ring
    _ ≤ _ := Nat.mul_le_mul hasum hk2

end EG
