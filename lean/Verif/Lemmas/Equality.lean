import Mathlib.Data.List.Forall2
import Mathlib.Data.List.Perm.Basic
import Verif.Model.Equality
import Verif.Spec.Equality
import Verif.Lemmas.Sort

/-!
# Lemmas about `list_eq`
-/

namespace EG

theorem eqLists_iff {α : Type} (eq : α → α → Bool) (l l' : List α) :
    eqLists eq l l' = true ↔ List.Forall₂ (fun a b => eq a b = true) l l' := by
  induction l generalizing l' with
  | nil => cases l' <;> simp [eqLists]
  | cons x xs ih => cases l' <;> simp [eqLists, ih]

theorem forall₂_eq_iff {α : Type} (l l' : List α) : List.Forall₂ (fun a b => a = b) l l' ↔ l = l' := by
  constructor
  · intro h
    induction h with
    | nil => rfl
    | cons h _ ih => rw [h, ih]
  · rintro rfl
    exact List.forall₂_same.2 (fun _ _ => rfl)

theorem listEqWith_same {α : Type} {eq : α → α → Bool} {R : α → α → Prop} {k : α → String} {l l' : List α}
    (hR : ∀ a b, eq a b = true → R a b) (h : listEqWith eq k l l' = true) : SameUpTo R l l' := by
  rw [listEqWith, eqLists_iff, sortByStr_eq, sortByStr_eq] at h
  have h' : List.Forall₂ R (keySort k l) (keySort k l') := h.imp hR
  obtain ⟨m, hm, hp⟩ := List.perm_comp_forall₂ (keySort_perm k l).symm h'
  exact ⟨m, hp.trans (keySort_perm k l'), hm⟩

theorem insertBy_forall₂ {α : Type} {R : α → α → Prop} {k : α → String} (hk : ∀ a b, R a b → k a = k b) {x y : α}
    (hxy : R x y) {l l' : List α} (h : List.Forall₂ R l l') :
    List.Forall₂ R (insertBy (fun a b => decide (k a ≤ k b)) x l) (insertBy (fun a b => decide (k a ≤ k b)) y l') := by
  induction h with
  | nil => exact .cons hxy .nil
  | @cons a b as bs hab hr ih =>
    simp only [insertBy, hk _ _ hxy, hk _ _ hab]
    split
    · exact .cons hxy (.cons hab hr)
    · exact .cons hab ih

theorem sortByStr_forall₂ {α : Type} {R : α → α → Prop} {k : α → String} (hk : ∀ a b, R a b → k a = k b)
    {l l' : List α} (h : List.Forall₂ R l l') : List.Forall₂ R (sortByStr k l) (sortByStr k l') := by
  induction h with
  | nil => exact .nil
  | cons hab _ ih => exact insertBy_forall₂ hk hab ih

theorem sortByStr_perm_eq {α : Type} {k : α → String} {l l' : List α} (h : l.Perm l') (hn : (l.map k).Nodup) :
    sortByStr k l = sortByStr k l' := by
  rw [sortByStr_eq, sortByStr_eq]; exact keySort_eq_of_perm k h hn

theorem listEqWith_iff {α : Type} {eq : α → α → Bool} {R : α → α → Prop} {k : α → String} {l l' : List α}
    (hR : ∀ a b, eq a b = true ↔ R a b) (hk : ∀ a b, R a b → k a = k b) (hn : (l'.map k).Nodup) :
    listEqWith eq k l l' = true ↔ SameUpTo R l l' := by
  constructor
  · exact listEqWith_same (fun a b => (hR a b).1)
  · rintro ⟨m, hp, hf⟩
    rw [listEqWith, eqLists_iff, ← sortByStr_perm_eq hp ((hp.map k).nodup_iff.2 hn)]
    exact (sortByStr_forall₂ hk hf).imp (fun a b => (hR a b).2)

theorem listEqWith_eq_perm {α : Type} [DecidableEq α] {k : α → String} {l l' : List α}
    (h : listEqWith (fun x y => decide (x = y)) k l l' = true) : l.Perm l' := by
  obtain ⟨m, hp, hf⟩ := listEqWith_same (R := fun a b => a = b) (fun a b => by simp) h
  rw [forall₂_eq_iff] at hf
  exact hf ▸ hp

theorem listEqWith_eq_iff {α : Type} [DecidableEq α] {k : α → String} {l l' : List α} (hn : (l.map k).Nodup) :
    listEqWith (fun x y => decide (x = y)) k l l' = true ↔ l.Perm l' := by
  refine ⟨listEqWith_eq_perm, fun h => ?_⟩
  rw [listEqWith, eqLists_iff, sortByStr_perm_eq h hn]
  exact List.forall₂_same.2 (fun _ _ => by simp)

theorem eqLists_refl {α : Type} {eq : α → α → Bool} (h : ∀ a, eq a a = true) (l : List α) : eqLists eq l l = true :=
  (eqLists_iff _ _ _).2 (List.forall₂_same.2 (fun a _ => h a))

theorem listEqWith_refl {α : Type} {eq : α → α → Bool} {k : α → String} (h : ∀ a, eq a a = true) (l : List α) :
    listEqWith eq k l l = true := eqLists_refl h _

theorem listEqWith_symm {α : Type} {eq : α → α → Bool} {k : α → String}
    (h : ∀ a b, eq a b = true → eq b a = true) {l l' : List α} (hl : listEqWith eq k l l' = true) :
    listEqWith eq k l' l = true := by
  rw [listEqWith, eqLists_iff] at hl ⊢
  exact hl.flip.imp (fun a b hab => h b a hab)

theorem forall₂_trans' {α : Type} {R : α → α → Prop} (h : ∀ a b c, R a b → R b c → R a c) {l₁ l₂ : List α}
    (h₁ : List.Forall₂ R l₁ l₂) : ∀ {l₃ : List α}, List.Forall₂ R l₂ l₃ → List.Forall₂ R l₁ l₃ := by
  induction h₁ with
  | nil => intro l₃ h₂; cases h₂; exact .nil
  | cons hab _ ih => intro l₃ h₂; cases h₂ with | cons hbc hr => exact .cons (h _ _ _ hab hbc) (ih hr)

theorem listEqWith_trans {α : Type} {eq : α → α → Bool} {k : α → String}
    (h : ∀ a b c, eq a b = true → eq b c = true → eq a c = true) {l₁ l₂ l₃ : List α}
    (h₁ : listEqWith eq k l₁ l₂ = true) (h₂ : listEqWith eq k l₂ l₃ = true) : listEqWith eq k l₁ l₃ = true := by
  rw [listEqWith, eqLists_iff] at *
  exact forall₂_trans' h h₁ h₂

theorem listEqWith_perm {α : Type} {eq : α → α → Bool} {k : α → String} (h : ∀ a, eq a a = true) {l l' : List α}
    (hp : l.Perm l') (hn : (l.map k).Nodup) : listEqWith eq k l l' = true := by
  rw [listEqWith, sortByStr_perm_eq hp hn]
  exact eqLists_refl h _

theorem listEqWith_decide_refl {α : Type} [DecidableEq α] {k : α → String} (l : List α) :
    listEqWith (fun x y => decide (x = y)) k l l = true := listEqWith_refl (by simp) l

theorem listEqWith_decide_symm {α : Type} [DecidableEq α] {k : α → String} {l l' : List α}
    (h : listEqWith (fun x y => decide (x = y)) k l l' = true) :
    listEqWith (fun x y => decide (x = y)) k l' l = true :=
  listEqWith_symm (fun a b => by simpa using Eq.symm) h

theorem listEqWith_decide_trans {α : Type} [DecidableEq α] {k : α → String} {l₁ l₂ l₃ : List α}
    (h₁ : listEqWith (fun x y => decide (x = y)) k l₁ l₂ = true)
    (h₂ : listEqWith (fun x y => decide (x = y)) k l₂ l₃ = true) :
    listEqWith (fun x y => decide (x = y)) k l₁ l₃ = true :=
  listEqWith_trans (fun a b c => by simpa using Eq.trans) h₁ h₂

/-- Equal lists whose ids are the same, in the same order and distinct, are equal position by position. -/
theorem listEqWith_aligned {α : Type} {eq : α → α → Bool} {k : α → String} {l l' : List α}
    (h : listEqWith eq k l l' = true) (hk : l.map k = l'.map k) (hn : (l.map k).Nodup) :
    List.Forall₂ (fun a b => eq a b = true ∧ k a = k b) l l' := by
  -- the sorted lists of pairs
  have hz : (l.zip l').map Prod.fst = l := by
    rw [List.map_fst_zip]; exact (le_of_eq (by simpa using congrArg List.length hk))
  have hz' : (l.zip l').map Prod.snd = l' := by
    rw [List.map_snd_zip]; exact (le_of_eq (by simpa using (congrArg List.length hk).symm))
  have hkey : List.Forall₂ (fun a b => k a = k b) l l' := by
    have : List.Forall₂ (fun a b : String => a = b) (l.map k) (l'.map k) := (forall₂_eq_iff _ _).2 hk
    simpa [List.forall₂_map_left_iff, List.forall₂_map_right_iff] using this
  have hpair : ∀ e ∈ l.zip l', k e.1 = k e.2 := by
    intro e he
    exact (List.forall₂_iff_zip.1 hkey).2 he
  have hs1 : sortByStr k l = (sortByStr (fun e : α × α => k e.1) (l.zip l')).map Prod.fst := by
    conv_lhs => rw [← hz]
    unfold sortByStr
    rw [stableSort_map]
  have hs2 : sortByStr k l' = (sortByStr (fun e : α × α => k e.2) (l.zip l')).map Prod.snd := by
    conv_lhs => rw [← hz']
    unfold sortByStr
    rw [stableSort_map]
  have hn1 : ((l.zip l').map (fun e => k e.1)).Nodup := by
    have : (l.zip l').map (fun e => k e.1) = l.map k := by
      conv_rhs => rw [← hz]
      rw [List.map_map]; rfl
    rw [this]; exact hn
  have hss : sortByStr (fun e : α × α => k e.1) (l.zip l') = sortByStr (fun e : α × α => k e.2) (l.zip l') := by
    have hp1 := keySort_perm (fun e : α × α => k e.1) (l.zip l')
    have hp2 := keySort_perm (fun e : α × α => k e.2) (l.zip l')
    rw [sortByStr_eq, sortByStr_eq]
    refine (hp1.trans hp2.symm).eq_of_pairwise (le := fun a b => k a.1 ≤ k b.1) ?_
      (keySort_sorted _ _) ?_
    · intro a b ha hb hab hba
      exact List.inj_on_of_nodup_map hn1 (hp1.mem_iff.1 ha) (hp2.mem_iff.1 hb) (le_antisymm hab hba)
    · refine (keySort_sorted (fun e : α × α => k e.2) (l.zip l')).imp_of_mem ?_
      intro a b ha hb hab
      rw [hpair a (hp2.mem_iff.1 ha), hpair b (hp2.mem_iff.1 hb)]
      exact hab
  rw [listEqWith, eqLists_iff, hs1, hs2, ← hss] at h
  have hall : ∀ e ∈ sortByStr (fun e : α × α => k e.1) (l.zip l'), eq e.1 e.2 = true := by
    have h' : List.Forall₂ (fun a b : α × α => eq a.1 b.2 = true) (sortByStr (fun e : α × α => k e.1) (l.zip l'))
        (sortByStr (fun e : α × α => k e.1) (l.zip l')) := by
      simpa [List.forall₂_map_left_iff, List.forall₂_map_right_iff] using h
    exact List.forall₂_same.1 h'
  have hall' : ∀ e ∈ l.zip l', eq e.1 e.2 = true := fun e he =>
    hall e ((by rw [sortByStr_eq]; exact (keySort_perm _ _).mem_iff.2 he))
  refine List.forall₂_iff_zip.2 ⟨by simpa using congrArg List.length hk, ?_⟩
  intro a b hab
  exact ⟨hall' _ hab, hpair _ hab⟩

end EG
