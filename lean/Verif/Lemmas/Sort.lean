import Verif.Model.ObjectBase
import Mathlib.Data.String.Basic
import Mathlib.Data.List.Perm.Basic
import Mathlib.Data.List.Nodup
import Mathlib.Data.List.Sort

/-!
# Lemmas about the modelled `sorted`
-/

namespace EG

variable {α κ : Type} [LinearOrder κ]

/-- A stable sort by a key. -/
def keySort (k : α → κ) (l : List α) : List α := stableSort (fun a b => decide (k a ≤ k b)) l

/-- The order on objects given by a key. -/
def keyLE (k : α → κ) (a b : α) : Prop := k a ≤ k b

instance (k : α → κ) : DecidableRel (keyLE k) := fun a b => inferInstanceAs (Decidable (k a ≤ k b))

instance (k : α → κ) : Std.Total (keyLE k) := ⟨fun a b => le_total (k a) (k b)⟩

instance (k : α → κ) : IsTrans α (keyLE k) := ⟨fun _ _ _ h h' => le_trans (α := κ) h h'⟩

theorem insertBy_eq (k : α → κ) (x : α) (l : List α) :
    insertBy (fun a b => decide (k a ≤ k b)) x l = l.orderedInsert (keyLE k) x := by
  induction l with
  | nil => rfl
  | cons y ys ih =>
    rw [insertBy, List.orderedInsert_cons, ih]
    by_cases h : k x ≤ k y
    · rw [if_pos (by simpa using h), if_pos (show keyLE k x y from h)]
    · rw [if_neg (by simpa using h), if_neg (show ¬ keyLE k x y from h)]

theorem keySort_eq (k : α → κ) (l : List α) : keySort k l = l.insertionSort (keyLE k) := by
  unfold keySort
  induction l with
  | nil => rfl
  | cons x xs ih =>
    rw [stableSort, insertBy_eq, ih, List.insertionSort_cons]

theorem keySort_perm (k : α → κ) (l : List α) : (keySort k l).Perm l := by
  rw [keySort_eq]; exact List.perm_insertionSort _ _

theorem keySort_sorted (k : α → κ) (l : List α) : (keySort k l).Pairwise (fun a b => k a ≤ k b) := by
  rw [keySort_eq]; exact List.pairwise_insertionSort (keyLE k) l

theorem keySort_stable (k : α → κ) (l : List α) (v : κ) :
    (keySort k l).filter (fun a => decide (k a = v)) = l.filter (fun a => decide (k a = v)) := by
  have hs : (l.filter (fun a => decide (k a = v))).Sublist (keySort k l) := by
    rw [keySort_eq]
    apply List.sublist_insertionSort _ List.filter_sublist
    rw [List.pairwise_filter]
    apply List.pairwise_of_forall
    intro a b ha hb
    simp only [decide_eq_true_eq] at ha hb
    simp only [keyLE, ha, hb, le_refl]
  have hs' := hs.filter (fun a => decide (k a = v))
  rw [List.filter_filter] at hs'
  simp only [Bool.and_self] at hs'
  refine (hs'.eq_of_length ?_).symm
  exact ((keySort_perm k l).filter _).length_eq.symm

theorem keySort_eq_of_perm (k : α → κ) {l l' : List α} (h : l.Perm l') (hk : (l.map k).Nodup) :
    keySort k l = keySort k l' := by
  refine List.Perm.eq_of_pairwise (le := fun a b => k a ≤ k b) ?_ (keySort_sorted k l) (keySort_sorted k l')
    ((keySort_perm k l).trans (h.trans (keySort_perm k l').symm))
  intro a b ha hb hab hba
  have ha' : a ∈ l := (keySort_perm k l).mem_iff.1 ha
  have hb' : b ∈ l := h.mem_iff.2 ((keySort_perm k l').mem_iff.1 hb)
  exact List.inj_on_of_nodup_map hk ha' hb' (le_antisymm hab hba)

theorem keySort_of_sorted (k : α → κ) {l : List α} (h : l.Pairwise (fun a b => k a ≤ k b)) :
    keySort k l = l := by
  rw [keySort_eq]
  exact List.Pairwise.insertionSort_eq (r := keyLE k) h

theorem sortByInt_eq (k : α → Int) (l : List α) : sortByInt k l = keySort k l := rfl

theorem sortByStr_eq (k : α → String) (l : List α) : sortByStr k l = keySort k l := rfl

theorem stableSort_map {β : Type} (f : α → β) (le : β → β → Bool) (l : List α) :
    stableSort le (l.map f) = (stableSort (fun a b => le (f a) (f b)) l).map f := by
  have hi : ∀ (x : α) (l : List α),
      insertBy le (f x) (l.map f) = (insertBy (fun a b => le (f a) (f b)) x l).map f := by
    intro x l
    induction l with
    | nil => rfl
    | cons y l ih => simp only [List.map_cons, insertBy]; split <;> simp [ih]
  induction l with
  | nil => rfl
  | cons x l ih => simp only [List.map_cons, stableSort, ih, hi]

end EG
