import Verif.Model.ObjectBase
import Mathlib.Data.List.Nodup
import Mathlib.Data.List.Perm.Basic

/-!
# Lemmas about association-list dictionaries
-/

namespace EG

variable {κ α : Type} [DecidableEq κ]

theorem dget_nil (k : κ) : dget ([] : List (κ × α)) k = none := rfl

theorem dget_cons (e : κ × α) (d : List (κ × α)) (k : κ) :
    dget (e :: d) k = if e.1 = k then some e.2 else dget d k := by
  unfold dget
  rw [List.find?_cons]
  by_cases h : e.1 = k
  · simp [h]
  · have hb : (e.1 == k) = false := by simp [h]
    simp [h, hb]

theorem dget_append (d d' : List (κ × α)) (k : κ) :
    dget (d ++ d') k = (dget d k).or (dget d' k) := by
  induction d with
  | nil => simp [dget_nil]
  | cons e d ih =>
    rw [List.cons_append, dget_cons, dget_cons, ih]
    by_cases h : e.1 = k <;> simp [h]

theorem dget_eq_none_iff (d : List (κ × α)) (k : κ) : dget d k = none ↔ k ∉ dkeys d := by
  induction d with
  | nil => simp [dget_nil, dkeys]
  | cons e d ih =>
    rw [dget_cons]
    have : dkeys (e :: d) = e.1 :: dkeys d := rfl
    rw [this, List.mem_cons]
    by_cases h : e.1 = k
    · simp [h]
    · simp only [h, if_false, ih]
      constructor
      · intro hn hc
        rcases hc with hc | hc
        · exact h hc.symm
        · exact hn hc
      · intro hn hc; exact hn (Or.inr hc)

theorem mem_of_dget {d : List (κ × α)} {k : κ} {v : α} (h : dget d k = some v) : (k, v) ∈ d := by
  induction d with
  | nil => simp [dget_nil] at h
  | cons e d ih =>
    rw [dget_cons] at h
    by_cases hk : e.1 = k
    · simp only [hk, if_true, Option.some.injEq] at h
      have : e = (k, v) := by rw [← hk, ← h]
      simp [this]
    · simp only [hk, if_false] at h
      exact List.mem_cons_of_mem _ (ih h)

theorem dget_of_mem {d : List (κ × α)} (hd : (dkeys d).Nodup) {k : κ} {v : α} (h : (k, v) ∈ d) :
    dget d k = some v := by
  induction d with
  | nil => simp at h
  | cons e d ih =>
    have hk : dkeys (e :: d) = e.1 :: dkeys d := rfl
    rw [hk, List.nodup_cons] at hd
    rw [dget_cons]
    rcases List.mem_cons.1 h with h | h
    · simp [← h]
    · have : e.1 ≠ k := by
        intro hc
        apply hd.1
        rw [hc]
        exact List.mem_map_of_mem (f := Prod.fst) h
      simp [this, ih hd.2 h]

theorem dkeys_dset (d : List (κ × α)) (k : κ) (v : α) :
    dkeys (dset d k v) = if k ∈ dkeys d then dkeys d else dkeys d ++ [k] := by
  unfold dset
  by_cases h : k ∈ dkeys d
  · have h' : d.any (fun e => e.1 == k) = true := by
      obtain ⟨e, he, hk⟩ := List.mem_map.1 h
      exact List.any_eq_true.2 ⟨e, he, by simp [hk]⟩
    rw [if_pos h', if_pos h]
    unfold dkeys
    rw [List.map_map]
    apply List.map_congr_left
    intro e _
    by_cases hk : e.1 = k <;> simp [hk]
  · have h' : ¬ d.any (fun e => e.1 == k) = true := by
      intro hc
      obtain ⟨e, he, hk⟩ := List.any_eq_true.1 hc
      exact h (List.mem_map.2 ⟨e, he, by simpa using hk⟩)
    rw [if_neg h', if_neg h]
    simp [dkeys]

theorem dget_map_snd' {β : Type} (d : List (κ × α)) (f : κ × α → β) (k : κ) :
    dget (d.map (fun e => (e.1, f e))) k = (dget d k).map (fun v => f (k, v)) := by
  induction d with
  | nil => simp [dget_nil]
  | cons e d ih =>
    rw [List.map_cons, dget_cons, dget_cons, ih]
    obtain ⟨a, b⟩ := e
    by_cases h : a = k
    · subst h; simp
    · simp [h]

theorem dget_map_snd (d : List (κ × α)) (f : κ × α → α) (k : κ) :
    dget (d.map (fun e => (e.1, f e))) k = (dget d k).map (fun v => f (k, v)) := dget_map_snd' d f k

theorem dget_dset (d : List (κ × α)) (k k' : κ) (v : α) :
    dget (dset d k v) k' = if k = k' then some v else dget d k' := by
  unfold dset
  by_cases h : d.any (fun e => e.1 == k) = true
  · rw [if_pos h]
    have heq : d.map (fun e => if e.1 == k then (k, v) else e)
        = d.map (fun e => (e.1, if e.1 == k then v else e.2)) := by
      apply List.map_congr_left
      intro e _
      by_cases hk : e.1 = k
      · simp [hk]
      · simp [hk]
    rw [heq, dget_map_snd d (fun e => if e.1 == k then v else e.2)]
    by_cases hk : k = k'
    · subst hk
      simp only [beq_self_eq_true, if_true]
      obtain ⟨e, he, hke⟩ := List.any_eq_true.1 h
      cases hd : dget d k with
      | none =>
        rw [dget_eq_none_iff] at hd
        exact absurd (List.mem_map.2 ⟨e, he, by simpa using hke⟩) hd
      | some _ => rfl
    · have : ¬ k' = k := fun hc => hk hc.symm
      simp [hk, this]
  · rw [if_neg h, dget_append, dget_cons, dget_nil]
    by_cases hk : k = k'
    · subst hk
      have : dget d k = none := by
        rw [dget_eq_none_iff]
        intro hc
        obtain ⟨e, he, hke⟩ := List.mem_map.1 hc
        exact h (List.any_eq_true.2 ⟨e, he, by simp [hke]⟩)
      simp [this]
    · simp [hk]

theorem dget_ddel (d : List (κ × α)) (k k' : κ) :
    dget (ddel d k) k' = if k = k' then none else dget d k' := by
  unfold ddel
  induction d with
  | nil => simp [dget_nil]
  | cons e d ih =>
    rw [List.filter_cons]
    by_cases h : e.1 = k
    · simp only [h, beq_self_eq_true, Bool.not_true, Bool.false_eq_true, if_false]
      rw [ih, dget_cons]
      by_cases hk : k = k'
      · simp [hk]
      · have : ¬ e.1 = k' := by rw [h]; exact hk
        simp [hk, this]
    · have hb : (!(e.1 == k)) = true := by simp [h]
      rw [if_pos hb, dget_cons, dget_cons, ih]
      by_cases hk : k = k'
      · subst hk; simp [h]
      · simp [hk]

theorem dset_nodup {d : List (κ × α)} (h : (dkeys d).Nodup) (k : κ) (v : α) :
    (dkeys (dset d k v)).Nodup := by
  rw [dkeys_dset]
  split
  · exact h
  · rename_i hk
    rw [List.nodup_append]
    refine ⟨h, by simp, ?_⟩
    intro a ha b hb hab
    simp only [List.mem_singleton] at hb
    subst hb hab
    exact hk ha

theorem ddel_nodup {d : List (κ × α)} (h : (dkeys d).Nodup) (k : κ) : (dkeys (ddel d k)).Nodup := by
  unfold ddel dkeys
  exact List.Nodup.sublist (List.Sublist.map _ List.filter_sublist) h

theorem mem_dkeys_iff (d : List (κ × α)) (k : κ) : k ∈ dkeys d ↔ ∃ v, dget d k = some v := by
  constructor
  · intro h
    cases hd : dget d k with
    | none => exact absurd h ((dget_eq_none_iff d k).1 hd)
    | some v => exact ⟨v, rfl⟩
  · rintro ⟨v, hv⟩
    by_contra hc
    rw [(dget_eq_none_iff d k).2 hc] at hv
    cases hv

end EG
