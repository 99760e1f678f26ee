import Verif.Spec.Record
import Mathlib.Data.List.Induction

/-!
# Records of calls
-/

namespace EG

/-- If every call either puts something on record or leaves the record alone, the record is what was put there last. -/
theorem record_iff {σ ο α : Type} (run : List ο → σ) (step : σ → ο → σ) (Inv : σ → Prop)
    (hrun : ∀ ops op, run (ops ++ [op]) = step (run ops) op) (get : σ → Option α)
    (puts : σ → ο → Option α → Prop) (h0 : get (run []) = none) (hinv : ∀ ops, Inv (run ops))
    (hput : ∀ s op r, Inv s → puts s op r → get (step s op) = r)
    (hkeep : ∀ s op, Inv s → (∀ r, ¬ puts s op r) → get (step s op) = get s) (ops : List ο) (a : α) :
    get (run ops) = some a ↔ LastPut run puts ops a := by
  induction ops using List.reverseRecOn with
  | nil =>
    constructor
    · intro h
      rw [h0] at h; cases h
    · rintro ⟨b, op, c, h, -⟩
      simp at h
  | append_singleton ops op ih =>
    rw [hrun]
    by_cases hp : ∃ r, puts (run ops) op r
    · obtain ⟨r, hr⟩ := hp
      rw [hput _ _ _ (hinv _) hr]
      constructor
      · rintro rfl
        exact ⟨ops, op, [], rfl, hr, fun mid op' rest r h => by simp at h⟩
      · rintro ⟨b, op', c, h, h1, h2⟩
        rcases List.eq_nil_or_concat c with rfl | ⟨c', x, rfl⟩
        · obtain ⟨rfl, hx⟩ := List.append_inj' h rfl
          cases hx
          exact (hput _ _ _ (hinv _) hr).symm.trans (hput _ _ _ (hinv _) h1)
        · have h' : ops ++ [op] = (b ++ op' :: c') ++ [x] := by simpa using h
          obtain ⟨rfl, hx⟩ := List.append_inj' h' rfl
          cases hx
          exact absurd hr (h2 c' op [] r (by simp))
    · rw [not_exists] at hp
      rw [hkeep _ _ (hinv _) hp, ih]
      constructor
      · rintro ⟨b, op', c, rfl, h1, h2⟩
        refine ⟨b, op', c ++ [op], by simp, h1, fun mid op'' rest r h => ?_⟩
        rcases List.eq_nil_or_concat rest with rfl | ⟨rest', x, rfl⟩
        · obtain ⟨rfl, hx⟩ := List.append_inj' h rfl
          cases hx
          exact hp r
        · have h' : c ++ [op] = (mid ++ op'' :: rest') ++ [x] := by simpa using h
          obtain ⟨rfl, hx⟩ := List.append_inj' h' rfl
          exact h2 mid op'' rest' r rfl
      · rintro ⟨b, op', c, h, h1, h2⟩
        rcases List.eq_nil_or_concat c with rfl | ⟨c', x, rfl⟩
        · obtain ⟨rfl, hx⟩ := List.append_inj' h rfl
          cases hx
          exact absurd h1 (hp _)
        · have h' : ops ++ [op] = (b ++ op' :: c') ++ [x] := by simpa using h
          obtain ⟨rfl, hx⟩ := List.append_inj' h' rfl
          refine ⟨b, op', c', rfl, h1, fun mid op'' rest r hm => ?_⟩
          exact h2 mid op'' (rest ++ [x]) r (by simp [hm])

/-- The last of the messages of a pair, if there is one. -/
theorem last_split {β κ : Type} [DecidableEq κ] (f : β → κ) (pair : κ) (l : List β) :
    (∀ x ∈ l, f x ≠ pair) ∨ ∃ before b after, l = before ++ b :: after ∧ f b = pair ∧ ∀ x ∈ after, f x ≠ pair := by
  induction l with
  | nil => left; simp
  | cons a l ih =>
    rcases ih with h | ⟨x, b, y, rfl, h1, h2⟩
    · by_cases ha : f a = pair
      · right; exact ⟨[], a, l, rfl, ha, h⟩
      · left; exact List.forall_mem_cons.2 ⟨ha, h⟩
    · right; exact ⟨a :: x, b, y, rfl, h1, h2⟩

end EG
