import Verif.Lemmas.Json

/-!
# What `json.loads` returns
-/

namespace EG

mutual

/-- The keys of every object are different. -/
def Json.Distinct : Json → Prop
  | .arr xs => Json.DistinctItems xs
  | .obj kvs => (kvs.map Prod.fst).Nodup ∧ Json.DistinctMembers kvs
  | _ => True

/-- See `Json.Distinct`. -/
def Json.DistinctItems : List Json → Prop
  | [] => True
  | x :: xs => x.Distinct ∧ Json.DistinctItems xs

/-- See `Json.Distinct`. -/
def Json.DistinctMembers : List (String × Json) → Prop
  | [] => True
  | (_, v) :: ms => v.Distinct ∧ Json.DistinctMembers ms

end

theorem distinctItems_iff (xs : List Json) : Json.DistinctItems xs ↔ ∀ x ∈ xs, x.Distinct := by
  induction xs with
  | nil => simp [Json.DistinctItems]
  | cons x xs ih => simp [Json.DistinctItems, ih]

theorem distinctMembers_iff (ms : List (String × Json)) : Json.DistinctMembers ms ↔ ∀ m ∈ ms, m.2.Distinct := by
  induction ms with
  | nil => simp [Json.DistinctMembers]
  | cons m ms ih => obtain ⟨k, v⟩ := m; simp [Json.DistinctMembers, ih]

theorem numberRest_distinct {w t t' : List Char} {n : Int} {j : Json} (h : numberRest w n t = some (j, t')) : j.Distinct := by
  unfold numberRest at h
  simp only at h
  split at h
  · simp only [Option.some.injEq, Prod.mk.injEq] at h; rw [← h.1]; simp [Json.Distinct]
  · simp only [Option.some.injEq, Prod.mk.injEq] at h; rw [← h.1]; simp [Json.Distinct]

theorem parseDigits_distinct {w s t' : List Char} {n : Int} {j : Json} (h : parseDigits w n s = some (j, t')) : j.Distinct := by
  unfold parseDigits at h
  split at h
  · exact numberRest_distinct h
  · simp only [Option.some.injEq, Prod.mk.injEq] at h; rw [← h.1]; simp [Json.Distinct]
  · simp only at h
    split at h
    · cases h
    · exact numberRest_distinct h

theorem parseNumber_distinct {s t' : List Char} {j : Json} (h : parseNumber s = some (j, t')) : j.Distinct := by
  unfold parseNumber at h
  split at h
  · simp only [Option.some.injEq, Prod.mk.injEq] at h; rw [← h.1]; simp [Json.Distinct]
  · exact parseDigits_distinct h
  · exact parseDigits_distinct h

theorem dset_distinct {acc : List (String × Json)} {k : String} {x : Json} (h : (Json.obj acc).Distinct) (hx : x.Distinct) :
    (Json.obj (dset acc k x)).Distinct := by
  simp only [Json.Distinct, distinctMembers_iff] at h ⊢
  refine ⟨dset_nodup h.1 k x, fun m hm => ?_⟩
  rcases mem_dset hm with h' | h'
  · rw [h']; exact hx
  · exact h.2 m h'

/-- The three readers return values whose objects have different keys. -/
theorem parse_distinct (f : Nat) :
    (∀ s j t, parseValue f s = some (j, t) → j.Distinct) ∧
    (∀ acc s j t, (Json.arr acc).Distinct → parseItems f acc s = some (j, t) → j.Distinct) ∧
    (∀ acc s j t, (Json.obj acc).Distinct → parseMembers f acc s = some (j, t) → j.Distinct) := by
  induction f with
  | zero => refine ⟨fun s j t h => ?_, fun acc s j t _ h => ?_, fun acc s j t _ h => ?_⟩ <;> simp [parseValue, parseItems, parseMembers] at h
  | succ f ih =>
    obtain ⟨ih1, ih2, ih3⟩ := ih
    refine ⟨fun s j t h => ?_, fun acc s j t ha h => ?_, fun acc s j t ha h => ?_⟩
    · unfold parseValue at h
      split at h
      · split at h
        · cases h
        · simp only [Option.some.injEq, Prod.mk.injEq] at h; rw [← h.1]; simp [Json.Distinct]
      · split at h
        · simp only [Option.some.injEq, Prod.mk.injEq] at h; rw [← h.1]; simp [Json.Distinct, Json.DistinctMembers]
        · exact ih3 _ _ _ _ (by simp [Json.Distinct, Json.DistinctMembers]) h
      · split at h
        · simp only [Option.some.injEq, Prod.mk.injEq] at h; rw [← h.1]; simp [Json.Distinct, Json.DistinctItems]
        · exact ih2 _ _ _ _ (by simp [Json.Distinct, Json.DistinctItems]) h
      · simp only [Option.some.injEq, Prod.mk.injEq] at h; rw [← h.1]; simp [Json.Distinct]
      · simp only [Option.some.injEq, Prod.mk.injEq] at h; rw [← h.1]; simp [Json.Distinct]
      · simp only [Option.some.injEq, Prod.mk.injEq] at h; rw [← h.1]; simp [Json.Distinct]
      · exact parseNumber_distinct h
    · unfold parseItems at h
      split at h
      · cases h
      · rename_i x t' hx
        have hx' := ih1 _ _ _ hx
        have ha' : (Json.arr (acc ++ [x])).Distinct := by
          simp only [Json.Distinct, distinctItems_iff] at ha ⊢
          intro y hy
          rcases List.mem_append.1 hy with h' | h'
          · exact ha y h'
          · rw [List.mem_singleton.1 h']; exact hx'
        split at h
        · simp only [Option.some.injEq, Prod.mk.injEq] at h; rw [← h.1]; exact ha'
        · exact ih2 _ _ _ _ ha' h
        · cases h
    · unfold parseMembers at h
      split at h
      · split at h
        · cases h
        · split at h
          · split at h
            · cases h
            · rename_i x t3 hx
              have ha' := fun k => dset_distinct (k := k) ha (ih1 _ _ _ hx)
              split at h
              · simp only [Option.some.injEq, Prod.mk.injEq] at h; rw [← h.1]; exact ha' _
              · exact ih3 _ _ _ _ (ha' _) h
              · cases h
          · cases h
      · cases h

/-- Whatever `json.loads` returns, its objects have different keys. -/
theorem jsonLoads_distinct {s : List Char} {j : Json} (h : jsonLoads s = .ok j) : j.Distinct := by
  unfold jsonLoads at h
  split at h
  · cases h
  · rename_i j' t hj
    split at h
    · cases h; exact (parse_distinct _).1 _ _ _ hj
    · cases h

end EG
