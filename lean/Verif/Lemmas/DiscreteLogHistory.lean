import Verif.Spec.DiscreteLog
import Verif.Lemmas.DiscreteLog

/-!
# Helper lemmas: invariants of lookup histories and of concurrent tasks
-/

namespace EG

variable {P : Params}

/-- Invariant of every history: the cache holds exactly the exponents `0..n`, for an `n` below every
limit that was in force. -/
theorem dlogRun_inv (hv : P.Valid) (hq : dlogSystemMax < P.q) (ops : List DLogOp) (s : DLogState)
    (L : Nat) (hL : s.maxExponent ≤ L) (hc : ∃ n ≤ dlogSystemMax, n ≤ L ∧ s.cache = canon P n) :
    ∃ n ≤ dlogSystemMax, n ≤ limitOf L ops ∧ (dlogRun P s ops).cache = canon P n ∧
      (dlogRun P s ops).maxExponent ≤ limitOf L ops := by
  induction ops generalizing s L with
  | nil => obtain ⟨n, h1, h2, h3⟩ := hc; exact ⟨n, h1, h2, h3, hL⟩
  | cons op ops ih =>
    obtain ⟨n, h1, h2, h3⟩ := hc
    simp only [dlogRun, limitOf, List.foldl_cons]
    cases op with
    | setMax m => exact ih _ (max L m) (by simp [dlogStep]) ⟨n, h1, by omega, h3⟩
    | setLazy b => exact ih _ L hL ⟨n, h1, h2, h3⟩
    | precompute m =>
      obtain ⟨n', g1, g2, g3, g4⟩ := precompute_canon hv hq h1
        (if m > s.maxExponent then s.maxExponent else m)
      refine ih _ L hL ⟨n', g3, ?_, ?_⟩
      · split at g2 <;> omega
      · simp only [dlogStep]; rw [h3]; exact g4
    | precomputeAsync m => exact ih _ L hL ⟨n, h1, h2, h3⟩
    | log x =>
      obtain ⟨n', g1, g2, g3, g4, _⟩ := computeDlog_canon hv hq h1 x s.maxExponent s.lazy
      refine ih _ L hL ⟨n', g3, by omega, ?_⟩
      simp only [dlogStep]; rw [h3]; exact g4

/-- Invariant of the system of tasks. -/
structure SysInv (P : Params) (maxE : Nat) (lazy : Bool) (s : Sys) : Prop where
  cache : ∃ n < P.q, s.cache = canon P n ∧ n ≤ dlogSystemMax
  /-- a task in the fill loop works at the end of the cache -/
  fill : ∀ (i x m e : Nat), s.tasks[i]? = some (TaskState.filling x m e) →
    maxE ≤ dlogSystemMax ∧ lazy = true ∧ e ≤ maxE ∧ m = gPowP P e ∧ s.cache = canon P e ∧
      ∀ j < e, gPowP P j ≠ x
  /-- mutual exclusion -/
  excl : ∀ (i j : Nat) (t u : TaskState), s.tasks[i]? = some t → s.tasks[j]? = some u →
    t.holds = true → u.holds = true → i = j
  lock : s.lock = false → ∀ t ∈ s.tasks, t.holds = false
  done : ∀ (x : Nat) (r : R Nat), TaskState.done x r ∈ s.tasks → resultOK P maxE lazy x r

theorem sysInv_step (hv : P.Valid) (hq : dlogSystemMax < P.q) (maxE : Nat) (lazy : Bool) (s : Sys)
    (h : SysInv P maxE lazy s) (i : Nat) : SysInv P maxE lazy (sysStep P maxE lazy s i) := by
  obtain ⟨⟨n, hn, hc, hns⟩, hfill, hexcl, hlock, hdone⟩ := h
  -- replacing task `i` by a task that does not hold the lock
  have mem_set : ∀ {t u : TaskState}, u ∈ s.tasks.set i t → u = t ∨ u ∈ s.tasks := by
    intro t u hu
    rcases List.mem_or_eq_of_mem_set hu with h | h
    · exact Or.inr h
    · exact Or.inl h
  have get_set : ∀ {t u : TaskState} {j : Nat}, (s.tasks.set i t)[j]? = some u →
      (j = i ∧ u = t) ∨ (j ≠ i ∧ s.tasks[j]? = some u) := by
    intro t u j hu
    rw [List.getElem?_set] at hu
    split at hu
    · next hij =>
      split at hu
      · left; exact ⟨hij.symm, (Option.some.inj hu).symm⟩
      · cases hu
    · next hij => right; exact ⟨fun h => hij h.symm, hu⟩
  have nohold : ∀ (told t : TaskState) (l : Bool), s.tasks[i]? = some told → t.holds = false →
      (told.holds = true ∨ l = s.lock) → (l = s.lock ∨ l = false) →
      (∀ (x : Nat) (r : R Nat), t = .done x r → resultOK P maxE lazy x r) →
      SysInv P maxE lazy { s with lock := l, tasks := s.tasks.set i t } := by
    intro told t l hold ht hl hl2 hr
    refine ⟨⟨n, hn, hc, hns⟩, ?_, ?_, ?_, ?_⟩
    · intro j x m e hj
      rcases get_set hj with ⟨_, rfl⟩ | ⟨_, hj⟩
      · simp [TaskState.holds] at ht
      · exact hfill j x m e hj
    · intro j k t1 t2 hj hk h1 h2
      rcases get_set hj with ⟨_, rfl⟩ | ⟨_, hj⟩
      · rw [ht] at h1; cases h1
      · rcases get_set hk with ⟨_, rfl⟩ | ⟨_, hk⟩
        · rw [ht] at h2; cases h2
        · exact hexcl j k t1 t2 hj hk h1 h2
    · intro hlf u hu
      obtain ⟨j, hj⟩ := List.mem_iff_getElem?.1 hu
      rcases get_set hj with ⟨_, rfl⟩ | ⟨hji, hj⟩
      · exact ht
      · rcases hl with hl | hl
        · by_contra hh
          simp only [Bool.not_eq_false] at hh
          exact hji (hexcl j i u told hj hold hh hl)
        · exact hlock (by rw [← hl]; exact hlf) u (List.mem_iff_getElem?.2 ⟨j, hj⟩)
    · intro x r hx
      rcases mem_set hx with h | h
      · exact hr x r h.symm
      · exact hdone x r h
  unfold sysStep
  split
  · exact ⟨⟨n, hn, hc, hns⟩, hfill, hexcl, hlock, hdone⟩
  · exact ⟨⟨n, hn, hc, hns⟩, hfill, hexcl, hlock, hdone⟩
  · next x hi =>
    split
    · next e he =>
      rw [hc] at he
      obtain ⟨h1, h2⟩ := canon_get_some he
      refine nohold _ (.done x (.ok e)) s.lock hi rfl (Or.inr rfl) (Or.inl rfl) ?_
      intro x' r' hh; cases hh; exact ⟨h2, by omega⟩
    · refine nohold _ (.waiting x) s.lock hi rfl (Or.inr rfl) (Or.inl rfl) ?_
      intro x' r' hh; cases hh
  · next x hi =>
    split
    · exact ⟨⟨n, hn, hc, hns⟩, hfill, hexcl, hlock, hdone⟩
    · next hl =>
      simp only [Bool.not_eq_true] at hl
      have hl' := hlock hl
      refine ⟨⟨n, hn, hc, hns⟩, ?_, ?_, ?_, ?_⟩
      · intro j x' m e hj
        rcases get_set hj with ⟨_, h⟩ | ⟨_, hj⟩
        · cases h
        · exact hfill j x' m e hj
      · intro j k t1 t2 hj hk h1 h2
        rcases get_set hj with ⟨rfl, _⟩ | ⟨_, hj⟩
        · rcases get_set hk with ⟨rfl, _⟩ | ⟨_, hk⟩
          · rfl
          · rw [hl' t2 (List.mem_iff_getElem?.2 ⟨k, hk⟩)] at h2; cases h2
        · rw [hl' t1 (List.mem_iff_getElem?.2 ⟨j, hj⟩)] at h1; cases h1
      · intro h; cases h
      · intro x' r hx
        rcases mem_set hx with h | h
        · cases h
        · exact hdone x' r h
  · next x hi =>
    split
    · next e he =>
      rw [hc] at he
      obtain ⟨h1, h2⟩ := canon_get_some he
      refine nohold _ (.done x (.ok e)) false hi rfl (Or.inl rfl) (Or.inr rfl) ?_
      intro x' r' hh; cases hh; exact ⟨h2, by omega⟩
    · next hg =>
      rw [hc] at hg
      have hne := canon_get_none hv hn hg
      split
      · next hlz =>
        refine nohold _ _ false hi rfl (Or.inl rfl) (Or.inr rfl) ?_
        intro x' r' hh; cases hh
        simpa [resultOK] using hlz
      · next hlz =>
        have hlz' : lazy = true := by simpa using hlz
        split
        · next hmx =>
          refine nohold _ _ false hi rfl (Or.inl rfl) (Or.inr rfl) ?_
          intro x' r' hh; cases hh; exact ⟨hlz', Or.inl hmx⟩
        · next hmx =>
          rw [hc, canon_getLast]
          simp only
          split
          · next hgt =>
            have key := nohold (.locked x) (.done x (.error .dlogExponent)) false hi rfl (Or.inl rfl)
              (Or.inr rfl) (by
                intro x' r' hh; cases hh
                exact ⟨hlz', Or.inr (fun m hm => hne m (by omega))⟩)
            simpa [hc] using key
          · next hle =>
            refine ⟨⟨n, hn, rfl, hns⟩, ?_, ?_, ?_, ?_⟩
            · intro j x' m e hj
              rcases get_set hj with ⟨_, h⟩ | ⟨hji, hj⟩
              · cases h
                exact ⟨by omega, hlz', by omega, rfl, rfl, fun j hj => hne j (by omega)⟩
              · exact absurd (hexcl j i _ _ hj hi rfl rfl) hji
            · intro j k t1 t2 hj hk h1 h2
              rcases get_set hj with ⟨rfl, _⟩ | ⟨hji, hj⟩
              · rcases get_set hk with ⟨rfl, _⟩ | ⟨hki, hk⟩
                · rfl
                · exact absurd (hexcl k _ _ _ hk hi h2 rfl) hki
              · exact absurd (hexcl j i _ _ hj hi h1 rfl) hji
            · intro hl
              have := hlock hl _ (List.mem_iff_getElem?.2 ⟨i, hi⟩)
              cases this
            · intro x' r hx
              rcases mem_set hx with h | h
              · cases h
              · exact hdone x' r h
  · next x m e hi =>
    obtain ⟨f1, f2, f3, f4, f5, f6⟩ := hfill i x m e hi
    split
    · next hxm =>
      have hget : dGet s.cache x = some e := by
        rw [f5, hxm, f4]; exact canon_get hv (le_refl _) (by omega)
      rw [hget]
      refine nohold _ (.done x (.ok e)) false hi rfl (Or.inl rfl) (Or.inr rfl) ?_
      intro x' r' hh; cases hh
      exact ⟨by rw [hxm, f4]; rfl, by omega⟩
    · next hxm =>
      split
      · next hgt =>
        refine nohold _ _ false hi rfl (Or.inl rfl) (Or.inr rfl) ?_
        intro x' r' hh; cases hh
        refine ⟨f2, Or.inr ?_⟩
        intro j hj hx
        rcases Nat.lt_or_ge j e with h | h
        · exact f6 j h hx
        · have : j = e := by omega
          subst this; exact hxm (by rw [f4]; exact hx.symm)
      · next hle =>
        have hm' : multP P P.g m = gPowP P (e + 1) := by rw [f4, gPowP_succ hv.one_lt_p]
        have hset : dSet s.cache (multP P P.g m) (e + 1) = canon P (e + 1) := by
          rw [f5, hm', canon_set hv (by omega)]
        simp only [hset]
        refine ⟨⟨e + 1, by omega, rfl, by omega⟩, ?_, ?_, ?_, ?_⟩
        · intro j x' m' e' hj
          rcases get_set hj with ⟨_, h⟩ | ⟨hji, hj⟩
          · cases h
            refine ⟨f1, f2, by omega, hm', rfl, ?_⟩
            intro j hj hx
            rcases Nat.lt_or_ge j e with h | h
            · exact f6 j h hx
            · have : j = e := by omega
              subst this; exact hxm (by rw [f4]; exact hx.symm)
          · exact absurd (hexcl j i _ _ hj hi rfl rfl) hji
        · intro j k t1 t2 hj hk h1 h2
          rcases get_set hj with ⟨rfl, _⟩ | ⟨hji, hj⟩
          · rcases get_set hk with ⟨rfl, _⟩ | ⟨hki, hk⟩
            · rfl
            · exact absurd (hexcl k _ _ _ hk hi h2 rfl) hki
          · exact absurd (hexcl j i _ _ hj hi h1 rfl) hji
        · intro hl
          have := hlock hl _ (List.mem_iff_getElem?.2 ⟨i, hi⟩)
          cases this
        · intro x' r hx
          rcases mem_set hx with h | h
          · cases h
          · exact hdone x' r h

theorem sysStep_elements (s : Sys) (maxE : Nat) (lazy : Bool) (i : Nat) :
    (sysStep P maxE lazy s i).tasks.map TaskState.element = s.tasks.map TaskState.element := by
  have key : ∀ (told t : TaskState), s.tasks[i]? = some told → t.element = told.element →
      (s.tasks.set i t).map TaskState.element = s.tasks.map TaskState.element := by
    intro told t hold he
    rw [List.map_set, he]
    apply List.ext_getElem?
    intro j
    rw [List.getElem?_set]
    split
    · next hij =>
      subst hij
      rw [List.getElem?_map, hold]
      have : i < s.tasks.length := by
        rw [List.getElem?_eq_some_iff] at hold; exact hold.1
      simp [this]
    · rfl
  unfold sysStep
  split
  · rfl
  · rfl
  · next x hi => split <;> exact key _ _ hi rfl
  · next x hi =>
    split
    · rfl
    · exact key _ _ hi rfl
  · next x hi =>
    split
    · exact key _ _ hi rfl
    · split
      · exact key _ _ hi rfl
      · split
        · exact key _ _ hi rfl
        · split
          · exact key _ _ hi rfl
          · split <;> exact key _ _ hi rfl
  · next x m e hi =>
    split
    · split <;> exact key _ _ hi rfl
    · split
      · exact key _ _ hi rfl
      · exact key _ _ hi rfl

end EG
