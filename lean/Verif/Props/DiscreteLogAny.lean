import Verif.Spec.Mid
import Verif.Lemmas.DiscreteLogHistory

/-!
# C26, C27 in any group

The theorems of `Props/DiscreteLog.lean` are for groups with more elements than the limit on exponents.  In a smaller group the cache can
come round: entries are overwritten by larger exponents of the same elements.  An answer is then still an exponent of the element, and every
element that has an exponent up to the limit is still answered, but the answer need not be the least exponent (`C26_small_group_fails`).
-/

namespace EG

variable {P : Params}

theorem dGet_mem {c : DCache} {k v : Nat} (h : dGet c k = some v) : (k, v) ∈ c := by
  unfold dGet at h
  obtain ⟨e, he, rfl⟩ := Option.map_eq_some_iff.1 h
  have h1 := List.find?_some he
  have : e.1 = k := by simpa using h1
  rw [← this]
  exact List.mem_of_find?_eq_some he

theorem dSet_mem {c : DCache} {k v : Nat} {e : Nat × Nat} (h : e ∈ dSet c k v) : e = (k, v) ∨ e ∈ c := by
  induction c with
  | nil => left; simpa [dSet] using h
  | cons a c ih =>
    unfold dSet at h
    split at h
    · rcases List.mem_cons.1 h with h | h
      · exact .inl h
      · exact .inr (List.mem_cons_of_mem _ h)
    · rcases List.mem_cons.1 h with h | h
      · exact .inr (h ▸ List.mem_cons_self)
      · exact (ih h).imp_right (List.mem_cons_of_mem _)

theorem dSet_get (c : DCache) (k v k' : Nat) : dGet (dSet c k v) k' = if k = k' then some v else dGet c k' := by
  induction c with
  | nil => by_cases h : k = k' <;> simp [dSet, dGet, h]
  | cons a c ih =>
    by_cases ha : a.1 = k
    · by_cases h : k = k'
      · simp [dSet, dGet, ha, h]
      · have : a.1 ≠ k' := by rw [ha]; exact h
        simp [dSet, dGet, ha, h]
    · by_cases h' : a.1 = k'
      · have hk : k ≠ k' := fun e => ha (by rw [h', e])
        simp [dSet, dGet, h', hk, Ne.symm hk]
      · have e1 : dGet (a :: c) k' = dGet c k' := by simp [dGet, h']
        have e2 : dGet (dSet (a :: c) k v) k' = dGet (dSet c k v) k' := by simp [dSet, dGet, h', ha]
        rw [e1, e2, ih]

theorem dSet_ne_nil (c : DCache) (k v : Nat) : dSet c k v ≠ [] := by
  cases c with
  | nil => simp [dSet]
  | cons a c => unfold dSet; split <;> simp

/-- All entries are exponents within the system's limit. -/
def Right (P : Params) (c : DCache) : Prop := ∀ e ∈ c, P.g ^ e.2 % P.p = e.1 ∧ e.2 ≤ dlogSystemMax

/-- Every power of the generator is a key. -/
def Full (P : Params) (c : DCache) : Prop := ∀ j, ∃ v, dGet c (gPowP P j) = some v

/-- The cache, with the exponent at which a loop stands. -/
structure CacheAt (P : Params) (c : DCache) (e : Nat) : Prop where
  right : Right P c
  ne : c ≠ []
  shape : (c = canon P e ∧ e < P.q) ∨ Full P c

theorem canon_full (hv : P.Valid) : Full P (canon P (P.q - 1)) := by
  intro j
  refine ⟨j % P.q, ?_⟩
  have hq := hv.one_lt_q
  have : gPowP P j = gPowP P (j % P.q) := by
    rw [← castP_inj (gPowP_lt hv.p_pos _) (gPowP_lt hv.p_pos _), gPowP_cast, gPowP_cast, g_pow_inj hv]
    simp
  rw [this]
  exact canon_get hv (by have := Nat.mod_lt j (by omega : 0 < P.q); omega) (by omega)

theorem Full.set {c : DCache} (h : Full P c) (k v : Nat) : Full P (dSet c k v) := by
  intro j
  rw [dSet_get]
  split
  · exact ⟨_, rfl⟩
  · exact h j

/-- One turn of a loop. -/
theorem CacheAt.step (hv : P.Valid) {c : DCache} {e : Nat} (h : CacheAt P c e) (he : e + 1 ≤ dlogSystemMax) :
    CacheAt P (dSet c (gPowP P (e + 1)) (e + 1)) (e + 1) := by
  refine ⟨?_, dSet_ne_nil _ _ _, ?_⟩
  · intro x hx
    rcases dSet_mem hx with rfl | hx
    · exact ⟨rfl, he⟩
    · exact h.right x hx
  · rcases h.shape with ⟨rfl, hq⟩ | hf
    · by_cases hlt : e + 1 < P.q
      · exact .inl ⟨canon_set hv hlt, hlt⟩
      · right
        have : e = P.q - 1 := by omega
        subst this
        exact (canon_full hv).set _ _
    · exact .inr (hf.set _ _)

/-- The last entry is where a loop starts. -/
theorem CacheAt.last {c : DCache} {e : Nat} (h : CacheAt P c e) : ∃ m n, c.getLast? = some (m, n) ∧ m = gPowP P n ∧ n ≤ dlogSystemMax ∧
    CacheAt P c n := by
  obtain ⟨m, n⟩ := c.getLast h.ne
  have hl : c.getLast? = some (c.getLast h.ne) := List.getLast?_eq_some_getLast h.ne
  have hmem := List.getLast_mem h.ne
  obtain ⟨h1, h2⟩ := h.right _ hmem
  refine ⟨(c.getLast h.ne).1, (c.getLast h.ne).2, hl, h1.symm, h2, h.right, h.ne, ?_⟩
  rcases h.shape with ⟨hc, hq⟩ | hf
  · left
    have h3 := canon_getLast (P := P) e
    rw [← hc, hl] at h3
    have h4 := Option.some.inj h3
    rw [h4]
    exact ⟨hc, hq⟩
  · exact .inr hf

/-- What is at the loop's exponent is a key. -/
theorem CacheAt.get (hv : P.Valid) {c : DCache} {e : Nat} (h : CacheAt P c e) {j : Nat} (hj : j ≤ e) : ∃ v, dGet c (gPowP P j) = some v := by
  rcases h.shape with ⟨rfl, hq⟩ | hf
  · exact ⟨j, canon_get hv hj hq⟩
  · exact hf j

theorem fillLoop_any (hv : P.Valid) (x : Nat) : ∀ (fuel : Nat) (c : DCache) (e : Nat), CacheAt P c e → e + fuel ≤ dlogSystemMax →
    (∃ e', CacheAt P (fillLoop P x fuel c (gPowP P e) e).2 e') ∧
    (∀ k v, dGet c k = some v → ∃ v', dGet (fillLoop P x fuel c (gPowP P e) e).2 k = some v') ∧
    match (fillLoop P x fuel c (gPowP P e) e).1 with
    | .ok _ => ∃ v, dGet (fillLoop P x fuel c (gPowP P e) e).2 x = some v
    | .error err => err = .dlogExponent ∧ ∀ j, e ≤ j → j ≤ e + fuel → gPowP P j ≠ x := by
  intro fuel
  induction fuel with
  | zero =>
    intro c e h _
    unfold fillLoop
    by_cases hx : x = gPowP P e
    · rw [if_pos hx]
      exact ⟨⟨e, h⟩, fun k v hk => ⟨v, hk⟩, by rw [hx]; exact h.get hv (le_refl _)⟩
    · rw [if_neg hx]
      refine ⟨⟨e, h⟩, fun k v hk => ⟨v, hk⟩, rfl, fun j h1 h2 => ?_⟩
      have : j = e := by omega
      subst this
      exact fun h => hx h.symm
  | succ f ih =>
    intro c e h hf
    unfold fillLoop
    by_cases hx : x = gPowP P e
    · rw [if_pos hx]
      exact ⟨⟨e, h⟩, fun k v hk => ⟨v, hk⟩, by rw [hx]; exact h.get hv (le_refl _)⟩
    · rw [if_neg hx]
      simp only [gPowP_succ hv.one_lt_p]
      obtain ⟨h1, h2, h3⟩ := ih _ (e + 1) (h.step hv (by omega)) (by omega)
      refine ⟨h1, fun k v hk => ?_, ?_⟩
      · have : ∃ v, dGet (dSet c (gPowP P (e + 1)) (e + 1)) k = some v := by
          rw [dSet_get]; split
          · exact ⟨_, rfl⟩
          · exact ⟨v, hk⟩
        obtain ⟨v', hv'⟩ := this
        exact h2 k v' hv'
      · revert h3
        split
        · exact id
        · rintro ⟨g1, g2⟩
          refine ⟨g1, fun j a b => ?_⟩
          by_cases hj : j = e
          · subst hj; exact fun h => hx h.symm
          · exact g2 j (by omega) (by omega)

theorem precomputeLoop_any (hv : P.Valid) : ∀ (fuel : Nat) (c : DCache) (e : Nat), CacheAt P c e → e + fuel ≤ dlogSystemMax →
    (∃ e', CacheAt P (precomputeLoop P fuel c (gPowP P e) e) e') ∧
    (∀ k v, dGet c k = some v → ∃ v', dGet (precomputeLoop P fuel c (gPowP P e) e) k = some v') := by
  intro fuel
  induction fuel with
  | zero => intro c e h _; exact ⟨⟨e, h⟩, fun k v hk => ⟨v, hk⟩⟩
  | succ f ih =>
    intro c e h hf
    unfold precomputeLoop
    simp only [gPowP_succ hv.one_lt_p]
    obtain ⟨h1, h2⟩ := ih _ (e + 1) (h.step hv (by omega)) (by omega)
    refine ⟨h1, fun k v hk => ?_⟩
    have : ∃ v, dGet (dSet c (gPowP P (e + 1)) (e + 1)) k = some v := by
      rw [dSet_get]; split
      · exact ⟨_, rfl⟩
      · exact ⟨v, hk⟩
    obtain ⟨v', hv'⟩ := this
    exact h2 k v' hv'

/-- What one lookup does in any group. -/
theorem computeDlog_any (hv : P.Valid) {c : DCache} {e : Nat} (h : CacheAt P c e) (x maxE : Nat) (lazy : Bool) :
    (∃ e', CacheAt P (computeDlog P x c maxE lazy).2 e') ∧
    (∀ k v, dGet c k = some v → ∃ v', dGet (computeDlog P x c maxE lazy).2 k = some v') ∧
    match (computeDlog P x c maxE lazy).1 with
    | .ok m => P.g ^ m % P.p = x ∧ m ≤ dlogSystemMax ∧ ∃ v, dGet (computeDlog P x c maxE lazy).2 x = some v
    | .error .dlogNotFound => lazy = false ∧ dGet c x = none
    | .error .dlogExponent => lazy = true ∧ dGet c x = none ∧ (dlogSystemMax < maxE ∨ ∀ j ≤ maxE, P.g ^ j % P.p ≠ x)
    | .error _ => False := by
  unfold computeDlog
  cases hx : dGet c x with
  | some m =>
    obtain ⟨h1, h2⟩ := h.right _ (dGet_mem hx)
    exact ⟨⟨e, h⟩, fun k v hk => ⟨v, hk⟩, h1, h2, m, hx⟩
  | none =>
    dsimp only
    cases lazy with
    | false => exact ⟨⟨e, h⟩, fun k v hk => ⟨v, hk⟩, rfl, rfl⟩
    | true =>
      rw [if_neg (by simp)]
      unfold fillCache
      by_cases hm : maxE > dlogSystemMax
      · rw [if_pos hm]
        exact ⟨⟨e, h⟩, fun k v hk => ⟨v, hk⟩, rfl, rfl, .inl hm⟩
      · rw [if_neg hm]
        obtain ⟨m, n, hl, rfl, hn, hat⟩ := h.last
        have below : ∀ j ≤ n, gPowP P j ≠ x := by
          intro j hj hjx
          obtain ⟨v, hv'⟩ := hat.get hv hj
          rw [hjx, hx] at hv'
          cases hv'
        rw [hl]
        dsimp only
        by_cases hgt : n > maxE
        · rw [if_pos hgt]
          exact ⟨⟨e, h⟩, fun k v hk => ⟨v, hk⟩, rfl, rfl, .inr (fun j hj => below j (by omega))⟩
        · rw [if_neg hgt]
          obtain ⟨h1, h2, h3⟩ := fillLoop_any hv x (maxE - n) c n hat (by omega)
          cases hr : fillLoop P x (maxE - n) c (gPowP P n) n with
          | mk r c' =>
            rw [hr] at h1 h2 h3
            cases r with
            | error err =>
              obtain ⟨rfl, g⟩ := h3
              refine ⟨h1, h2, rfl, rfl, .inr (fun j hj => ?_)⟩
              by_cases hjn : j ≤ n
              · exact below j hjn
              · exact g j (by omega) (by omega)
            | ok u =>
              obtain ⟨v, hg⟩ := h3
              dsimp only at hg h1 h2 ⊢
              rw [hg]
              obtain ⟨e', he'⟩ := h1
              obtain ⟨g1, g2⟩ := he'.right _ (dGet_mem hg)
              exact ⟨⟨e', he'⟩, h2, g1, g2, v, hg⟩

theorem precompute_any (hv : P.Valid) {c : DCache} {e : Nat} (h : CacheAt P c e) (n : Nat) :
    (∃ e', CacheAt P (precompute P n c).2 e') ∧ ∀ k v, dGet c k = some v → ∃ v', dGet (precompute P n c).2 k = some v' := by
  unfold precompute
  by_cases hm : n > dlogSystemMax
  · rw [if_pos hm]; exact ⟨⟨e, h⟩, fun k v hk => ⟨v, hk⟩⟩
  · rw [if_neg hm]
    obtain ⟨m, n', hl, rfl, hn, hat⟩ := h.last
    rw [hl]
    dsimp only
    split
    · exact ⟨⟨e, h⟩, fun k v hk => ⟨v, hk⟩⟩
    · exact precomputeLoop_any hv _ c n' hat (by omega)

/-- One operation. -/
theorem dlogStep_any (hv : P.Valid) (op : DLogOp) {s : DLogState} (h : ∃ e, CacheAt P s.cache e) :
    (∃ e, CacheAt P (dlogStep P s op).2.cache e) ∧
    ∀ k v, dGet s.cache k = some v → ∃ v', dGet (dlogStep P s op).2.cache k = some v' := by
  obtain ⟨e, he⟩ := h
  cases op with
  | setMax n => exact ⟨⟨e, he⟩, fun k v hk => ⟨v, hk⟩⟩
  | setLazy b => exact ⟨⟨e, he⟩, fun k v hk => ⟨v, hk⟩⟩
  | precompute n => exact precompute_any hv he _
  | precomputeAsync n => exact ⟨⟨e, he⟩, fun k v hk => ⟨v, hk⟩⟩
  | log x =>
    obtain ⟨h1, h2, -⟩ := computeDlog_any hv he x s.maxExponent s.lazy
    exact ⟨h1, h2⟩

theorem dlogRun_any (hv : P.Valid) : ∀ (ops : List DLogOp) (s : DLogState), (∃ e, CacheAt P s.cache e) →
    (∃ e, CacheAt P (dlogRun P s ops).cache e) ∧
    ∀ k v, dGet s.cache k = some v → ∃ v', dGet (dlogRun P s ops).cache k = some v' := by
  intro ops
  induction ops with
  | nil => intro s h; exact ⟨h, fun k v hk => ⟨v, hk⟩⟩
  | cons op ops ih =>
    intro s h
    obtain ⟨h1, h2⟩ := dlogStep_any hv op h
    obtain ⟨h3, h4⟩ := ih _ h1
    refine ⟨h3, fun k v hk => ?_⟩
    obtain ⟨v', hv'⟩ := h2 k v hk
    exact h4 k v' hv'

theorem initial_any (hv : P.Valid) : ∃ e, CacheAt P dlogInitial e := by
  have hp := hv.one_lt_p
  have hq := hv.one_lt_q
  refine ⟨0, ?_, by simp [dlogInitial], .inl ⟨(canon_zero hp).symm, by omega⟩⟩
  intro e he
  have := List.mem_singleton.1 he
  subst this
  exact ⟨gPowP_zero hp, Nat.zero_le _⟩

/-- C26 In every group, after every history (including failing calls): an answer is an exponent of the element; every element with an
exponent up to the limit is answered; otherwise the call raises one of the two errors of the module. -/
theorem C26_any_group (hv : P.Valid) (ops : List DLogOp) (x : Nat) :
    match (dlogStep P (dlogRun P {} ops) (.log x)).1 with
    | some (.ok m) => P.g ^ m % P.p = x ∧ m ≤ dlogSystemMax
    | some (.error .dlogNotFound) => (dlogRun P {} ops).lazy = false
    | some (.error .dlogExponent) => (dlogRun P {} ops).lazy = true ∧
        (dlogSystemMax < (dlogRun P {} ops).maxExponent ∨ ∀ m ≤ (dlogRun P {} ops).maxExponent, P.g ^ m % P.p ≠ x)
    | _ => False := by
  obtain ⟨⟨e, he⟩, -⟩ := dlogRun_any hv ops {} (initial_any hv)
  obtain ⟨-, -, h⟩ := computeDlog_any hv he x (dlogRun P {} ops).maxExponent (dlogRun P {} ops).lazy
  revert h
  unfold dlogStep
  dsimp only
  generalize (computeDlog P x (dlogRun P {} ops).cache (dlogRun P {} ops).maxExponent (dlogRun P {} ops).lazy).1 = r
  match r with
  | .ok m => exact fun h => ⟨h.1, h.2.1⟩
  | .error .dlogNotFound => exact fun h => h.1
  | .error .dlogExponent => exact fun h => ⟨h.1, h.2.2⟩
  | .error .overflow | .error .assertion | .error .zeroDiv | .error .value | .error .type | .error .index | .error .key | .error .truncation
  | .error .recursion | .error .attribute => exact fun h => h

/-- C26 In every group: an element that was answered once is answered after any further operations, whatever the limit and laziness. -/
theorem C26_stays_answered (hv : P.Valid) (ops ops' : List DLogOp) (x m : Nat)
    (h : (dlogStep P (dlogRun P {} ops) (.log x)).1 = some (.ok m)) :
    ∃ m', (dlogStep P (dlogRun P {} (ops ++ .log x :: ops')) (.log x)).1 = some (.ok m') ∧ P.g ^ m' % P.p = x := by
  obtain ⟨⟨e, he⟩, -⟩ := dlogRun_any hv ops {} (initial_any hv)
  obtain ⟨h1, -, h3⟩ := computeDlog_any hv he x (dlogRun P {} ops).maxExponent (dlogRun P {} ops).lazy
  have h' := Option.some.inj h
  rw [show (computeDlog P x (dlogRun P {} ops).cache (dlogRun P {} ops).maxExponent (dlogRun P {} ops).lazy).1 = .ok m from h'] at h3
  obtain ⟨-, -, v, hv'⟩ := h3
  have hrun : dlogRun P {} (ops ++ .log x :: ops') = dlogRun P (dlogStep P (dlogRun P {} ops) (.log x)).2 ops' := by
    simp [dlogRun, List.foldl_append]
  rw [hrun]
  obtain ⟨⟨e', he'⟩, hk⟩ := dlogRun_any hv ops' (dlogStep P (dlogRun P {} ops) (.log x)).2 h1
  obtain ⟨v', hg⟩ := hk x v hv'
  refine ⟨v', ?_, (he'.right _ (dGet_mem hg)).1⟩
  show some (computeDlog P x _ _ _).1 = _
  unfold computeDlog
  rw [hg]

-- the group of the negative result, with the wrong exponent 13 of 1: it is an exponent all the same
example : extraSmall.Valid ∧ (dlogStep extraSmall (dlogRun extraSmall {} [.setMax 14, .log 2]) (.log 1)).1 = some (.ok 13) ∧
    extraSmall.g ^ 13 % extraSmall.p = 1 := ⟨extraSmall_valid, by decide, by decide⟩

/-! ### C27 -/

/-- What may be reported for element `x`: as `resultOK`, without the bound by the size of the group. -/
def resultAny (P : Params) (maxE : Nat) (lazy : Bool) (x : Nat) : R Nat → Prop
  | .ok m => P.g ^ m % P.p = x
  | .error .dlogExponent => lazy = true ∧ (dlogSystemMax < maxE ∨ ∀ m ≤ maxE, P.g ^ m % P.p ≠ x)
  | .error .dlogNotFound => lazy = false
  | .error _ => False

/-- Invariant of the system of tasks in any group. -/
structure SysAny (P : Params) (maxE : Nat) (lazy : Bool) (s : Sys) : Prop where
  cache : ∃ n, CacheAt P s.cache n
  /-- a task in the fill loop works at the end of the cache -/
  fill : ∀ (i x m e : Nat), s.tasks[i]? = some (TaskState.filling x m e) →
    maxE ≤ dlogSystemMax ∧ lazy = true ∧ e ≤ maxE ∧ m = gPowP P e ∧ CacheAt P s.cache e ∧ ∀ j < e, gPowP P j ≠ x
  /-- mutual exclusion -/
  excl : ∀ (i j : Nat) (t u : TaskState), s.tasks[i]? = some t → s.tasks[j]? = some u →
    t.holds = true → u.holds = true → i = j
  lock : s.lock = false → ∀ t ∈ s.tasks, t.holds = false
  done : ∀ (x : Nat) (r : R Nat), TaskState.done x r ∈ s.tasks → resultAny P maxE lazy x r

theorem sysAny_step (hv : P.Valid) (maxE : Nat) (lazy : Bool) (s : Sys) (h : SysAny P maxE lazy s) (i : Nat) :
    SysAny P maxE lazy (sysStep P maxE lazy s i) := by
  obtain ⟨⟨n, hc⟩, hfill, hexcl, hlock, hdone⟩ := h
  have mem_set : ∀ {t u : TaskState}, u ∈ s.tasks.set i t → u = t ∨ u ∈ s.tasks := by
    intro t u hu
    rcases List.mem_or_eq_of_mem_set hu with h | h
    · exact Or.inr h
    · exact Or.inl h
  have get_set : ∀ {t u : TaskState} {j : Nat}, (s.tasks.set i t)[j]? = some u →
      (j = i ∧ u = t) ∨ (j ≠ i ∧ s.tasks[j]? = some u) := by
    intro t u j hu
    rw [List.getElem?_set] at hu
    split at hu
    · next hij =>
      split at hu
      · left; exact ⟨hij.symm, (Option.some.inj hu).symm⟩
      · cases hu
    · next hij => right; exact ⟨fun h => hij h.symm, hu⟩
  have nohold : ∀ (told t : TaskState) (l : Bool), s.tasks[i]? = some told → t.holds = false →
      (told.holds = true ∨ l = s.lock) → (l = s.lock ∨ l = false) →
      (∀ (x : Nat) (r : R Nat), t = .done x r → resultAny P maxE lazy x r) →
      SysAny P maxE lazy { s with lock := l, tasks := s.tasks.set i t } := by
    intro told t l hold ht hl hl2 hr
    refine ⟨⟨n, hc⟩, ?_, ?_, ?_, ?_⟩
    · intro j x m e hj
      rcases get_set hj with ⟨_, rfl⟩ | ⟨_, hj⟩
      · simp [TaskState.holds] at ht
      · exact hfill j x m e hj
    · intro j k t1 t2 hj hk h1 h2
      rcases get_set hj with ⟨_, rfl⟩ | ⟨_, hj⟩
      · rw [ht] at h1; cases h1
      · rcases get_set hk with ⟨_, rfl⟩ | ⟨_, hk⟩
        · rw [ht] at h2; cases h2
        · exact hexcl j k t1 t2 hj hk h1 h2
    · intro hlf u hu
      obtain ⟨j, hj⟩ := List.mem_iff_getElem?.1 hu
      rcases get_set hj with ⟨_, rfl⟩ | ⟨hji, hj⟩
      · exact ht
      · rcases hl with hl | hl
        · by_contra hh
          simp only [Bool.not_eq_false] at hh
          exact hji (hexcl j i u told hj hold hh hl)
        · exact hlock (by rw [← hl]; exact hlf) u (List.mem_iff_getElem?.2 ⟨j, hj⟩)
    · intro x r hx
      rcases mem_set hx with h | h
      · exact hr x r h.symm
      · exact hdone x r h
  unfold sysStep
  split
  · exact ⟨⟨n, hc⟩, hfill, hexcl, hlock, hdone⟩
  · exact ⟨⟨n, hc⟩, hfill, hexcl, hlock, hdone⟩
  · next x hi =>
    split
    · next e he =>
      refine nohold _ (.done x (.ok e)) s.lock hi rfl (Or.inr rfl) (Or.inl rfl) ?_
      intro x' r' hh; cases hh; exact (hc.right _ (dGet_mem he)).1
    · refine nohold _ (.waiting x) s.lock hi rfl (Or.inr rfl) (Or.inl rfl) ?_
      intro x' r' hh; cases hh
  · next x hi =>
    split
    · exact ⟨⟨n, hc⟩, hfill, hexcl, hlock, hdone⟩
    · next hl =>
      simp only [Bool.not_eq_true] at hl
      have hl' := hlock hl
      refine ⟨⟨n, hc⟩, ?_, ?_, ?_, ?_⟩
      · intro j x' m e hj
        rcases get_set hj with ⟨_, h⟩ | ⟨_, hj⟩
        · cases h
        · exact hfill j x' m e hj
      · intro j k t1 t2 hj hk h1 h2
        rcases get_set hj with ⟨rfl, _⟩ | ⟨_, hj⟩
        · rcases get_set hk with ⟨rfl, _⟩ | ⟨_, hk⟩
          · rfl
          · rw [hl' t2 (List.mem_iff_getElem?.2 ⟨k, hk⟩)] at h2; cases h2
        · rw [hl' t1 (List.mem_iff_getElem?.2 ⟨j, hj⟩)] at h1; cases h1
      · intro h; cases h
      · intro x' r hx
        rcases mem_set hx with h | h
        · cases h
        · exact hdone x' r h
  · next x hi =>
    split
    · next e he =>
      refine nohold _ (.done x (.ok e)) false hi rfl (Or.inl rfl) (Or.inr rfl) ?_
      intro x' r' hh; cases hh; exact (hc.right _ (dGet_mem he)).1
    · next hg =>
      obtain ⟨m, k, hlast, rfl, hk, hat⟩ := hc.last
      have hne : ∀ j ≤ k, gPowP P j ≠ x := by
        intro j hj hjx
        obtain ⟨v, hv'⟩ := hat.get hv hj
        rw [hjx, hg] at hv'
        cases hv'
      split
      · next hlz =>
        refine nohold _ _ false hi rfl (Or.inl rfl) (Or.inr rfl) ?_
        intro x' r' hh; cases hh
        simpa [resultAny] using hlz
      · next hlz =>
        have hlz' : lazy = true := by simpa using hlz
        split
        · next hmx =>
          refine nohold _ _ false hi rfl (Or.inl rfl) (Or.inr rfl) ?_
          intro x' r' hh; cases hh; exact ⟨hlz', Or.inl hmx⟩
        · next hmx =>
          rw [hlast]
          dsimp only
          split
          · next hgt =>
            refine nohold _ _ false hi rfl (Or.inl rfl) (Or.inr rfl) ?_
            intro x' r' hh; cases hh
            exact ⟨hlz', Or.inr (fun m hm => hne m (by omega))⟩
          · next hle =>
            refine ⟨⟨k, hat⟩, ?_, ?_, ?_, ?_⟩
            · intro j x' m e hj
              rcases get_set hj with ⟨_, h⟩ | ⟨hji, hj⟩
              · cases h
                exact ⟨by omega, hlz', by omega, rfl, hat, fun j hj => hne j (by omega)⟩
              · exact absurd (hexcl j i _ _ hj hi rfl rfl) hji
            · intro j k t1 t2 hj hk h1 h2
              rcases get_set hj with ⟨rfl, _⟩ | ⟨hji, hj⟩
              · rcases get_set hk with ⟨rfl, _⟩ | ⟨hki, hk⟩
                · rfl
                · exact absurd (hexcl k _ _ _ hk hi h2 rfl) hki
              · exact absurd (hexcl j i _ _ hj hi h1 rfl) hji
            · intro hl
              have := hlock hl _ (List.mem_iff_getElem?.2 ⟨i, hi⟩)
              cases this
            · intro x' r hx
              rcases mem_set hx with h | h
              · cases h
              · exact hdone x' r h
  · next x m e hi =>
    obtain ⟨f1, f2, f3, f4, f5, f6⟩ := hfill i x m e hi
    split
    · next hxm =>
      obtain ⟨v, hget⟩ := f5.get hv (le_refl e)
      rw [← f4, ← hxm] at hget
      rw [hget]
      refine nohold _ (.done x (.ok v)) false hi rfl (Or.inl rfl) (Or.inr rfl) ?_
      intro x' r' hh; cases hh
      exact (hc.right _ (dGet_mem hget)).1
    · next hxm =>
      have hne : ∀ j < e + 1, gPowP P j ≠ x := by
        intro j hj hx
        rcases Nat.lt_or_ge j e with h | h
        · exact f6 j h hx
        · have : j = e := by omega
          subst this; exact hxm (by rw [f4]; exact hx.symm)
      split
      · next hgt =>
        refine nohold _ _ false hi rfl (Or.inl rfl) (Or.inr rfl) ?_
        intro x' r' hh; cases hh
        exact ⟨f2, Or.inr (fun j hj => hne j (by omega))⟩
      · next hle =>
        have hm' : multP P P.g m = gPowP P (e + 1) := by rw [f4, gPowP_succ hv.one_lt_p]
        have hat := f5.step hv (by omega : e + 1 ≤ dlogSystemMax)
        simp only [hm']
        refine ⟨⟨e + 1, hat⟩, ?_, ?_, ?_, ?_⟩
        · intro j x' m' e' hj
          rcases get_set hj with ⟨_, h⟩ | ⟨hji, hj⟩
          · cases h
            exact ⟨f1, f2, by omega, rfl, hat, hne⟩
          · exact absurd (hexcl j i _ _ hj hi rfl rfl) hji
        · intro j k t1 t2 hj hk h1 h2
          rcases get_set hj with ⟨rfl, _⟩ | ⟨hji, hj⟩
          · rcases get_set hk with ⟨rfl, _⟩ | ⟨hki, hk⟩
            · rfl
            · exact absurd (hexcl k _ _ _ hk hi h2 rfl) hki
          · exact absurd (hexcl j i _ _ hj hi h1 rfl) hji
        · intro hl
          have := hlock hl _ (List.mem_iff_getElem?.2 ⟨i, hi⟩)
          cases this
        · intro x' r hx
          rcases mem_set hx with h | h
          · cases h
          · exact hdone x' r h

/-- C27 In every group, for any number of asynchronous lookups after any earlier history, under any schedule of single dictionary
operations: each task keeps its element, and a task that has finished reported an exponent of its element, or that there is none up to the
limit, or (only without lazy evaluation) that it is not in the cache. -/
theorem C27_any_group (hv : P.Valid) (ops : List DLogOp) (maxE : Nat) (lazy : Bool) (xs : List Nat) (schedule : List Nat) :
    let s := sysRun P maxE lazy ⟨(dlogRun P {} ops).cache, false, xs.map .start⟩ schedule
    s.tasks.map TaskState.element = xs ∧
    ∀ x r, TaskState.done x r ∈ s.tasks → resultAny P maxE lazy x r := by
  have hinit : SysAny P maxE lazy ⟨(dlogRun P {} ops).cache, false, xs.map .start⟩ := by
    refine ⟨(dlogRun_any hv ops {} (initial_any hv)).1, ?_, ?_, ?_, ?_⟩
    · intro i x m e h
      rw [List.getElem?_map] at h
      simp at h
    · intro i j t u hi hj ht _
      rw [List.getElem?_map, Option.map_eq_some_iff] at hi
      obtain ⟨_, _, rfl⟩ := hi
      cases ht
    · intro _ t ht
      simp only [List.mem_map] at ht
      obtain ⟨_, _, rfl⟩ := ht; rfl
    · intro x r h
      simp at h
  have main : ∀ (sched : List Nat) (s : Sys), SysAny P maxE lazy s →
      SysAny P maxE lazy (sysRun P maxE lazy s sched) ∧
      (sysRun P maxE lazy s sched).tasks.map TaskState.element = s.tasks.map TaskState.element := by
    intro sched
    induction sched with
    | nil => intro s hs; exact ⟨hs, rfl⟩
    | cons i sched ih =>
      intro s hs
      obtain ⟨a, b⟩ := ih _ (sysAny_step hv maxE lazy s hs i)
      refine ⟨a, ?_⟩
      have := sysStep_elements (P := P) s maxE lazy i
      simp only [sysRun, List.foldl_cons] at b ⊢
      rw [b, this]
  obtain ⟨hinv, hel⟩ := main schedule _ hinit
  exact ⟨by rw [hel]; simp [TaskState.element, Function.comp_def], hinv.done⟩

/-- C27, consequence in every group: a finished task for an element with an exponent up to an allowed limit has an answer. -/
theorem C27_answered (hv : P.Valid) (ops : List DLogOp) (maxE : Nat) (hmax : maxE ≤ dlogSystemMax) (xs : List Nat) (schedule : List Nat)
    (m : Nat) (hm : m ≤ maxE) (r : R Nat) (h : TaskState.done (P.g ^ m % P.p) r ∈
      (sysRun P maxE true ⟨(dlogRun P {} ops).cache, false, xs.map .start⟩ schedule).tasks) :
    ∃ m', r = .ok m' ∧ P.g ^ m' % P.p = P.g ^ m % P.p := by
  have hr := (C27_any_group hv ops maxE true xs schedule).2 _ _ h
  match r, hr with
  | .ok k, hr => exact ⟨k, rfl, hr⟩
  | .error .dlogExponent, hr =>
    rcases hr.2 with h | h
    · omega
    · exact absurd rfl (h m hm)
  | .error .dlogNotFound, hr => cases hr

-- three lookups at once in a group smaller than the limit, one of them for a number that is not in the group
example :
    (sysRun extraSmall 14 true ⟨dlogInitial, false, [.start 2, .start (16 ^ 5 % 157), .start 1]⟩
      ([0, 0] ++ List.replicate 20 0 ++ [1, 1, 1, 2])).tasks
    = [.done 2 (.error .dlogExponent), .done (16 ^ 5 % 157) (.ok 5), .done 1 (.ok 13)] := by
  decide

end EG
