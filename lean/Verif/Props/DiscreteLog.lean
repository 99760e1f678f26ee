import Verif.Spec.Mid
import Verif.Lemmas.DiscreteLogHistory

/-!
# C26, C27: discrete logarithms with a shared cache
-/

namespace EG

variable {P : Params}

/-- C26, no wrong answer: after any history of operations (including failing ones), a returned value
is the exponent of the element, and is unique below `q`.  `dlogSystemMax < q` holds for the production
group; without it the claim is false, see `C26_small_group_fails`. -/
theorem C26_never_wrong_partial (hv : P.Valid) (hq : dlogSystemMax < P.q) (ops : List DLogOp) (x m : Nat)
    (h : (dlogStep P (dlogRun P {} ops) (.log x)).1 = some (.ok m)) :
    P.g ^ m % P.p = x ∧ m < P.q ∧ ∀ j < P.q, P.g ^ j % P.p = x → j = m := by
  obtain ⟨n, h1, h2, h3, h4⟩ := dlogRun_inv hv hq ops {} dlogSystemMax (le_refl _)
    ⟨0, by omega, by omega, (canon_zero hv.one_lt_p).symm⟩
  obtain ⟨n', g1, g2, g3, g4, g5, _⟩ := computeDlog_canon hv hq h1 x
    (dlogRun P {} ops).maxExponent (dlogRun P {} ops).lazy
  simp only [dlogStep, h3, Option.some.injEq] at h
  obtain ⟨e1, _, e3⟩ := g5 m h
  refine ⟨e3, by omega, ?_⟩
  intro j hj hx
  have : gPowP P j = gPowP P m := by rw [e3]; exact hx
  exact (gPowP_inj_lt hv hj (by omega)).1 this

/-- C26, every value up to the limit is found: after any history, the logarithm of `g^m` is `m` for
every `m` up to the limit now in force (provided lazy evaluation is on and the limit is one the system
allows). -/
theorem C26_found_partial (hv : P.Valid) (hq : dlogSystemMax < P.q) (ops : List DLogOp) (m : Nat)
    (hm : m ≤ (dlogRun P {} ops).maxExponent)
    (hs : (dlogRun P {} ops).maxExponent ≤ dlogSystemMax)
    (hlazy : (dlogRun P {} ops).lazy = true) :
    (dlogStep P (dlogRun P {} ops) (.log (P.g ^ m % P.p))).1 = some (.ok m) := by
  obtain ⟨n, h1, h2, h3, h4⟩ := dlogRun_inv hv hq ops {} dlogSystemMax (le_refl _)
    ⟨0, by omega, by omega, (canon_zero hv.one_lt_p).symm⟩
  obtain ⟨n', g1, g2, g3, g4, g5, g6, g7, _⟩ := computeDlog_canon hv hq h1 (P.g ^ m % P.p)
    (dlogRun P {} ops).maxExponent (dlogRun P {} ops).lazy
  simp only [dlogStep, h3, Option.some.injEq]
  exact g7 m hm hs hlazy rfl

/-- C26, once answered always answered: an element whose logarithm was returned once is answered with
the same value after any further operations, whatever the limit and laziness set meanwhile. -/
theorem C26_stable_partial (hv : P.Valid) (hq : dlogSystemMax < P.q) (ops ops' : List DLogOp) (x m : Nat)
    (h : (dlogStep P (dlogRun P {} ops) (.log x)).1 = some (.ok m)) :
    (dlogStep P (dlogRun P {} (ops ++ .log x :: ops')) (.log x)).1 = some (.ok m) := by
  -- the cache only ever grows, so an entry stays
  have mono : ∀ (ops : List DLogOp) (s : DLogState) (n : Nat), n ≤ dlogSystemMax →
      s.cache = canon P n → ∃ n', n ≤ n' ∧ n' ≤ dlogSystemMax ∧ (dlogRun P s ops).cache = canon P n' := by
    intro ops
    induction ops with
    | nil => intro s n hn hc; exact ⟨n, le_refl _, hn, hc⟩
    | cons op ops ih =>
      intro s n hn hc
      simp only [dlogRun, List.foldl_cons]
      cases op with
      | setMax m => exact ih _ n hn hc
      | setLazy b => exact ih _ n hn hc
      | precomputeAsync m => exact ih _ n hn hc
      | precompute m =>
        obtain ⟨n1, g1, g2, g3, g4⟩ := precompute_canon hv hq hn
          (if m > s.maxExponent then s.maxExponent else m)
        obtain ⟨n2, k1, k2, k3⟩ := ih (dlogStep P s (.precompute m)).2 n1 g3
          (by simp only [dlogStep]; rw [hc]; exact g4)
        exact ⟨n2, by omega, k2, k3⟩
      | log x =>
        obtain ⟨n1, g1, g2, g3, g4, _⟩ := computeDlog_canon hv hq hn x s.maxExponent s.lazy
        obtain ⟨n2, k1, k2, k3⟩ := ih (dlogStep P s (.log x)).2 n1 g3
          (by simp only [dlogStep]; rw [hc]; exact g4)
        exact ⟨n2, by omega, k2, k3⟩
  obtain ⟨n, h1, _, h3, _⟩ := dlogRun_inv hv hq ops {} dlogSystemMax (le_refl _)
    ⟨0, by omega, by omega, (canon_zero hv.one_lt_p).symm⟩
  have hrun : dlogRun P {} (ops ++ .log x :: ops')
      = dlogRun P (dlogStep P (dlogRun P {} ops) (.log x)).2 ops' := by
    simp [dlogRun, List.foldl_append]
  have hcomp : (computeDlog P x (canon P n) (dlogRun P {} ops).maxExponent (dlogRun P {} ops).lazy).1
      = .ok m := by
    simpa [dlogStep, h3] using h
  obtain ⟨n1, a1, a2, a3, a4, a5, a6, _⟩ := computeDlog_canon hv hq h1 x
    (dlogRun P {} ops).maxExponent (dlogRun P {} ops).lazy
  -- the entry is in the cache that the successful lookup left
  have hin : dGet (canon P n1) x = some m := by
    have hc : (computeDlog P x (canon P n) (dlogRun P {} ops).maxExponent (dlogRun P {} ops).lazy)
        = (.ok m, canon P n1) := Prod.ext hcomp a4
    unfold computeDlog at hc
    split at hc
    · next e he =>
      have := Prod.mk.inj hc
      rw [← this.2, he]; injection this.1 with h'; rw [h']
    · split at hc
      · cases (Prod.mk.inj hc).1
      · split at hc
        · cases (Prod.mk.inj hc).1
        · next c hfc =>
          split at hc
          · next e he =>
            have := Prod.mk.inj hc
            rw [← this.2, he]; injection this.1 with h'; rw [h']
          · cases (Prod.mk.inj hc).1
  obtain ⟨hm1, hm2⟩ := canon_get_some hin
  obtain ⟨n2, b1, b2, b3⟩ := mono ops' (dlogStep P (dlogRun P {} ops) (.log x)).2 n1 a3
    (by simp only [dlogStep]; rw [h3]; exact a4)
  rw [hrun]
  obtain ⟨_, _, _, _, _, _, c6, _⟩ := computeDlog_canon hv hq b2 x
    (dlogRun P (dlogStep P (dlogRun P {} ops) (.log x)).2 ops').maxExponent
    (dlogRun P (dlogStep P (dlogRun P {} ops) (.log x)).2 ops').lazy
  simp only [dlogStep, Option.some.injEq]
  have hb3 : (dlogRun P (dlogStep P (dlogRun P {} ops) (.log x)).2 ops').cache = canon P n2 := b3
  simp only [dlogStep] at hb3
  rw [hb3]
  exact c6 m (by omega) hm2

/-- C26, raising: an element that is not a power of `g` with exponent up to the largest limit ever in
force is never answered; the call raises. -/
theorem C26_raises_partial (hv : P.Valid) (hq : dlogSystemMax < P.q) (ops : List DLogOp) (x : Nat)
    (h : ∀ m ≤ limitOf dlogSystemMax ops, m ≤ dlogSystemMax → P.g ^ m % P.p ≠ x) :
    (dlogStep P (dlogRun P {} ops) (.log x)).1 = some (.error .dlogExponent) ∨
    (dlogStep P (dlogRun P {} ops) (.log x)).1 = some (.error .dlogNotFound) := by
  obtain ⟨n, h1, h2, h3, h4⟩ := dlogRun_inv hv hq ops {} dlogSystemMax (le_refl _)
    ⟨0, by omega, by omega, (canon_zero hv.one_lt_p).symm⟩
  obtain ⟨n', g1, g2, g3, g4, g5, g6, g7, g8⟩ := computeDlog_canon hv hq h1 x
    (dlogRun P {} ops).maxExponent (dlogRun P {} ops).lazy
  simp only [dlogStep, h3, Option.some.injEq]
  cases hr : (computeDlog P x (canon P n) (dlogRun P {} ops).maxExponent
      (dlogRun P {} ops).lazy).1 with
  | ok m =>
    obtain ⟨e1, e2, e3⟩ := g5 m hr
    exact absurd e3 (h m (by omega) e1)
  | error err => rcases g8 err hr with ⟨_, rfl⟩ | ⟨_, rfl⟩ <;> simp

/-- C26, refinement: with the default settings, after any history of lookups and precomputations the
lookup returns what the pure function `dlog` returns.  This is why the model of decryption may use the
pure function. -/
theorem C26_refines_pure_partial (hv : P.Valid) (hq : dlogSystemMax < P.q) (ops : List DLogOp)
    (ho : lookupsOnly ops) (x : Nat) :
    (dlogStep P (dlogRun P {} ops) (.log x)).1 = some (dlog P dlogSystemMax x) := by
  have hset : ∀ (ops : List DLogOp) (s : DLogState), lookupsOnly ops →
      (dlogRun P s ops).maxExponent = s.maxExponent ∧ (dlogRun P s ops).lazy = s.lazy := by
    intro ops
    induction ops with
    | nil => intro s _; exact ⟨rfl, rfl⟩
    | cons op ops ih =>
      intro s ho
      have h' := ih (dlogStep P s op).2 (fun o ho' => ho o (by simp [ho']))
      simp only [dlogRun, List.foldl_cons] at h' ⊢
      rcases ho op (by simp) with ⟨x, rfl⟩ | ⟨n, rfl⟩ | ⟨n, rfl⟩ <;> exact h'
  obtain ⟨hmax, hlazy⟩ := hset ops {} ho
  obtain ⟨n, h1, h2, h3, h4⟩ := dlogRun_inv hv hq ops {} dlogSystemMax (le_refl _)
    ⟨0, by omega, by omega, (canon_zero hv.one_lt_p).symm⟩
  obtain ⟨n', g1, g2, g3, g4, g5, g6, g7, g8⟩ := computeDlog_canon hv hq h1 x
    (dlogRun P {} ops).maxExponent (dlogRun P {} ops).lazy
  simp only [dlogStep, h3, Option.some.injEq]
  cases hd : dlog P dlogSystemMax x with
  | ok m =>
    obtain ⟨e1, e2⟩ := dlog_ok_iff hv.one_lt_p hd
    exact g7 m (by rw [hmax]; exact e1) (by rw [hmax]) hlazy e2
  | error err =>
    have := dlog_error_kind hv.one_lt_p hd
    subst this
    cases hr : (computeDlog P x (canon P n) (dlogRun P {} ops).maxExponent
        (dlogRun P {} ops).lazy).1 with
    | ok m =>
      exfalso
      obtain ⟨e1, e2, e3⟩ := g5 m hr
      rw [← e3, dlog_gPow hv e1 (by omega)] at hd
      cases hd
    | error err =>
      rcases g8 err hr with ⟨_, rfl⟩ | ⟨h', _⟩
      · rfl
      · rw [hlazy] at h'; cases h'

/-- C26, negative: in a group smaller than the limit a failed lookup overwrites entries.  With
`q = 13` and limit 14, looking up the non-member 2 fails and afterwards the logarithm of `1 = g^0` is
reported as 13. -/
theorem C26_small_group_fails :
    (dlogStep extraSmall (dlogRun extraSmall {} [.setMax 14, .log 2]) (.log 1)).1 = some (.ok 13) := by
  decide

/-- C26, negative: `precompute_cache_async` does not fill the cache of the class, so a lookup without
lazy evaluation still fails afterwards. -/
theorem C26_precompute_async_fails :
    (dlogStep extraSmall (dlogRun extraSmall {} [.setMax 5, .precomputeAsync 5, .setLazy false])
      (.log (extraSmall.g ^ 2 % extraSmall.p))).1 = some (.error .dlogNotFound) := by
  decide

/-- The synchronous counterpart does fill it. -/
example :
    (dlogStep extraSmall (dlogRun extraSmall {} [.setMax 5, .precompute 5, .setLazy false])
      (.log (extraSmall.g ^ 2 % extraSmall.p))).1 = some (.ok 2) := by
  decide

/-- The conditions of the theorems above hold together, in a group small enough to compute with. -/
example : midParams.Valid ∧ dlogSystemMax < midParams.q := ⟨midParams_valid, by decide⟩

/-! ### C27 -/

/-- C27 Any number of asynchronous lookups, under any schedule of single dictionary operations: each
task keeps its own element, every task that has finished reported a correct result, and the cache is
again exactly the exponents `0..n`.  The elements are arbitrary; the cache may start from any earlier
history. -/
theorem C27_any_schedule_partial (hv : P.Valid) (hq : dlogSystemMax < P.q) (ops : List DLogOp) (maxE : Nat)
    (lazy : Bool) (xs : List Nat) (schedule : List Nat) :
    let s := sysRun P maxE lazy ⟨(dlogRun P {} ops).cache, false, xs.map .start⟩ schedule
    s.tasks.map TaskState.element = xs ∧
    (∀ x r, TaskState.done x r ∈ s.tasks → resultOK P maxE lazy x r) ∧
    (∃ n, s.cache = (List.range (n + 1)).map (fun e => (P.g ^ e % P.p, e))) := by
  obtain ⟨n, h1, _, h3, _⟩ := dlogRun_inv hv hq ops {} dlogSystemMax (le_refl _)
    ⟨0, by omega, by omega, (canon_zero hv.one_lt_p).symm⟩
  have hinit : SysInv P maxE lazy ⟨(dlogRun P {} ops).cache, false, xs.map .start⟩ := by
    refine ⟨⟨n, by omega, h3, h1⟩, ?_, ?_, ?_, ?_⟩
    · intro i x m e h
      rw [List.getElem?_map] at h
      simp at h
    · intro i j t u hi hj ht _
      rw [List.getElem?_map, Option.map_eq_some_iff] at hi
      obtain ⟨_, _, rfl⟩ := hi
      cases ht
    · intro _ t ht
      simp only [List.mem_map] at ht
      obtain ⟨_, _, rfl⟩ := ht; rfl
    · intro x r h
      simp at h
  have main : ∀ (sched : List Nat) (s : Sys), SysInv P maxE lazy s →
      SysInv P maxE lazy (sysRun P maxE lazy s sched) ∧
      (sysRun P maxE lazy s sched).tasks.map TaskState.element = s.tasks.map TaskState.element := by
    intro sched
    induction sched with
    | nil => intro s hs; exact ⟨hs, rfl⟩
    | cons i sched ih =>
      intro s hs
      obtain ⟨a, b⟩ := ih _ (sysInv_step hv hq maxE lazy s hs i)
      refine ⟨a, ?_⟩
      have := sysStep_elements (P := P) s maxE lazy i
      simp only [sysRun, List.foldl_cons] at b ⊢
      rw [b, this]
  obtain ⟨hinv, hel⟩ := main schedule _ hinit
  refine ⟨?_, hinv.done, ?_⟩
  · rw [hel]; simp [TaskState.element, Function.comp_def]
  · obtain ⟨n, _, hc, _⟩ := hinv.cache
    exact ⟨n, hc⟩

/-- C27, consequence: when the looked-up element is `g^m` with `m` up to an allowed limit and lazy
evaluation is on, a finished task has reported exactly `m`. -/
theorem C27_correct_exponent_partial (hv : P.Valid) (hq : dlogSystemMax < P.q) (ops : List DLogOp) (maxE : Nat)
    (hmax : maxE ≤ dlogSystemMax) (xs : List Nat) (schedule : List Nat) (m : Nat) (hm : m ≤ maxE)
    (r : R Nat)
    (h : TaskState.done (P.g ^ m % P.p) r ∈
      (sysRun P maxE true ⟨(dlogRun P {} ops).cache, false, xs.map .start⟩ schedule).tasks) :
    r = .ok m := by
  have hr := (C27_any_schedule_partial hv hq ops maxE true xs schedule).2.1 _ _ h
  match r, hr with
  | .ok k, hr =>
    obtain ⟨h1, h2⟩ := hr
    have : gPowP P k = gPowP P m := h1
    rw [(gPowP_inj_lt hv h2 (by omega)).1 this]
  | .error .dlogExponent, hr =>
    rcases hr.2 with h | h
    · omega
    · exact absurd rfl (h m hm)
  | .error .dlogNotFound, hr => cases hr

/-- Two tasks racing for `g^3` and `g^5`: both finish with the right exponent. -/
example :
    (sysRun extraSmall 6 true
      ⟨dlogInitial, false, [.start (16 ^ 3 % 157), .start (16 ^ 5 % 157)]⟩
      [0, 1, 1, 0, 1, 1, 0, 1, 1, 1, 1, 1, 1, 0, 0, 0]).tasks
    = [.done (16 ^ 3 % 157) (.ok 3), .done (16 ^ 5 % 157) (.ok 5)] := by
  decide

end EG
