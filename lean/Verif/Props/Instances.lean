import Verif.Lemmas.Instances
import Verif.Props.DiscreteLog

/-!
# Schedulers (C112) and the objects called singletons (C113)
-/

namespace EG

variable {P : Params}

/-! ## C112 -/

/-- C112: a scheduler can be opened exactly where psutil counts at least one core. -/
theorem C112_opens_iff (cores : Option Nat) (pre : List ProcCall) :
    (((Proc.imported cores).run P pre).construct .scheduler).1 = .ok () ↔ ∃ n ≥ 1, cores = some n := by
  have hc : ((Proc.imported cores).run P pre).cores = cores := by rw [run_cores]; rfl
  generalize (Proc.imported cores).run P pre = s at hc ⊢
  subst hc
  unfold Proc.construct Proc.openPools
  cases hs : s.cores with
  | none => simp [poolSize]
  | some n =>
    by_cases h1 : n < 1
    · have : ¬ 2 < n := by omega
      simp [poolSize, h1, this]
      try omega
    · have : ¬ (if 2 < n then n - 1 else n) < 1 := by split <;> omega
      simp only [poolSize, this, gt_iff_lt, if_false, List.getElem?_append_right (Nat.le_refl _), Nat.sub_self,
        List.getElem?_cons_zero]
      simpa using Nat.le_of_not_lt h1

/-- C112: from its construction until it is closed a scheduler answers with all results in order, or with none
if a task raised, whatever happens to all other objects. -/
theorem C112_constructed (cores : Option Nat) (pre post : List ProcCall) :
    let s := (Proc.imported cores).run P pre
    (s.construct .scheduler).1 = .ok () → .close s.objs.length ∉ post →
    Delivers (s.run P (.new .scheduler :: post)) s.objs.length := by
  intro s h hp
  have hs : PoolsInv s := run_inv (imported_inv cores) pre
  exact delivers_of_running (run_running (construct_inv _ hs) (construct_running h) hp)

/-- C112: the same from every successful `__enter__`, also of a scheduler that was closed before. -/
theorem C112_entered (cores : Option Nat) (pre post : List ProcCall) (r : Nat) :
    let s := (Proc.imported cores).run P pre
    (s.enter r).1 = .ok () → .close r ∉ post → Delivers (s.run P (.enter r :: post)) r := by
  intro s h hp
  have hs : PoolsInv s := run_inv (imported_inv cores) pre
  exact delivers_of_running (run_running (step_inv (P := P) hs (.enter r)) (enter_running h) hp)

/-- C112: from a successful `close` until it is entered again a scheduler answers every request with an empty
list. -/
theorem C112_closed (cores : Option Nat) (pre post : List ProcCall) (r : Nat) :
    let s := (Proc.imported cores).run P pre
    (s.closePools r).1 = .ok () → .enter r ∉ post → Idle (s.run P (.close r :: post)) r := by
  intro s h hp
  have hs : PoolsInv s := run_inv (imported_inv cores) pre
  have : PoolsOf (s.closePools r).2 r false := by
    rcases closePools_cases s r with ⟨e, g⟩ | ⟨o, k, g1, g2, g3, g⟩
    · rw [g] at h; cases h
    · obtain ⟨p, hp⟩ : ∃ p, s.pools[k]? = some p :=
        ⟨_, List.getElem?_eq_getElem (hs.lt r o k g1 g3)⟩
      exact (closePools_closed ⟨o, k, p, g1, g2, g3, hp, rfl⟩).2
  exact idle_of_closed (run_closed (step_inv (P := P) hs (.close r)) this hp)

/-- C112: a `with` block: inside it the scheduler works, after it every request is answered with an empty list,
if nothing else closes or enters the scheduler. -/
theorem C112_with (cores : Option Nat) (pre body post : List ProcCall) :
    let s := (Proc.imported cores).run P pre
    let r := s.objs.length
    (∃ n ≥ 1, cores = some n) → .close r ∉ body → .enter r ∉ post →
    Delivers (s.run P (.new .scheduler :: .enter r :: body)) r ∧
    Idle (s.run P (.new .scheduler :: .enter r :: body ++ .close r :: post)) r := by
  intro s r hn hb hp
  have hs : PoolsInv s := run_inv (imported_inv cores) pre
  have h0 : PoolsOf (s.construct .scheduler).2 r true :=
    construct_running ((C112_opens_iff (P := P) cores pre).2 hn)
  have i1 : PoolsInv (s.step P (.new .scheduler)) := construct_inv _ hs
  have h1 : PoolsOf ((s.step P (.new .scheduler)).step P (.enter r)) r true :=
    step_running i1 h0 (by simp)
  have i2 := step_inv (P := P) i1 (.enter r)
  have h2 := run_running (P := P) i2 h1 hb
  have i3 := run_inv (P := P) i2 body
  refine ⟨delivers_of_running h2, idle_of_closed ?_⟩
  have e : s.run P (.new .scheduler :: .enter r :: body ++ .close r :: post) =
      (((((s.step P (.new .scheduler)).step P (.enter r)).run P body).step P (.close r))).run P post := by
    simp [Proc.run]
  rw [e]
  exact run_closed (step_inv (P := P) i3 (.close r)) (closePools_closed h2).2 hp

/-- C112: where `_open` raised, the scheduler stays without pools for good and `schedule` raises
`AttributeError`. -/
theorem C112_half_made (cores : Option Nat) (pre post : List ProcCall) :
    let s := (Proc.imported cores).run P pre
    (s.construct .scheduler).1 ≠ .ok () →
    Unusable (s.run P (.new .scheduler :: post)) s.objs.length := by
  intro s h
  have hno : ∀ e : Nat, poolSize s.cores ≠ .ok e := by
    intro e he
    apply h
    unfold Proc.construct Proc.openPools
    simp [he]
  have key : ∀ (calls : List ProcCall) (t : Proc), t.cores = s.cores →
      (∀ (i : Nat) (o : Obj), t.objs[i]? = some o → o.pools = none) →
      ∀ (i : Nat) (o : Obj), (t.run P calls).objs[i]? = some o → o.pools = none := by
    intro calls
    induction calls with
    | nil => intro t _ ht; exact ht
    | cons c calls ih =>
      intro t hc ht
      have ho : ∀ (u : Proc) (r : Nat), u.cores = s.cores → (u.openPools r).2 = u := by
        intro u r hu
        rcases openPools_cases u r with ⟨e, g⟩ | ⟨n, o, g1, _, g⟩
        · rw [g]
        · exact absurd (hu ▸ g1) (hno n)
      have hap : ∀ (c : Cls) (i : Nat) (o : Obj), (t.construct c).2.objs[i]? = some o → o.pools = none := by
        intro c i o h
        have : (t.construct c).2.objs = t.objs ++ [{ cls := c }] := by
          unfold Proc.construct
          cases c with
          | scheduler => simp only []; rw [ho _ _ (by exact hc)]
          | _ => rfl
        rw [this, List.getElem?_append] at h
        split at h
        · exact ht i o h
        · rw [List.getElem?_singleton] at h
          split at h
          · cases h; rfl
          · cases h
      refine ih (t.step P c) ((step_cores t c).trans hc) ?_
      cases c with
      | new c => exact hap c
      | getInstance =>
        rcases getInstance_cases t with g | g <;> rw [Proc.step, g]
        · exact ht
        · exact hap _
      | enter r =>
        rcases enter_cases t r with ⟨e, g⟩ | ⟨o, _, _, g⟩ <;> rw [Proc.step, g]
        · exact ht
        · rw [ho t r hc]; exact ht
      | close r => rcases closePools_cases t r with ⟨e, g⟩ | ⟨o', k', g1, g2, g3, g⟩ <;> rw [Proc.step, g] <;> exact ht
      | dlog r op =>
        intro i o hi
        have := (dlogCall_pools (P := P) t r op).2 i
        rw [Proc.step] at hi
        rw [hi, Option.map_some] at this
        obtain ⟨o', g1, g2⟩ := Option.map_eq_some_iff.1 this.symm
        injection g2 with g2 g3
        rw [← g3]; exact ht i o' g1
  -- before the failing constructor no object has pools either: the count of the cores never changes
  have hcs : s.cores = cores := by simp only [s]; rw [run_cores]; rfl
  have h0 : ∀ (i : Nat) (o : Obj), (s.run P (.new .scheduler :: post)).objs[i]? = some o → o.pools = none := by
    have e : s.run P (.new .scheduler :: post) =
        (Proc.imported cores).run P (pre ++ .new .scheduler :: post) := by simp [s, Proc.run]
    rw [e]
    refine key _ _ (by rw [hcs]; rfl) ?_
    intro i o hi
    have : (Proc.imported cores).objs = [{ cls := .log }] := rfl
    rw [this, List.getElem?_singleton] at hi
    split at hi
    · cases hi; rfl
    · cases hi
  intro α β task as
  unfold Proc.schedule
  cases ho : (s.run P (.new .scheduler :: post)).objs[s.objs.length]? with
  | none => rfl
  | some o =>
    have := h0 _ o ho
    simp [this]

/-- C112: the tally runs its tasks on such a scheduler: for tasks that return, `schedule` of the model of the tally
is what a scheduler answers, with `up` telling whether it is running. -/
theorem C112_tally_schedule (cores : Option Nat) (pre : List ProcCall) (r : Nat) (up : Bool)
    (h : let s := (Proc.imported cores).run P pre
      if up then Delivers s r else Idle s r) {α β : Type} (task : α → β) (arguments : List α) :
    ((Proc.imported cores).run P pre).schedule r (fun a => .ok (task a)) arguments =
      .ok (schedule up task arguments) := by
  cases up with
  | false => exact h α β _ arguments
  | true =>
    refine (h α β _ arguments).1 _ ?_
    have : ∀ as : List α, List.Forall₂ (fun a b => (Except.ok (task a) : R β) = .ok b) as (as.map task) := by
      intro as
      induction as with
      | nil => exact .nil
      | cons a as ih => exact .cons rfl ih
    simpa [schedule] using this arguments

/-- C112: a pool has at least one worker, and on more than two cores one core is left over. -/
theorem C112_pool_size (cores : Option Nat) (calls : List ProcCall) (p : PoolPair)
    (h : p ∈ ((Proc.imported cores).run P calls).pools) :
    ∃ n, cores = some n ∧ 1 ≤ p.size ∧ p.size ≤ n ∧ (2 < n → p.size + 1 = n) ∧ (n ≤ 2 → p.size = n) := by
  have size : ∀ (c : Option Nat) (m : Nat), poolSize c = .ok m →
      ∃ n, c = some n ∧ 1 ≤ m ∧ m ≤ n ∧ (2 < n → m + 1 = n) ∧ (n ≤ 2 → m = n) := by
    intro c m hm
    cases c with
    | none => cases hm
    | some n =>
      refine ⟨n, rfl, ?_⟩
      simp only [poolSize] at hm
      split at hm <;> split at hm <;> cases hm <;> omega
  have hop : ∀ (u : Proc) (r : Nat) (p : PoolPair), p ∈ (u.openPools r).2.pools →
      p ∈ u.pools ∨ poolSize u.cores = .ok p.size := by
    intro u r p hp
    rcases openPools_cases u r with ⟨e, g⟩ | ⟨n, o, g1, _, g⟩ <;> rw [g] at hp
    · exact .inl hp
    · rcases List.mem_append.1 hp with hp | hp
      · exact .inl hp
      · cases List.mem_singleton.1 hp; exact .inr g1
  have hcon : ∀ (u : Proc) (c : Cls) (p : PoolPair), p ∈ (u.construct c).2.pools →
      p ∈ u.pools ∨ poolSize u.cores = .ok p.size := by
    intro u c p hp
    unfold Proc.construct at hp
    cases c with
    | scheduler => exact hop { u with
        objs := u.objs ++ [{ cls := .scheduler }]
        inst := match u.inst with | none => some u.objs.length | some i => some i } _ p hp
    | base => exact .inl hp
    | log => exact .inl hp
    | dlog => exact .inl hp
  have key : ∀ (calls : List ProcCall) (t : Proc), t.cores = cores →
      (∀ p ∈ t.pools, poolSize cores = .ok p.size) →
      ∀ p ∈ (t.run P calls).pools, poolSize cores = .ok p.size := by
    intro calls
    induction calls with
    | nil => intro t _ ht; exact ht
    | cons c calls ih =>
      intro t hc ht
      refine ih (t.step P c) ((step_cores t c).trans hc) ?_
      intro p hp
      cases c with
      | new c => rcases hcon t c p hp with h | h; exacts [ht p h, hc ▸ h]
      | getInstance =>
        rcases getInstance_cases t with g | g <;> rw [Proc.step, g] at hp
        · exact ht p hp
        · rcases hcon t _ p hp with h | h; exacts [ht p h, hc ▸ h]
      | enter r =>
        rcases enter_cases t r with ⟨e, g⟩ | ⟨o, _, _, g⟩ <;> rw [Proc.step, g] at hp
        · exact ht p hp
        · rcases hop t r p hp with h | h; exacts [ht p h, hc ▸ h]
      | close r =>
        rcases closePools_cases t r with ⟨e, g⟩ | ⟨o', k', g1, g2, g3, g⟩ <;> rw [Proc.step, g] at hp
        · exact ht p hp
        · obtain ⟨i, hi⟩ := List.mem_iff_getElem?.1 hp
          simp only [List.getElem?_modify] at hi
          obtain ⟨p', h1, h2⟩ := Option.map_eq_some_iff.1 hi
          have := ht p' (List.mem_of_getElem? h1)
          rw [this, ← h2]
          split <;> rfl
      | dlog r op =>
        rw [Proc.step, (dlogCall_pools (P := P) t r op).1] at hp
        exact ht p hp
  exact size cores p.size (key calls _ rfl (by intro p hp; cases hp) p h)

/-- C112, negative: `with Scheduler()` opens two pairs of pools and closes one.  The first pair is running after
every continuation, and no object refers to it, so that nothing can close it. -/
theorem C112_abandoned_fails (cores : Option Nat) (pre post : List ProcCall) (hn : ∃ n ≥ 1, cores = some n) :
    let s := (Proc.imported cores).run P pre
    let t := s.run P (.new .scheduler :: .enter s.objs.length :: post)
    (∃ p, t.pools[s.pools.length]? = some p ∧ p.running = true) ∧
    ∀ (i : Nat) (o : Obj), t.objs[i]? = some o → o.pools ≠ some s.pools.length := by
  intro s t
  have hs : PoolsInv s := run_inv (imported_inv cores) pre
  have hc : s.cores = cores := by simp only [s]; rw [run_cores]; rfl
  obtain ⟨m, hm⟩ : ∃ m, poolSize s.cores = .ok m := by
    obtain ⟨n, h1, rfl⟩ := hn
    rw [hc]
    unfold poolSize
    have : ¬ (if 2 < n then n - 1 else n) < 1 := by split <;> omega
    exact ⟨_, if_neg this⟩
  have : Orphan ((s.step P (.new .scheduler)).step P (.enter s.objs.length)) s.pools.length ⟨m, true⟩ := by
    have e1 : s.step P (.new .scheduler) = { s with
        objs := s.objs ++ [{ cls := .scheduler, pools := some s.pools.length }]
        inst := match s.inst with | none => some s.objs.length | some i => some i
        pools := s.pools ++ [⟨m, true⟩] } := by
      simp [Proc.step, Proc.construct, Proc.openPools, hm]
      cases s.inst <;> rfl
    have e2 : (s.step P (.new .scheduler)).step P (.enter s.objs.length) = { s with
        objs := s.objs ++ [{ cls := .scheduler, pools := some (s.pools.length + 1) }]
        inst := match s.inst with | none => some s.objs.length | some i => some i
        pools := s.pools ++ [⟨m, true⟩] ++ [⟨m, true⟩] } := by
      rw [e1]
      simp [Proc.step, Proc.enter, Proc.openPools, hm]
    rw [e2]
    refine ⟨by simp, fun i o hi => ?_⟩
    rw [List.getElem?_append] at hi
    split at hi
    · intro he
      exact absurd (hs.lt i o _ hi he) (Nat.lt_irrefl _)
    · rw [List.getElem?_singleton] at hi
      split at hi
      · cases hi; simp
      · cases hi
  obtain ⟨h1, h2⟩ := run_orphan (P := P) this post
  exact ⟨⟨_, h1, rfl⟩, h2⟩

/-- C112, negative: so every `with Scheduler()` leaves one more pair of pools running. -/
theorem C112_leak_fails (n : Nat) (s : Proc) (h : ∃ m, poolSize s.cores = .ok m) :
    ((fun s : Proc => s.run P (withBlock s.objs.length))^[n] s).workersUp = s.workersUp + n := by
  have one : ∀ s : Proc, (∃ m, poolSize s.cores = .ok m) →
      (s.run P (withBlock s.objs.length)).workersUp = s.workersUp + 1 := by
    intro s ⟨m, hm⟩
    have e : (s.run P (withBlock s.objs.length)).pools = s.pools ++ [⟨m, true⟩, ⟨m, false⟩] := by
      simp [withBlock, Proc.run, Proc.step, Proc.construct, Proc.enter, Proc.openPools, Proc.closePools, hm]
      apply List.ext_getElem?
      intro i
      rw [List.getElem?_modify]
      by_cases h1 : i < s.pools.length
      · have : s.pools.length + 1 ≠ i := by omega
        simp [List.getElem?_append_left h1, this]
      · rw [List.getElem?_append_right (by omega), List.getElem?_append_right (by omega)]
        obtain ⟨j, rfl⟩ : ∃ j, i = s.pools.length + j := ⟨i - s.pools.length, by omega⟩
        rw [Nat.add_sub_cancel_left]
        match j with
        | 0 => simp
        | 1 => simp
        | j + 2 => simp
    simp [Proc.workersUp, e, List.countP_append]
  induction n generalizing s with
  | zero => rfl
  | succ n ih =>
    rw [Function.iterate_succ, Function.comp_apply, ih _ (by rw [run_cores]; exact h), one s h]
    omega

/-- C112, negative: the answer to a task that raised is the answer to no task: two of the three tasks below return. -/
theorem C112_swallowed_fails :
    let s := (Proc.imported (some 4)).run extraSmall [.new .scheduler]
    s.schedule 1 (fun n : Nat => if n = 2 then .error .value else .ok (n + 1)) [1, 2, 3] =
      s.schedule 1 (fun n : Nat => .ok (n + 1)) [] := by
  rfl

/-- A scheduler that works, and what it answers when closed and when entered again. -/
example :
    let s := (Proc.imported (some 4)).run extraSmall [.new .scheduler, .new .scheduler, .enter 2]
    let task := fun n : Nat => (.ok (n + 1) : R Nat)
    s.schedule 1 task [1, 2, 3] = .ok [2, 3, 4] ∧ s.schedule 2 task [1, 2, 3] = .ok [2, 3, 4] ∧
    (s.run extraSmall [.close 2]).schedule 2 task [1, 2, 3] = .ok [] ∧
    (s.run extraSmall [.close 2]).schedule 1 task [1, 2, 3] = .ok [2, 3, 4] ∧
    (s.run extraSmall [.close 2, .enter 2]).schedule 2 task [1, 2, 3] = .ok [2, 3, 4] ∧
    s.pools = [⟨3, true⟩, ⟨3, true⟩, ⟨3, true⟩] := by
  refine ⟨rfl, rfl, rfl, rfl, rfl, rfl⟩

/-- Where psutil does not know the number of cores, the constructor raises `TypeError` and leaves a scheduler
without pools. -/
example :
    let s := Proc.imported none
    (s.construct .scheduler).1 = .error .type ∧ ((s.construct .scheduler).2.closePools 1).1 = .error .attribute := by
  exact ⟨rfl, rfl⟩

/-! ## C113 -/

/-- C113: whatever a program did before through any number of `DiscreteLog` objects, and whatever limits it set on
them, `DiscreteLog().discrete_log(x)`, which all decryption calls, answers as in a new process: with the exponent up to
the limit of the class, and with `DiscreteLogExponentError` beyond. -/
theorem C113_fresh_partial (hv : P.Valid) (hq : dlogSystemMax < P.q) (cores : Option Nat) (calls : List ProcCall) (x : Nat) :
    ((Proc.imported cores).run P calls).freshLog P x = some (dlog P dlogSystemMax x) := by
  obtain ⟨n, hn, hc⟩ := run_cache hv hq (imported_cache hv cores) calls
  generalize (Proc.imported cores).run P calls = s at hc ⊢
  obtain ⟨n', g1, g2, g3, g4, g5, g6, g7, g8⟩ := computeDlog_canon hv hq hn x dlogSystemMax true
  have e : s.freshLog P x = some (computeDlog P x (canon P n) dlogSystemMax true).1 := by
    simp [Proc.freshLog, Proc.construct, Proc.dlogCall, dlogStep, hc]
  rw [e]
  cases hd : dlog P dlogSystemMax x with
  | ok m =>
    obtain ⟨e1, e2⟩ := dlog_ok_iff hv.one_lt_p hd
    rw [g7 m e1 (le_refl _) rfl e2]
  | error err =>
    have := dlog_error_kind hv.one_lt_p hd
    subst this
    cases hr : (computeDlog P x (canon P n) dlogSystemMax true).1 with
    | ok m =>
      exfalso
      obtain ⟨e1, e2, e3⟩ := g5 m hr
      rw [← e3, dlog_gPow hv e1 (by omega)] at hd
      cases hd
    | error err =>
      rcases g8 err hr with ⟨_, rfl⟩ | ⟨h', _⟩
      · rfl
      · cases h'

/-- C113: a lookup through an object that a program keeps follows the limit and the evaluation mode that this object was
given last, the class attributes by default; it is never wrong, and it finds every exponent up to the limit. -/
theorem C113_kept_partial (hv : P.Valid) (hq : dlogSystemMax < P.q) (cores : Option Nat) (pre calls : List ProcCall)
    (x : Nat) :
    let s := (Proc.imported cores).run P pre
    let r := s.objs.length
    let answer := ((s.run P (.new .dlog :: calls)).dlogCall P r (.log x)).1
    (∀ m, answer = some (.ok m) → P.g ^ m % P.p = x ∧ m ≤ dlogSystemMax) ∧
    (∀ m ≤ lastMax r dlogSystemMax calls, lastMax r dlogSystemMax calls ≤ dlogSystemMax →
      lastLazy r true calls = true → P.g ^ m % P.p = x → answer = some (.ok m)) ∧
    (∀ e, answer = some (.error e) →
      e = if lastLazy r true calls then .dlogExponent else .dlogNotFound) := by
  intro s r answer
  obtain ⟨n, hn, hc⟩ := run_cache hv hq (s := s.run P (.new .dlog :: calls))
    (by
      have : s.run P (.new .dlog :: calls) = (Proc.imported cores).run P (pre ++ .new .dlog :: calls) := by
        simp [s, Proc.run]
      rw [this]
      exact run_cache hv hq (imported_cache hv cores) _) []
  change (s.run P (.new .dlog :: calls)).cache = _ at hc
  obtain ⟨o, h1, h2, h3, h4⟩ := run_settings (P := P) (s := (s.construct .dlog).2) (i := r)
    (o := { cls := .dlog }) (by simp [Proc.construct, r]) rfl calls
  have h1' : (s.run P (.new .dlog :: calls)).objs[r]? = some o := h1
  have e : answer = some (computeDlog P x (canon P n) o.maxExponent o.lazy).1 := by
    simp [answer, Proc.dlogCall, h1', h2, dlogStep, hc]
  obtain ⟨n', g1, g2, g3, g4, g5, g6, g7, g8⟩ := computeDlog_canon hv hq hn x o.maxExponent o.lazy
  rw [e]
  simp only [Option.some.injEq]
  refine ⟨fun m hm => ?_, fun m hm hl hz hx => ?_, fun err he => ?_⟩
  · obtain ⟨e1, _, e3⟩ := g5 m hm
    exact ⟨e3, e1⟩
  · exact g7 m (by rw [h3]; exact hm) (by rw [h3]; exact hl) (by rw [h4]; exact hz) hx
  · change o.lazy = lastLazy r true calls at h4
    rw [← h4]
    rcases g8 err he with ⟨hz, rfl⟩ | ⟨hz, rfl⟩ <;> rw [hz] <;> rfl

/-- C113: `get_instance` answers with the same object for ever, the first one that was constructed. -/
theorem C113_first (s : Proc) (c : Cls) (calls : List ProcCall) :
    ((s.construct c).2.run P calls).getInstance.1 = some (s.inst.getD s.objs.length) := by
  have := run_inst (P := P) (construct_inst s c) calls
  simp [Proc.getInstance, this]

/-- C113: called before any constructor, `get_instance` makes an object of the base class and answers with it from then
on. -/
theorem C113_none_yet (cores : Option Nat) (calls : List ProcCall) :
    let s := (Proc.getInstance { cores := cores }).2
    (Proc.getInstance { cores := cores }).1 = some 0 ∧ (s.run P calls).getInstance.1 = some 0 ∧
    ∃ o, (s.run P calls).objs[0]? = some o ∧ o.cls = .base := by
  intro s
  have hi := run_inst (P := P) (s := s) (i := 0) rfl calls
  refine ⟨rfl, by simp [Proc.getInstance, hi], ?_⟩
  exact run_cls (P := P) (s := s) (i := 0) (o := { cls := .base }) rfl calls

/-- C113, negative: after the import of the library that object is the log.  `DiscreteLog.get_instance()` and
`Scheduler.get_instance()` therefore never answer with a discrete logarithm or a scheduler: in every state the methods
of both classes raise `AttributeError` on the answer. -/
theorem C113_get_instance_fails (cores : Option Nat) (calls : List ProcCall) :
    let s := (Proc.imported cores).run P calls
    s.getInstance = (some 0, s) ∧ Unusable s 0 ∧ (s.enter 0).1 = .error .attribute ∧
    (s.closePools 0).1 = .error .attribute ∧ ∀ op, (s.dlogCall P 0 op).1 = some (.error .attribute) := by
  intro s
  have hi : s.inst = some 0 := run_inst (s := Proc.imported cores) rfl calls
  obtain ⟨o, h1, h2⟩ := run_cls (P := P) (s := Proc.imported cores) (i := 0) (o := { cls := .log }) rfl calls
  change s.objs[0]? = some o at h1
  change o.cls = .log at h2
  refine ⟨by simp [Proc.getInstance, hi], fun α β task as => by simp [Proc.schedule, h1, h2],
    by simp [Proc.enter, h1, h2], by simp [Proc.closePools, h1, h2],
    fun op => by simp [Proc.dlogCall, h1, h2]⟩

/-- C113, negative: there is not one set of pools: two schedulers have pools of their own, and closing the first does
not close the second. -/
theorem C113_two_schedulers_fails (cores : Option Nat) (pre : List ProcCall) (hn : ∃ n ≥ 1, cores = some n) :
    let s := (Proc.imported cores).run P pre
    let t := s.run P [.new .scheduler, .new .scheduler]
    ∃ r r', r ≠ r' ∧ Delivers t r ∧ Delivers t r' ∧ Idle (t.run P [.close r]) r ∧
      Delivers (t.run P [.close r]) r' := by
  intro s t
  have hs : PoolsInv s := run_inv (imported_inv cores) pre
  have h0 : PoolsOf (s.construct .scheduler).2 s.objs.length true :=
    construct_running ((C112_opens_iff (P := P) cores pre).2 hn)
  have i1 : PoolsInv (s.construct .scheduler).2 := construct_inv _ hs
  have e : (s.construct .scheduler).2 = (Proc.imported cores).run P (pre ++ [.new .scheduler]) := by
    simp [s, Proc.run, Proc.step]
  have h1 : PoolsOf t (s.construct .scheduler).2.objs.length true := by
    refine construct_running ?_
    have := (C112_opens_iff (P := P) cores (pre ++ [.new .scheduler])).2 hn
    rw [← e] at this
    exact this
  have h2 : PoolsOf t s.objs.length true := construct_poolsOf _ h0
  have i2 : PoolsInv t := construct_inv _ i1
  have hne : s.objs.length ≠ (s.construct .scheduler).2.objs.length := by
    have := poolsOf_lt h0; omega
  exact ⟨_, _, hne, delivers_of_running h2, delivers_of_running h1, idle_of_closed (closePools_closed h2).2,
    delivers_of_running (closePools_other i2 (Ne.symm hne) h1)⟩

/-- C113, negative: a limit set with `DiscreteLog().set_max_exponent(n)`, as the tests of the repository set the
evaluation mode, has no effect on any later lookup of the library. -/
theorem C113_settings_fails (hv : P.Valid) (hq : dlogSystemMax < P.q) (cores : Option Nat) (pre : List ProcCall)
    (n x : Nat) (b : Bool) :
    let s := (Proc.imported cores).run P pre
    (s.run P [.new .dlog, .dlog s.objs.length (.setMax n), .dlog s.objs.length (.setLazy b)]).freshLog P x =
      s.freshLog P x := by
  intro s
  have e : s.run P [.new .dlog, .dlog s.objs.length (.setMax n), .dlog s.objs.length (.setLazy b)] =
      (Proc.imported cores).run P
        (pre ++ [.new .dlog, .dlog s.objs.length (.setMax n), .dlog s.objs.length (.setLazy b)]) := by
    simp [s, Proc.run]
  rw [e, C113_fresh_partial hv hq, C113_fresh_partial hv hq]

/-- C113, negative: in a group smaller than the limit of the class (which the theorems above exclude) a failed lookup
through one object spoils the answers of all others: the logarithm of `1 = g^0` becomes 13. -/
theorem C113_small_group_fails :
    ((Proc.imported (some 4)).run extraSmall [.new .dlog, .dlog 1 (.setMax 14), .dlog 1 (.log 2)]).freshLog
      extraSmall 1 = some (.ok 13) ∧
    (Proc.imported (some 4)).freshLog extraSmall 1 = some (.ok 0) := by
  decide +kernel

/-- The limit of a kept object does have an effect on it: the lookup of `g^3` fails under the limit 2 and succeeds through
a new object.  (The group is smaller than the limit of the class, which the theorems above exclude.) -/
example :
    let s := (Proc.imported (some 4)).run extraSmall [.new .dlog, .dlog 1 (.setMax 2)]
    (s.dlogCall extraSmall 1 (.log (extraSmall.g ^ 3 % extraSmall.p))).1 = some (.error .dlogExponent) ∧
    s.freshLog extraSmall (extraSmall.g ^ 3 % extraSmall.p) = some (.ok 3) := by
  decide +kernel

end EG
