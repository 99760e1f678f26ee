import Verif.Spec.Instances
import Verif.Lemmas.DiscreteLogHistory

/-!
# Lemmas on schedulers and instances
-/

namespace EG

variable {P : Params}

/-- The pools of object `r` and whether they are running. -/
def PoolsOf (s : Proc) (r : Nat) (b : Bool) : Prop :=
  ∃ o k p, s.objs[r]? = some o ∧ o.cls = .scheduler ∧ o.pools = some k ∧ s.pools[k]? = some p ∧ p.running = b

/-- Every pair of pools belongs to at most one object. -/
structure PoolsInv (s : Proc) : Prop where
  lt : ∀ (r : Nat) (o : Obj) (k : Nat), s.objs[r]? = some o → o.pools = some k → k < s.pools.length
  one : ∀ (r r' : Nat) (o o' : Obj) (k : Nat), s.objs[r]? = some o → s.objs[r']? = some o' → o.pools = some k → o'.pools = some k →
    r = r'

theorem mapM_forall₂_inst {α β : Type} {task : α → R β} {as : List α} {rs : List β}
    (h : List.Forall₂ (fun a b => task a = .ok b) as rs) : as.mapM task = .ok rs := by
  induction h with
  | nil => rfl
  | cons h _ ih => rw [List.mapM_cons, h, ih]; rfl

theorem mapM_raises {α β : Type} {task : α → R β} {as : List α}
    (h : ∃ a ∈ as, ∃ e, task a = .error e) : ∃ e, as.mapM task = .error e := by
  induction as with
  | nil => obtain ⟨a, ha, _⟩ := h; cases ha
  | cons a as ih =>
    rw [List.mapM_cons]
    cases ht : task a with
    | error e => exact ⟨e, rfl⟩
    | ok b =>
      obtain ⟨a', ha', e, he⟩ := h
      rcases List.mem_cons.1 ha' with rfl | hm
      · rw [ht] at he; cases he
      · obtain ⟨e', he'⟩ := ih ⟨a', hm, e, he⟩
        exact ⟨e', by rw [he']; rfl⟩

theorem delivers_of_running {s : Proc} {r : Nat} (h : PoolsOf s r true) : Delivers s r := by
  obtain ⟨o, k, p, h1, h2, h3, h4, h5⟩ := h
  intro α β task as
  refine ⟨fun rs hrs => ?_, fun hr => ?_⟩
  · simp only [Proc.schedule, h1, h2, h3, h4, h5, if_true, mapM_forall₂_inst hrs]
  · obtain ⟨e, he⟩ := mapM_raises hr
    simp only [Proc.schedule, h1, h2, h3, h4, h5, if_true, he]

theorem idle_of_closed {s : Proc} {r : Nat} (h : PoolsOf s r false) : Idle s r := by
  obtain ⟨o, k, p, h1, h2, h3, h4, h5⟩ := h
  intro α β task as
  simp [Proc.schedule, h1, h2, h3, h4, h5]

/-! The effect of each call on objects and pools. -/

theorem openPools_cases (s : Proc) (r : Nat) :
    (∃ e, s.openPools r = (.error e, s)) ∨
    ∃ n o, poolSize s.cores = .ok n ∧ s.objs[r]? = some o ∧
      s.openPools r = (.ok (), { s with
        objs := s.objs.set r { o with pools := some s.pools.length }
        pools := s.pools ++ [⟨n, true⟩] }) := by
  unfold Proc.openPools
  cases h : poolSize s.cores with
  | error e => exact .inl ⟨e, rfl⟩
  | ok n =>
    cases ho : s.objs[r]? with
    | none => exact .inl ⟨_, rfl⟩
    | some o => exact .inr ⟨n, o, rfl, rfl, rfl⟩

theorem openPools_cores (s : Proc) (r : Nat) : (s.openPools r).2.cores = s.cores := by
  rcases openPools_cases s r with ⟨e, h⟩ | ⟨n, o, _, _, h⟩ <;> rw [h]

theorem openPools_length (s : Proc) (r : Nat) : (s.openPools r).2.objs.length = s.objs.length := by
  rcases openPools_cases s r with ⟨e, h⟩ | ⟨n, o, _, _, h⟩ <;> rw [h] <;> simp

theorem openPools_inv {s : Proc} (r : Nat) (hs : PoolsInv s) : PoolsInv (s.openPools r).2 := by
  rcases openPools_cases s r with ⟨e, h⟩ | ⟨n, o, _, ho, h⟩
  · rw [h]; exact hs
  rw [h]
  refine ⟨fun i x k hi hk => ?_, fun i j x y k hi hj hx hy => ?_⟩
  · simp only [List.getElem?_set, List.length_append, List.length_singleton] at hi ⊢
    split at hi
    · split at hi
      · cases hi; cases hk; omega
      · cases hi
    · have := hs.lt i x k hi hk; omega
  · simp only [List.getElem?_set] at hi hj
    by_cases h1 : r = i <;> by_cases h2 : r = j
    · omega
    · rw [if_pos h1] at hi; rw [if_neg h2] at hj
      split at hi
      · cases hi; cases hx
        have := hs.lt j y _ hj hy; omega
      · cases hi
    · rw [if_neg h1] at hi; rw [if_pos h2] at hj
      split at hj
      · cases hj; cases hy
        have := hs.lt i x _ hi hx; omega
      · cases hj
    · rw [if_neg h1] at hi; rw [if_neg h2] at hj
      exact hs.one i j x y k hi hj hx hy

/-- Opening the pools of one object changes nothing for the others. -/
theorem openPools_other {s : Proc} {r i : Nat} (hi : i ≠ r) {b : Bool} (h : PoolsOf s i b) :
    PoolsOf (s.openPools r).2 i b := by
  obtain ⟨o, k, p, h1, h2, h3, h4, h5⟩ := h
  rcases openPools_cases s r with ⟨e, h⟩ | ⟨n, o', _, ho, h⟩
  · rw [h]; exact ⟨o, k, p, h1, h2, h3, h4, h5⟩
  rw [h]
  refine ⟨o, k, p, ?_, h2, h3, ?_, h5⟩
  · simp only [List.getElem?_set, if_neg (Ne.symm hi), h1]
  · simp only []
    rw [List.getElem?_append_left (by exact (List.getElem?_eq_some_iff.1 h4).1)]; exact h4

/-- A successful opening leaves running pools. -/
theorem openPools_running {s : Proc} {r : Nat} {o : Obj} (ho : s.objs[r]? = some o) (hc : o.cls = .scheduler)
    (h : (s.openPools r).1 = .ok ()) : PoolsOf (s.openPools r).2 r true := by
  rcases openPools_cases s r with ⟨e, he⟩ | ⟨n, o', _, ho', he⟩
  · rw [he] at h; cases h
  obtain rfl : o = o' := Option.some.inj (ho.symm.trans ho')
  rw [he]
  have hl : r < s.objs.length := (List.getElem?_eq_some_iff.1 ho).1
  refine ⟨{ o with pools := some s.pools.length }, s.pools.length, ⟨n, true⟩, ?_, hc, rfl, ?_, rfl⟩
  · simp [List.getElem?_set, hl]
  · simp

/-- Appending an object without pools changes nothing for the others. -/
theorem append_poolsOf {s : Proc} {c : Cls} {inst : Option Nat} {i : Nat} {b : Bool} (h : PoolsOf s i b) :
    PoolsOf { s with objs := s.objs ++ [{ cls := c }], inst := inst } i b := by
  obtain ⟨o, k, p, h1, h2, h3, h4, h5⟩ := h
  refine ⟨o, k, p, ?_, h2, h3, h4, h5⟩
  simp only []
  rw [List.getElem?_append_left (by exact (List.getElem?_eq_some_iff.1 h1).1)]; exact h1

theorem append_inv {s : Proc} {c : Cls} {inst : Option Nat} (hs : PoolsInv s) :
    PoolsInv { s with objs := s.objs ++ [{ cls := c }], inst := inst } := by
  have key : ∀ (i : Nat) (x : Obj) (k : Nat), (s.objs ++ [({ cls := c } : Obj)])[i]? = some x → x.pools = some k →
      s.objs[i]? = some x := by
    intro i x k hi hk
    rw [List.getElem?_append] at hi
    split at hi
    · exact hi
    · rw [List.getElem?_singleton] at hi
      split at hi
      · cases hi; cases hk
      · cases hi
  exact ⟨fun i x k hi hk => hs.lt i x k (key i x k hi hk) hk,
    fun i j x y k hi hj hx hy => hs.one i j x y k (key i x k hi hx) (key j y k hj hy) hx hy⟩

theorem poolsOf_lt {s : Proc} {r : Nat} {b : Bool} (h : PoolsOf s r b) : r < s.objs.length := by
  obtain ⟨o, k, p, h1, _⟩ := h
  exact (List.getElem?_eq_some_iff.1 h1).1

theorem construct_inv {s : Proc} (c : Cls) (hs : PoolsInv s) : PoolsInv (s.construct c).2 := by
  unfold Proc.construct
  cases c with
  | scheduler => exact openPools_inv _ (append_inv hs)
  | base => exact append_inv hs
  | log => exact append_inv hs
  | dlog => exact append_inv hs

theorem construct_poolsOf {s : Proc} (c : Cls) {i : Nat} {b : Bool} (h : PoolsOf s i b) :
    PoolsOf (s.construct c).2 i b := by
  have := poolsOf_lt h
  unfold Proc.construct
  cases c with
  | scheduler => exact openPools_other (by omega) (append_poolsOf h)
  | base => exact append_poolsOf h
  | log => exact append_poolsOf h
  | dlog => exact append_poolsOf h

theorem closePools_cases (s : Proc) (r : Nat) :
    (∃ e, s.closePools r = (.error e, s)) ∨
    ∃ o k, s.objs[r]? = some o ∧ o.cls = .scheduler ∧ o.pools = some k ∧
      s.closePools r = (.ok (), { s with pools := s.pools.modify k (fun p => { p with running := false }) }) := by
  unfold Proc.closePools
  cases ho : s.objs[r]? with
  | none => exact .inl ⟨_, rfl⟩
  | some o =>
    simp only []
    cases hc : o.cls <;> cases hp : o.pools <;> simp [hp, hc]

theorem closePools_inv {s : Proc} (r : Nat) (hs : PoolsInv s) : PoolsInv (s.closePools r).2 := by
  rcases closePools_cases s r with ⟨e, h⟩ | ⟨o, k, _, _, _, h⟩
  · rw [h]; exact hs
  · rw [h]
    exact ⟨fun i x k hi hk => by simpa using hs.lt i x k hi hk, hs.one⟩

theorem closePools_other {s : Proc} (hs : PoolsInv s) {r i : Nat} (hi : i ≠ r) {b : Bool} (h : PoolsOf s i b) :
    PoolsOf (s.closePools r).2 i b := by
  obtain ⟨o, k, p, h1, h2, h3, h4, h5⟩ := h
  rcases closePools_cases s r with ⟨e, h⟩ | ⟨o', k', g1, g2, g3, h⟩
  · rw [h]; exact ⟨o, k, p, h1, h2, h3, h4, h5⟩
  rw [h]
  have hk : k' ≠ k := fun he => hi (hs.one i r o o' k h1 g1 h3 (he ▸ g3))
  refine ⟨o, k, p, h1, h2, h3, ?_, h5⟩
  simp only [List.getElem?_modify, h4]
  simp [hk]

theorem closePools_closed {s : Proc} {r : Nat} {b : Bool} (h : PoolsOf s r b) :
    (s.closePools r).1 = .ok () ∧ PoolsOf (s.closePools r).2 r false := by
  obtain ⟨o, k, p, h1, h2, h3, h4, h5⟩ := h
  unfold Proc.closePools
  simp only [h1, h2, h3]
  refine ⟨trivial, o, k, { p with running := false }, h1, h2, h3, ?_, rfl⟩
  simp [List.getElem?_modify, h4]

theorem enter_cases (s : Proc) (r : Nat) :
    (∃ e, s.enter r = (.error e, s)) ∨
    ∃ o, s.objs[r]? = some o ∧ o.cls = .scheduler ∧ s.enter r = s.openPools r := by
  unfold Proc.enter
  cases ho : s.objs[r]? with
  | none => exact .inl ⟨_, rfl⟩
  | some o =>
    simp only []
    cases hc : o.cls <;> simp [hc]

theorem dlogCall_cases (s : Proc) (r : Nat) (op : DLogOp) :
    (∃ e, s.dlogCall P r op = (e, s)) ∨
    ∃ o, s.objs[r]? = some o ∧ o.cls = .dlog ∧ s.dlogCall P r op =
      ((dlogStep P ⟨s.cache, s.moduleCache, o.maxExponent, o.lazy⟩ op).1, { s with
        objs := s.objs.set r { o with
          maxExponent := (dlogStep P ⟨s.cache, s.moduleCache, o.maxExponent, o.lazy⟩ op).2.maxExponent
          lazy := (dlogStep P ⟨s.cache, s.moduleCache, o.maxExponent, o.lazy⟩ op).2.lazy }
        cache := (dlogStep P ⟨s.cache, s.moduleCache, o.maxExponent, o.lazy⟩ op).2.cache
        moduleCache := (dlogStep P ⟨s.cache, s.moduleCache, o.maxExponent, o.lazy⟩ op).2.moduleCache }) := by
  unfold Proc.dlogCall
  cases ho : s.objs[r]? with
  | none => exact .inl ⟨_, rfl⟩
  | some o =>
    simp only []
    cases hc : o.cls <;> simp [hc]

/-- Methods of `DiscreteLog` leave the pools of every object alone. -/
theorem dlogCall_pools (s : Proc) (r : Nat) (op : DLogOp) :
    (s.dlogCall P r op).2.pools = s.pools ∧
    ∀ i : Nat, ((s.dlogCall P r op).2.objs[i]?).map (fun o => (o.cls, o.pools)) =
      (s.objs[i]?).map (fun o => (o.cls, o.pools)) := by
  rcases dlogCall_cases (P := P) s r op with ⟨e, h⟩ | ⟨o, ho, hc, h⟩
  · rw [h]; exact ⟨rfl, fun _ => rfl⟩
  · rw [h]
    refine ⟨rfl, fun i => ?_⟩
    simp only [List.getElem?_set]
    by_cases hi : r = i
    · subst hi
      rw [if_pos rfl, if_pos (List.getElem?_eq_some_iff.1 ho).1, ho]; rfl
    · rw [if_neg hi]

theorem poolsOf_congr {s t : Proc} (hp : t.pools = s.pools)
    (ho : ∀ i : Nat, (t.objs[i]?).map (fun o => (o.cls, o.pools)) = (s.objs[i]?).map (fun o => (o.cls, o.pools)))
    {i : Nat} {b : Bool} (h : PoolsOf s i b) : PoolsOf t i b := by
  obtain ⟨o, k, p, h1, h2, h3, h4, h5⟩ := h
  have := ho i
  rw [h1, Option.map_some] at this
  obtain ⟨o', g1, g2⟩ := Option.map_eq_some_iff.1 this
  injection g2 with g2 g3
  exact ⟨o', k, p, g1, g2.trans h2, g3.trans h3, by rw [hp]; exact h4, h5⟩

theorem inv_congr {s t : Proc} (hp : t.pools = s.pools)
    (ho : ∀ i : Nat, (t.objs[i]?).map (fun o => (o.cls, o.pools)) = (s.objs[i]?).map (fun o => (o.cls, o.pools)))
    (hs : PoolsInv s) : PoolsInv t := by
  have key : ∀ (i : Nat) (x : Obj) (k : Nat), t.objs[i]? = some x → x.pools = some k → ∃ x', s.objs[i]? = some x' ∧ x'.pools = some k := by
    intro i x k hi hk
    have := ho i
    rw [hi, Option.map_some] at this
    obtain ⟨o', g1, g2⟩ := Option.map_eq_some_iff.1 this.symm
    injection g2 with g2 g3
    exact ⟨o', g1, g3.trans hk⟩
  refine ⟨fun i x k hi hk => ?_, fun i j x y k hi hj hx hy => ?_⟩
  · obtain ⟨x', g1, g2⟩ := key i x k hi hk
    rw [hp]; exact hs.lt i x' k g1 g2
  · obtain ⟨x', g1, g2⟩ := key i x k hi hx
    obtain ⟨y', e1, e2⟩ := key j y k hj hy
    exact hs.one i j x' y' k g1 e1 g2 e2

theorem getInstance_cases (s : Proc) : s.getInstance.2 = s ∨ s.getInstance.2 = (s.construct .base).2 := by
  unfold Proc.getInstance
  cases s.inst <;> simp

theorem step_inv {s : Proc} (hs : PoolsInv s) (c : ProcCall) : PoolsInv (s.step P c) := by
  cases c with
  | new c => exact construct_inv c hs
  | getInstance =>
    rcases getInstance_cases s with h | h <;> rw [Proc.step, h]
    · exact hs
    · exact construct_inv _ hs
  | enter r =>
    rcases enter_cases s r with ⟨e, h⟩ | ⟨o, _, _, h⟩ <;> rw [Proc.step, h]
    · exact hs
    · exact openPools_inv r hs
  | close r => exact closePools_inv r hs
  | dlog r op =>
    obtain ⟨h1, h2⟩ := dlogCall_pools (P := P) s r op
    exact inv_congr h1 h2 hs

theorem run_inv {s : Proc} (hs : PoolsInv s) (calls : List ProcCall) : PoolsInv (s.run P calls) := by
  induction calls generalizing s with
  | nil => exact hs
  | cons c calls ih => exact ih (step_inv hs c)

theorem imported_inv (cores : Option Nat) : PoolsInv (.imported cores) := by
  refine construct_inv .log ⟨?_, ?_⟩ <;> intros <;> simp_all

/-- A working scheduler works until it is closed. -/
theorem step_running {s : Proc} (hs : PoolsInv s) {r : Nat} (h : PoolsOf s r true) {c : ProcCall}
    (hc : c ≠ .close r) : PoolsOf (s.step P c) r true := by
  cases c with
  | new c => exact construct_poolsOf c h
  | getInstance =>
    rcases getInstance_cases s with g | g <;> rw [Proc.step, g]
    · exact h
    · exact construct_poolsOf _ h
  | enter r' =>
    rcases enter_cases s r' with ⟨e, g⟩ | ⟨o, ho, hcl, g⟩ <;> rw [Proc.step, g]
    · exact h
    · by_cases hr : r = r'
      · subst hr
        rcases openPools_cases s r with ⟨e, g'⟩ | ⟨n, o', _, ho', g'⟩
        · rw [g']; exact h
        · exact openPools_running ho hcl (by rw [g'])
      · exact openPools_other hr h
  | close r' => exact closePools_other hs (fun he => hc (congrArg ProcCall.close he.symm)) h
  | dlog r' op =>
    obtain ⟨h1, h2⟩ := dlogCall_pools (P := P) s r' op
    exact poolsOf_congr h1 h2 h

theorem run_running {s : Proc} (hs : PoolsInv s) {r : Nat} (h : PoolsOf s r true) {calls : List ProcCall}
    (hc : .close r ∉ calls) : PoolsOf (s.run P calls) r true := by
  induction calls generalizing s with
  | nil => exact h
  | cons c calls ih =>
    simp only [List.mem_cons, not_or] at hc
    exact ih (step_inv hs c) (step_running hs h (Ne.symm hc.1)) hc.2

/-- A closed scheduler stays closed until it is entered. -/
theorem step_closed {s : Proc} (hs : PoolsInv s) {r : Nat} (h : PoolsOf s r false) {c : ProcCall}
    (hc : c ≠ .enter r) : PoolsOf (s.step P c) r false := by
  cases c with
  | new c => exact construct_poolsOf c h
  | getInstance =>
    rcases getInstance_cases s with g | g <;> rw [Proc.step, g]
    · exact h
    · exact construct_poolsOf _ h
  | enter r' =>
    rcases enter_cases s r' with ⟨e, g⟩ | ⟨o, ho, hcl, g⟩ <;> rw [Proc.step, g]
    · exact h
    · exact openPools_other (fun he => hc (congrArg ProcCall.enter he.symm)) h
  | close r' =>
    by_cases hr : r = r'
    · subst hr; exact (closePools_closed h).2
    · exact closePools_other hs hr h
  | dlog r' op =>
    obtain ⟨h1, h2⟩ := dlogCall_pools (P := P) s r' op
    exact poolsOf_congr h1 h2 h

theorem run_closed {s : Proc} (hs : PoolsInv s) {r : Nat} (h : PoolsOf s r false) {calls : List ProcCall}
    (hc : .enter r ∉ calls) : PoolsOf (s.run P calls) r false := by
  induction calls generalizing s with
  | nil => exact h
  | cons c calls ih =>
    simp only [List.mem_cons, not_or] at hc
    exact ih (step_inv hs c) (step_closed hs h (Ne.symm hc.1)) hc.2

theorem construct_running {s : Proc} (h : (s.construct .scheduler).1 = .ok ()) :
    PoolsOf (s.construct .scheduler).2 s.objs.length true := by
  unfold Proc.construct at h ⊢
  exact openPools_running (o := { cls := .scheduler }) (by simp) rfl h

theorem enter_running {s : Proc} {r : Nat} (h : (s.enter r).1 = .ok ()) :
    PoolsOf (s.enter r).2 r true := by
  rcases enter_cases s r with ⟨e, g⟩ | ⟨o, ho, hcl, g⟩
  · rw [g] at h; cases h
  · rw [g] at h ⊢; exact openPools_running ho hcl h

/-! Pools that no object refers to. -/

/-- Nothing refers to the pair of pools `k`, which is running. -/
def Orphan (s : Proc) (k : Nat) (p : PoolPair) : Prop :=
  s.pools[k]? = some p ∧ ∀ (i : Nat) (o : Obj), s.objs[i]? = some o → o.pools ≠ some k

theorem orphan_lt {s : Proc} {k : Nat} {p : PoolPair} (h : Orphan s k p) : k < s.pools.length :=
  (List.getElem?_eq_some_iff.1 h.1).1

theorem openPools_orphan {s : Proc} (r : Nat) {k : Nat} {p : PoolPair} (h : Orphan s k p) :
    Orphan (s.openPools r).2 k p := by
  have hk := orphan_lt h
  rcases openPools_cases s r with ⟨e, g⟩ | ⟨n, o, _, ho, g⟩
  · rw [g]; exact h
  rw [g]
  refine ⟨?_, fun i x hi => ?_⟩
  · simp only []
    rw [List.getElem?_append_left hk]; exact h.1
  · simp only [List.getElem?_set] at hi
    split at hi
    · split at hi
      · cases hi; simp only [ne_eq, Option.some.injEq]; omega
      · cases hi
    · exact h.2 i x hi

theorem append_orphan {s : Proc} {c : Cls} {inst : Option Nat} {k : Nat} {p : PoolPair} (h : Orphan s k p) :
    Orphan { s with objs := s.objs ++ [{ cls := c }], inst := inst } k p := by
  refine ⟨h.1, fun i x hi => ?_⟩
  rw [List.getElem?_append] at hi
  split at hi
  · exact h.2 i x hi
  · rw [List.getElem?_singleton] at hi
    split at hi
    · cases hi; simp
    · cases hi

theorem construct_orphan {s : Proc} (c : Cls) {k : Nat} {p : PoolPair} (h : Orphan s k p) :
    Orphan (s.construct c).2 k p := by
  unfold Proc.construct
  cases c with
  | scheduler => exact openPools_orphan _ (append_orphan h)
  | base => exact append_orphan h
  | log => exact append_orphan h
  | dlog => exact append_orphan h

theorem step_orphan {s : Proc} {k : Nat} {p : PoolPair} (h : Orphan s k p) (c : ProcCall) :
    Orphan (s.step P c) k p := by
  cases c with
  | new c => exact construct_orphan c h
  | getInstance =>
    rcases getInstance_cases s with g | g <;> rw [Proc.step, g]
    · exact h
    · exact construct_orphan _ h
  | enter r' =>
    rcases enter_cases s r' with ⟨e, g⟩ | ⟨o, ho, hcl, g⟩ <;> rw [Proc.step, g]
    · exact h
    · exact openPools_orphan _ h
  | close r' =>
    rcases closePools_cases s r' with ⟨e, g⟩ | ⟨o', k', g1, g2, g3, g⟩ <;> rw [Proc.step, g]
    · exact h
    · have hk : k' ≠ k := fun he => h.2 r' o' g1 (he ▸ g3)
      refine ⟨?_, h.2⟩
      simp only [List.getElem?_modify, h.1]
      simp [hk]
  | dlog r' op =>
    obtain ⟨h1, h2⟩ := dlogCall_pools (P := P) s r' op
    refine ⟨by rw [Proc.step, h1]; exact h.1, fun i x hi => ?_⟩
    have := h2 i
    rw [Proc.step] at hi
    rw [hi, Option.map_some] at this
    obtain ⟨o', g1, g2⟩ := Option.map_eq_some_iff.1 this.symm
    injection g2 with g2 g3
    rw [← g3]; exact h.2 i o' g1

theorem run_orphan {s : Proc} {k : Nat} {p : PoolPair} (h : Orphan s k p) (calls : List ProcCall) :
    Orphan (s.run P calls) k p := by
  induction calls generalizing s with
  | nil => exact h
  | cons c calls ih => exact ih (step_orphan h c)

/-! What stays the same. -/

theorem construct_cores (s : Proc) (c : Cls) : (s.construct c).2.cores = s.cores := by
  unfold Proc.construct
  cases c with
  | scheduler => exact openPools_cores _ _
  | base => rfl
  | log => rfl
  | dlog => rfl

theorem step_cores (s : Proc) (c : ProcCall) : (s.step P c).cores = s.cores := by
  cases c with
  | new c => exact construct_cores s c
  | getInstance =>
    rcases getInstance_cases s with g | g <;> rw [Proc.step, g]
    exact construct_cores s _
  | enter r' =>
    rcases enter_cases s r' with ⟨e, g⟩ | ⟨o, ho, hcl, g⟩ <;> rw [Proc.step, g]
    exact openPools_cores _ _
  | close r' => rcases closePools_cases s r' with ⟨e, g⟩ | ⟨o', k', g1, g2, g3, g⟩ <;> rw [Proc.step, g]
  | dlog r' op => rcases dlogCall_cases (P := P) s r' op with ⟨e, g⟩ | ⟨o, ho, hc, g⟩ <;> rw [Proc.step, g]

theorem run_cores (s : Proc) (calls : List ProcCall) : (s.run P calls).cores = s.cores := by
  induction calls generalizing s with
  | nil => rfl
  | cons c calls ih => rw [Proc.run, List.foldl_cons]; exact (ih _).trans (step_cores s c)

/-- Objects keep their class, and they are never removed. -/
theorem openPools_cls {s : Proc} (r : Nat) {i : Nat} {o : Obj} (h : s.objs[i]? = some o) :
    ∃ o', (s.openPools r).2.objs[i]? = some o' ∧ o'.cls = o.cls ∧ o'.maxExponent = o.maxExponent ∧
      o'.lazy = o.lazy := by
  rcases openPools_cases s r with ⟨e, g⟩ | ⟨n, x, _, hx, g⟩ <;> rw [g]
  · exact ⟨o, h, rfl, rfl, rfl⟩
  · simp only [List.getElem?_set]
    by_cases hi : r = i
    · subst hi
      obtain rfl : o = x := Option.some.inj (h.symm.trans hx)
      rw [if_pos rfl, if_pos (List.getElem?_eq_some_iff.1 h).1]
      exact ⟨_, rfl, rfl, rfl, rfl⟩
    · rw [if_neg hi]; exact ⟨o, h, rfl, rfl, rfl⟩

theorem construct_cls {s : Proc} (c : Cls) {i : Nat} {o : Obj} (h : s.objs[i]? = some o) :
    ∃ o', (s.construct c).2.objs[i]? = some o' ∧ o'.cls = o.cls ∧ o'.maxExponent = o.maxExponent ∧
      o'.lazy = o.lazy := by
  have h' : (s.objs ++ [({ cls := c } : Obj)])[i]? = some o := by
    rw [List.getElem?_append_left (List.getElem?_eq_some_iff.1 h).1]; exact h
  unfold Proc.construct
  cases c with
  | scheduler => exact openPools_cls _ h'
  | base => exact ⟨o, h', rfl, rfl, rfl⟩
  | log => exact ⟨o, h', rfl, rfl, rfl⟩
  | dlog => exact ⟨o, h', rfl, rfl, rfl⟩

theorem openPools_inst (s : Proc) (r : Nat) : (s.openPools r).2.inst = s.inst := by
  rcases openPools_cases s r with ⟨e, h⟩ | ⟨n, o, _, _, h⟩ <;> rw [h]

theorem construct_inst (s : Proc) (c : Cls) :
    (s.construct c).2.inst = some (s.inst.getD s.objs.length) := by
  unfold Proc.construct
  cases c with
  | scheduler => rw [openPools_inst]; cases s.inst <;> rfl
  | base => cases s.inst <;> rfl
  | log => cases s.inst <;> rfl
  | dlog => cases s.inst <;> rfl

theorem step_inst {s : Proc} {i : Nat} (h : s.inst = some i) (c : ProcCall) : (s.step P c).inst = some i := by
  cases c with
  | new c => rw [Proc.step, construct_inst, h]; rfl
  | getInstance =>
    rcases getInstance_cases s with g | g <;> rw [Proc.step, g]
    · exact h
    · rw [construct_inst, h]; rfl
  | enter r' =>
    rcases enter_cases s r' with ⟨e, g⟩ | ⟨o, ho, hcl, g⟩ <;> rw [Proc.step, g]
    · exact h
    · rw [openPools_inst]; exact h
  | close r' => rcases closePools_cases s r' with ⟨e, g⟩ | ⟨o', k', g1, g2, g3, g⟩ <;> rw [Proc.step, g] <;> exact h
  | dlog r' op =>
    rcases dlogCall_cases (P := P) s r' op with ⟨e, g⟩ | ⟨o, ho, hc, g⟩ <;> rw [Proc.step, g] <;> exact h

theorem run_inst {s : Proc} {i : Nat} (h : s.inst = some i) (calls : List ProcCall) :
    (s.run P calls).inst = some i := by
  induction calls generalizing s with
  | nil => exact h
  | cons c calls ih => exact ih (step_inst h c)

/-- The class and the settings of an object after one call. -/
theorem step_settings {s : Proc} {i : Nat} {o : Obj} (h : s.objs[i]? = some o) (c : ProcCall)
    (hd : o.cls = .dlog ∨ ∀ op, c ≠ .dlog i op) :
    ∃ o', (s.step P c).objs[i]? = some o' ∧ o'.cls = o.cls ∧
      o'.maxExponent = lastMax i o.maxExponent [c] ∧ o'.lazy = lastLazy i o.lazy [c] := by
  cases c with
  | new c => exact construct_cls c h
  | getInstance =>
    rcases getInstance_cases s with g | g <;> rw [Proc.step, g]
    · exact ⟨o, h, rfl, rfl, rfl⟩
    · exact construct_cls _ h
  | enter r' =>
    rcases enter_cases s r' with ⟨e, g⟩ | ⟨x, ho, hcl, g⟩ <;> rw [Proc.step, g]
    · exact ⟨o, h, rfl, rfl, rfl⟩
    · exact openPools_cls _ h
  | close r' =>
    rcases closePools_cases s r' with ⟨e, g⟩ | ⟨o', k', g1, g2, g3, g⟩ <;> rw [Proc.step, g] <;>
      exact ⟨o, h, rfl, rfl, rfl⟩
  | dlog r' op =>
    by_cases hi : r' = i
    · subst hi
      rcases hd with hd | hd
      · simp only [Proc.step, Proc.dlogCall, h, hd]
        refine ⟨{ o with
            maxExponent := (dlogStep P ⟨s.cache, s.moduleCache, o.maxExponent, o.lazy⟩ op).2.maxExponent
            lazy := (dlogStep P ⟨s.cache, s.moduleCache, o.maxExponent, o.lazy⟩ op).2.lazy }, ?_, hd, ?_, ?_⟩
        · rw [List.getElem?_set, if_pos rfl, if_pos (List.getElem?_eq_some_iff.1 h).1]; simp [hd]
        · cases op <;> simp [dlogStep, lastMax]
        · cases op <;> simp [dlogStep, lastLazy]
      · exact absurd rfl (hd op)
    · have hm : lastMax i o.maxExponent [.dlog r' op] = o.maxExponent := by
        cases op <;> simp [lastMax, hi]
      have hl : lastLazy i o.lazy [.dlog r' op] = o.lazy := by
        cases op <;> simp [lastLazy, hi]
      rw [hm, hl]
      rcases dlogCall_cases (P := P) s r' op with ⟨e, g⟩ | ⟨x, ho, hc, g⟩ <;> rw [Proc.step, g]
      · exact ⟨o, h, rfl, rfl, rfl⟩
      · exact ⟨o, by simp only [List.getElem?_set]; rw [if_neg hi]; exact h, rfl, rfl, rfl⟩

theorem lastMax_cons (i d : Nat) (c : ProcCall) (calls : List ProcCall) :
    lastMax i d (c :: calls) = lastMax i (lastMax i d [c]) calls := by
  cases c with
  | dlog r op => cases op <;> simp [lastMax]
  | _ => simp [lastMax]

theorem lastLazy_cons (i : Nat) (d : Bool) (c : ProcCall) (calls : List ProcCall) :
    lastLazy i d (c :: calls) = lastLazy i (lastLazy i d [c]) calls := by
  cases c with
  | dlog r op => cases op <;> simp [lastLazy]
  | _ => simp [lastLazy]

theorem run_settings {s : Proc} {i : Nat} {o : Obj} (h : s.objs[i]? = some o) (hc : o.cls = .dlog)
    (calls : List ProcCall) :
    ∃ o', (s.run P calls).objs[i]? = some o' ∧ o'.cls = .dlog ∧
      o'.maxExponent = lastMax i o.maxExponent calls ∧ o'.lazy = lastLazy i o.lazy calls := by
  induction calls generalizing s o with
  | nil => exact ⟨o, h, hc, rfl, rfl⟩
  | cons c calls ih =>
    obtain ⟨o', h1, h2, h3, h4⟩ := step_settings (P := P) h c (.inl hc)
    obtain ⟨o'', g1, g2, g3, g4⟩ := ih h1 (h2.trans hc)
    exact ⟨o'', g1, g2, by rw [g3, h3, ← lastMax_cons], by rw [g4, h4, ← lastLazy_cons]⟩

theorem step_cls {s : Proc} {i : Nat} {o : Obj} (h : s.objs[i]? = some o) (c : ProcCall) :
    ∃ o', (s.step P c).objs[i]? = some o' ∧ o'.cls = o.cls := by
  by_cases hd : o.cls = .dlog ∨ ∀ op, c ≠ .dlog i op
  · obtain ⟨o', h1, h2, _⟩ := step_settings (P := P) h c hd
    exact ⟨o', h1, h2⟩
  · simp only [not_or, not_forall, not_not] at hd
    obtain ⟨hn, op, rfl⟩ := hd
    refine ⟨o, ?_, rfl⟩
    simp only [Proc.step, Proc.dlogCall, h]

theorem run_cls {s : Proc} {i : Nat} {o : Obj} (h : s.objs[i]? = some o) (calls : List ProcCall) :
    ∃ o', (s.run P calls).objs[i]? = some o' ∧ o'.cls = o.cls := by
  induction calls generalizing s o with
  | nil => exact ⟨o, h, rfl⟩
  | cons c calls ih =>
    obtain ⟨o', h1, h2⟩ := step_cls (P := P) h c
    obtain ⟨o'', g1, g2⟩ := ih h1
    exact ⟨o'', g1, g2.trans h2⟩

/-! The cache shared by all instances of `DiscreteLog`. -/

theorem openPools_cache (s : Proc) (r : Nat) : (s.openPools r).2.cache = s.cache := by
  rcases openPools_cases s r with ⟨e, h⟩ | ⟨n, o, _, _, h⟩ <;> rw [h]

theorem construct_cache (s : Proc) (c : Cls) : (s.construct c).2.cache = s.cache := by
  unfold Proc.construct
  cases c with
  | scheduler => exact openPools_cache _ _
  | base => rfl
  | log => rfl
  | dlog => rfl

theorem step_cache (hv : P.Valid) (hq : dlogSystemMax < P.q) {s : Proc}
    (h : ∃ n ≤ dlogSystemMax, s.cache = canon P n) (c : ProcCall) :
    ∃ n ≤ dlogSystemMax, (s.step P c).cache = canon P n := by
  cases c with
  | new c => rw [Proc.step, construct_cache]; exact h
  | getInstance =>
    rcases getInstance_cases s with g | g <;> rw [Proc.step, g]
    · exact h
    · rw [construct_cache]; exact h
  | enter r' =>
    rcases enter_cases s r' with ⟨e, g⟩ | ⟨x, ho, hcl, g⟩ <;> rw [Proc.step, g]
    · exact h
    · rw [openPools_cache]; exact h
  | close r' =>
    rcases closePools_cases s r' with ⟨e, g⟩ | ⟨o', k', g1, g2, g3, g⟩ <;> rw [Proc.step, g] <;> exact h
  | dlog r' op =>
    rcases dlogCall_cases (P := P) s r' op with ⟨e, g⟩ | ⟨o, ho, hc, g⟩ <;> rw [Proc.step, g]
    · exact h
    · obtain ⟨n, hn, hcan⟩ := h
      obtain ⟨n', g1, _, g3, _⟩ := dlogRun_inv hv hq [op] ⟨s.cache, s.moduleCache, o.maxExponent, o.lazy⟩
        (max o.maxExponent n) (le_max_left _ _) ⟨n, hn, le_max_right _ _, hcan⟩
      exact ⟨n', g1, g3⟩

theorem run_cache (hv : P.Valid) (hq : dlogSystemMax < P.q) {s : Proc}
    (h : ∃ n ≤ dlogSystemMax, s.cache = canon P n) (calls : List ProcCall) :
    ∃ n ≤ dlogSystemMax, (s.run P calls).cache = canon P n := by
  induction calls generalizing s with
  | nil => exact h
  | cons c calls ih => exact ih (step_cache hv hq h c)

theorem imported_cache (hv : P.Valid) (cores : Option Nat) :
    ∃ n ≤ dlogSystemMax, (Proc.imported cores).cache = canon P n :=
  ⟨0, Nat.zero_le _, (canon_zero hv.one_lt_p).symm⟩

end EG
