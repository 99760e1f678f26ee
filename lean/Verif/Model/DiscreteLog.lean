import Verif.Model.Group

/-!
# discrete_log.py

The cache is a Python `dict`, modelled as an insertion-ordered association list.  It is mutated in
place, so every function also returns the cache it leaves behind, on success and on error alike.
-/

namespace EG

/-- A Python dict from group elements to exponents, in insertion order. -/
abbrev DCache := List (Nat × Nat)

/-- `cache.get(k)`. -/
def dGet (c : DCache) (k : Nat) : Option Nat := (c.find? (fun e => e.1 == k)).map (·.2)

/-- `cache[k] = v`: overwrites in place when the key is present, else appends. -/
def dSet : DCache → Nat → Nat → DCache
  | [], k, v => [(k, v)]
  | e :: c, k, v => if e.1 == k then (k, v) :: c else e :: dSet c k v

/-- discrete_log.py:13 `_DLOG_MAX_EXPONENT`. -/
def dlogSystemMax : Nat := 100000000

/-- discrete_log.py:16, 157: the initial cache `{ONE_MOD_P: 0}`. -/
def dlogInitial : DCache := [(1, 0)]

/-- discrete_log.py:143-149: the `while` loop of `compute_discrete_log_cache`.  `fuel` is
`max_exponent - exponent`, which the loop itself bounds. -/
def fillLoop (P : Params) (element : Nat) : Nat → DCache → Nat → Nat → (R Unit × DCache)
  | fuel, cache, maxElement, exponent =>
    if element = maxElement then (.ok (), cache)
    else match fuel with
      | 0 => (.error .dlogExponent, cache)
      | f + 1 =>
        let m := multP P P.g maxElement
        fillLoop P element f (dSet cache m (exponent + 1)) m (exponent + 1)

/-- discrete_log.py:121-149 `compute_discrete_log_cache`, for a non-empty cache (an empty cache is
replaced by the module-level initial cache, see `dlogOrInitial`). -/
def fillCache (P : Params) (element : Nat) (cache : DCache) (maxExponent : Nat) : R Unit × DCache :=
  if maxExponent > dlogSystemMax then (.error .dlogExponent, cache)
  else
    match cache.getLast? with
    | none => (.error .index, cache)
    | some (maxElement, exponent) =>
      if exponent > maxExponent then (.error .dlogExponent, cache)
      else fillLoop P element (maxExponent - exponent) cache maxElement exponent

/-- discrete_log.py:35-59 `compute_discrete_log` with a non-empty cache. -/
def computeDlog (P : Params) (element : Nat) (cache : DCache) (maxExponent : Nat) (lazy : Bool) :
    R Nat × DCache :=
  match dGet cache element with
  | some e => (.ok e, cache)
  | none =>
    if !lazy then (.error .dlogNotFound, cache)
    else
      match fillCache P element cache maxExponent with
      | (.error err, c) => (.error err, c)
      | (.ok (), c) =>
        match dGet c element with
        | some e => (.ok e, c)
        | none => (.error .key, c)

/-- discrete_log.py:114-116: the `for` loop of `precompute_discrete_log_cache`. -/
def precomputeLoop (P : Params) : Nat → DCache → Nat → Nat → DCache
  | 0, cache, _, _ => cache
  | f + 1, cache, cur, exponent =>
    let m := multP P P.g cur
    precomputeLoop P f (dSet cache m (exponent + 1)) m (exponent + 1)

/-- discrete_log.py:93-118 `precompute_discrete_log_cache` on a non-empty cache. -/
def precompute (P : Params) (maxExponent : Nat) (cache : DCache) : R Unit × DCache :=
  if maxExponent > dlogSystemMax then (.error .dlogExponent, cache)
  else
    match cache.getLast? with
    | none => (.error .index, cache)
    | some (cur, prev) =>
      if prev ≥ maxExponent then (.ok (), cache)
      else (.ok (), precomputeLoop P (maxExponent - prev) cache cur prev)

/-- State of the `DiscreteLog` class (discrete_log.py:152-194): the cache shared by every instance,
the module-level cache used when no cache is passed (`_INITIAL_CACHE`, line 16), and the settings of
one instance (`_max_exponent`, `_lazy_evaluation`). -/
structure DLogState where
  cache : DCache := dlogInitial
  moduleCache : DCache := dlogInitial
  maxExponent : Nat := dlogSystemMax
  lazy : Bool := true
  deriving DecidableEq

/-- The operations of one `DiscreteLog` instance. -/
inductive DLogOp
  | setMax (n : Nat)         -- 165-166
  | setLazy (b : Bool)       -- 168-169
  | precompute (n : Nat)     -- 171-175
  | precomputeAsync (n : Nat) -- 177-182, run without interruption
  | log (element : Nat)      -- 184-188
  deriving DecidableEq

/-- discrete_log.py:165-188, one operation; the result is the returned value of `discrete_log`
(`none` for the operations that return nothing). -/
def dlogStep (P : Params) (s : DLogState) : DLogOp → Option (R Nat) × DLogState
  | .setMax n => (none, { s with maxExponent := n })
  | .setLazy b => (none, { s with lazy := b })
  | .precompute n =>
    let e := if n > s.maxExponent then s.maxExponent else n
    let r := precompute P e s.cache
    (match r.1 with | .ok _ => none | .error err => some (.error err), { s with cache := r.2 })
  | .precomputeAsync n =>
    -- line 182 does not pass `self._cache`, so the module-level cache is filled
    let e := if n > s.maxExponent then s.maxExponent else n
    let r := precompute P e s.moduleCache
    (match r.1 with | .ok _ => none | .error err => some (.error err), { s with moduleCache := r.2 })
  | .log x =>
    let r := computeDlog P x s.cache s.maxExponent s.lazy
    (some r.1, { s with cache := r.2 })

/-- Runs a history of operations and returns the state it leaves. -/
def dlogRun (P : Params) (s : DLogState) (ops : List DLogOp) : DLogState :=
  ops.foldl (fun s op => (dlogStep P s op).2) s

/-- Where one task is inside `compute_discrete_log_async` (discrete_log.py:62-90).
* `start`   — before line 80;
* `waiting` — before acquiring the lock, line 83;
* `locked`  — lock held, before line 84;
* `filling` — lock held, in the loop 143-148 of `compute_discrete_log_cache`;
* `done`    — returned or raised. -/
inductive TaskState
  | start (x : Nat)
  | waiting (x : Nat)
  | locked (x : Nat)
  | filling (x maxElement exponent : Nat)
  | done (x : Nat) (r : R Nat)
  deriving DecidableEq

/-- Shared cache, lock and tasks of a program that runs several asynchronous lookups. -/
structure Sys where
  cache : DCache
  lock : Bool
  tasks : List TaskState
  deriving DecidableEq

/-- One step of task `i`, or no change when it cannot move.  The steps are single dictionary
operations, so the schedules cover more interleavings than asyncio (which only switches at `await`). -/
def sysStep (P : Params) (maxExponent : Nat) (lazy : Bool) (s : Sys) (i : Nat) : Sys :=
  match s.tasks[i]? with
  | none => s
  | some (.done _ _) => s
  | some (.start x) =>
    match dGet s.cache x with
    | some e => { s with tasks := s.tasks.set i (.done x (.ok e)) }
    | none => { s with tasks := s.tasks.set i (.waiting x) }
  | some (.waiting x) =>
    if s.lock then s else { s with lock := true, tasks := s.tasks.set i (.locked x) }
  | some (.locked x) =>
    match dGet s.cache x with
    | some e => { s with lock := false, tasks := s.tasks.set i (.done x (.ok e)) }
    | none =>
      if !lazy then { s with lock := false, tasks := s.tasks.set i (.done x (.error .dlogNotFound)) }
      else if maxExponent > dlogSystemMax then
        { s with lock := false, tasks := s.tasks.set i (.done x (.error .dlogExponent)) }
      else
        match s.cache.getLast? with
        | none => { s with lock := false, tasks := s.tasks.set i (.done x (.error .index)) }
        | some (m, e) =>
          if e > maxExponent then
            { s with lock := false, tasks := s.tasks.set i (.done x (.error .dlogExponent)) }
          else { s with tasks := s.tasks.set i (.filling x m e) }
  | some (.filling x m e) =>
    if x = m then
      match dGet s.cache x with
      | some r => { s with lock := false, tasks := s.tasks.set i (.done x (.ok r)) }
      | none => { s with lock := false, tasks := s.tasks.set i (.done x (.error .key)) }
    else if e + 1 > maxExponent then
      { s with lock := false, tasks := s.tasks.set i (.done x (.error .dlogExponent)) }
    else
      let m' := multP P P.g m
      { s with cache := dSet s.cache m' (e + 1), tasks := s.tasks.set i (.filling x m' (e + 1)) }

/-- Runs a schedule: a list of task numbers, each meaning one step of that task. -/
def sysRun (P : Params) (maxExponent : Nat) (lazy : Bool) (s : Sys) (schedule : List Nat) : Sys :=
  schedule.foldl (sysStep P maxExponent lazy) s

/-- The discrete logarithm as a pure function: the least `e ≤ max` with `g^e = x`.
`Props/DiscreteLog.lean` proves that this is what `DiscreteLog().discrete_log` returns after any
history; the decryption code below uses it in place of the cached version. -/
def dlogFrom (P : Params) (x : Nat) : Nat → Nat → Nat → R Nat
  | fuel, e, cur =>
    if cur = x then .ok e
    else match fuel with
      | 0 => .error .dlogExponent
      | f + 1 => dlogFrom P x f (e + 1) (multP P P.g cur)

/-- The discrete logarithm as a pure function, see `dlogFrom`. -/
def dlog (P : Params) (maxExponent x : Nat) : R Nat := dlogFrom P x maxExponent 0 1

end EG
