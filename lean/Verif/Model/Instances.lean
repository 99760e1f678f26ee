import Verif.Model.DiscreteLog
import Verif.Model.Tally

/-!
# singleton.py, scheduler.py and the instances of discrete_log.py

Objects are numbered in the order of their construction.  A call names the object it is made on.  The process
pool and the thread pool of a scheduler are opened and closed together and count as one pair.  What is simplified:
garbage collection and the end of the process (which stop worker processes) are left out, a task is a function of its
arguments, and the errors of pickling are errors of the task.
-/

namespace EG

/-- The classes derived from `Singleton` (singleton.py:4, logs.py:13, discrete_log.py:152, scheduler.py:16) and
the class itself. -/
inductive Cls
  | base
  | log
  | dlog
  | scheduler
  deriving DecidableEq, Repr

/-- One object.  `pools` is the number of the pair of pools in `__process_pool` and `__thread_pool`
(scheduler.py:26-27: without a value until `_open` assigned them); `maxExponent` and `lazy` are the values an instance of
`DiscreteLog` sees for `_max_exponent` and `_lazy_evaluation` (discrete_log.py:159-160: class attributes until
the instance sets its own). -/
structure Obj where
  cls : Cls
  pools : Option Nat := none
  maxExponent : Nat := dlogSystemMax
  lazy : Bool := true
  deriving DecidableEq

/-- A pair of pools with its number of workers. -/
structure PoolPair where
  size : Nat
  running : Bool
  deriving DecidableEq, Repr

/-- The state of a python process: `cores` is the answer of `psutil.cpu_count(logical=False)`, `inst` is
`Singleton.__instance` (singleton.py:7), `cache` and `moduleCache` are the caches of discrete_log.py:157 and :16. -/
structure Proc where
  cores : Option Nat
  objs : List Obj := []
  inst : Option Nat := none
  pools : List PoolPair := []
  cache : DCache := dlogInitial
  moduleCache : DCache := dlogInitial
  deriving DecidableEq

/-- scheduler.py:42-47: how many workers `_open` asks for.  `None > 2` raises `TypeError`, a pool
without workers raises `ValueError`. -/
def poolSize : Option Nat → R Nat
  | none => .error .type
  | some n =>
    let m := if n > 2 then n - 1 else n
    if m < 1 then .error .value else .ok m

/-- scheduler.py:40-47 `_open` on object `r`. -/
def Proc.openPools (s : Proc) (r : Nat) : R Unit × Proc :=
  match poolSize s.cores with
  | .error e => (.error e, s)
  | .ok n =>
    match s.objs[r]? with
    | none => (.error .attribute, s)
    | some o => (.ok (), { s with
        objs := s.objs.set r { o with pools := some s.pools.length }
        pools := s.pools ++ [⟨n, true⟩] })

/-- singleton.py:16-18 and, for a scheduler, scheduler.py:29-31: a constructor.  The number of the new object is
returned even if `_open` raises. -/
def Proc.construct (s : Proc) (c : Cls) : R Unit × Proc :=
  let s' := { s with
    objs := s.objs ++ [{ cls := c }]
    inst := match s.inst with | none => some s.objs.length | some i => some i }
  match c with
  | .scheduler => s'.openPools s.objs.length
  | _ => (.ok (), s')

/-- singleton.py:9-14 `get_instance`. -/
def Proc.getInstance (s : Proc) : Option Nat × Proc :=
  let s' := match s.inst with
    | none => (s.construct .base).2
    | some _ => s
  (s'.inst, s')

/-- scheduler.py:49-52 `close`, also scheduler.py:37-38 `__exit__`. -/
def Proc.closePools (s : Proc) (r : Nat) : R Unit × Proc :=
  match s.objs[r]? with
  | none => (.error .attribute, s)
  | some o =>
    match o.cls, o.pools with
    | .scheduler, some k =>
      (.ok (), { s with pools := s.pools.modify k (fun p => { p with running := false }) })
    | _, _ => (.error .attribute, s)

/-- scheduler.py:33-35 `__enter__`. -/
def Proc.enter (s : Proc) (r : Nat) : R Unit × Proc :=
  match s.objs[r]? with
  | none => (.error .attribute, s)
  | some o =>
    match o.cls with
    | .scheduler => s.openPools r
    | _ => (.error .attribute, s)

/-- discrete_log.py:162-194: a method of `DiscreteLog` on object `r`, see `dlogStep`; `none` if the method
returns nothing. -/
def Proc.dlogCall (P : Params) (s : Proc) (r : Nat) (op : DLogOp) : Option (R Nat) × Proc :=
  match s.objs[r]? with
  | none => (some (.error .attribute), s)
  | some o =>
    match o.cls with
    | .dlog =>
      let x := dlogStep P ⟨s.cache, s.moduleCache, o.maxExponent, o.lazy⟩ op
      (x.1, { s with
        objs := s.objs.set r { o with maxExponent := x.2.maxExponent, lazy := x.2.lazy }
        cache := x.2.cache
        moduleCache := x.2.moduleCache })
    | _ => (some (.error .attribute), s)

/-- The calls that change the state of the process. -/
inductive ProcCall
  | new (c : Cls)
  | getInstance
  | enter (r : Nat)
  | close (r : Nat)
  | dlog (r : Nat) (op : DLogOp)
  deriving DecidableEq

/-- The state after one call, whether it raised or not. -/
def Proc.step (P : Params) (s : Proc) : ProcCall → Proc
  | .new c => (s.construct c).2
  | .getInstance => s.getInstance.2
  | .enter r => (s.enter r).2
  | .close r => (s.closePools r).2
  | .dlog r op => (s.dlogCall P r op).2

/-- The state after a history of calls. -/
def Proc.run (P : Params) (s : Proc) (calls : List ProcCall) : Proc := calls.foldl (Proc.step P) s

/-- scheduler.py:59-95 `schedule` on object `r`: a closed pool and every exception of a task end in `[]`. -/
def Proc.schedule {α β : Type} (s : Proc) (r : Nat) (task : α → R β) (arguments : List α) : R (List β) :=
  match s.objs[r]? with
  | none => .error .attribute
  | some o =>
    match o.cls, o.pools with
    | .scheduler, some k =>
      match s.pools[k]? with
      | none => .error .attribute
      | some p =>
        if p.running then
          match arguments.mapM task with
          | .ok rs => .ok rs
          | .error _ => .ok []
        else .ok []
    | _, _ => .error .attribute

/-- logs.py:135: the state after `import electionguard`, which constructs the log. -/
def Proc.imported (cores : Option Nat) : Proc := (Proc.construct { cores := cores } .log).2

/-- elgamal.py:64, decrypt_with_shares.py:194: `DiscreteLog().discrete_log(x)`. -/
def Proc.freshLog (P : Params) (s : Proc) (x : Nat) : Option (R Nat) :=
  ((s.construct .dlog).2.dlogCall P s.objs.length (.log x)).1

end EG
