import Verif.Model.Instances
import Mathlib.Data.List.Forall2

/-!
# What users of a scheduler see

Stated with the answers of `schedule` alone.
-/

namespace EG

/-- The scheduler `r` works: if every task returns, `schedule` answers with the results in the order of the
arguments, and if some task raises, with no result at all. -/
def Delivers (s : Proc) (r : Nat) : Prop :=
  ∀ (α β : Type) (task : α → R β) (arguments : List α),
    (∀ rs, List.Forall₂ (fun a b => task a = .ok b) arguments rs → s.schedule r task arguments = .ok rs) ∧
    ((∃ a ∈ arguments, ∃ e, task a = .error e) → s.schedule r task arguments = .ok [])

/-- The scheduler `r` silently does nothing, whatever it is asked to do. -/
def Idle (s : Proc) (r : Nat) : Prop :=
  ∀ (α β : Type) (task : α → R β) (arguments : List α), s.schedule r task arguments = .ok []

/-- `schedule` on `r` raises `AttributeError`. -/
def Unusable (s : Proc) (r : Nat) : Prop :=
  ∀ (α β : Type) (task : α → R β) (arguments : List α), s.schedule r task arguments = .error .attribute

/-- How many pairs of pools have their workers running. -/
def Proc.workersUp (s : Proc) : Nat := s.pools.countP (·.running)

/-- The calls of `with Scheduler() as scheduler: pass`, in a process with `n` objects. -/
def withBlock (n : Nat) : List ProcCall := [.new .scheduler, .enter n, .close n]

/-- The limit that object `r` was given last, `d` if none. -/
def lastMax (r d : Nat) : List ProcCall → Nat
  | [] => d
  | .dlog r' (.setMax n) :: calls => lastMax r (if r' = r then n else d) calls
  | _ :: calls => lastMax r d calls

/-- The evaluation mode that object `r` was given last, `d` if none. -/
def lastLazy (r : Nat) (d : Bool) : List ProcCall → Bool
  | [] => d
  | .dlog r' (.setLazy b) :: calls => lastLazy r (if r' = r then b else d) calls
  | _ :: calls => lastLazy r d calls

end EG
