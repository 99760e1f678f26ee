/-!
# What is on record after a sequence of calls

A call puts something on record or removes it; the record shows what was put there last.
-/

namespace EG

/-- The last call that put something on record, or removed it, put `a` there; `state` gives the state after calls. -/
def LastPut {σ ο α : Type} (state : List ο → σ) (puts : σ → ο → Option α → Prop) (ops : List ο) (a : α) : Prop :=
  ∃ before op after, ops = before ++ op :: after ∧ puts (state before) op (some a) ∧
    ∀ mid op' rest r, after = mid ++ op' :: rest → ¬ puts (state (before ++ op :: mid)) op' r

end EG
