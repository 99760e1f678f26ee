import Verif.Model.Log
import Mathlib.Data.List.Infix

/-!
# Reading the log
-/

namespace EG

/-- What somebody finds who searches a text for `mark` and reads the hexadecimal numbers that follow it, up to
the next quote. -/
def readAfter (mark : List Char) (text : List Char) : List Nat :=
  text.tails.filterMap (fun u =>
    if mark <+: u then (hexToInt ((u.drop mark.length).takeWhile (fun c => decide (c ≠ '\'')))).toOption else none)

/-- Object `r` is a scheduler whose pools were closed. -/
def Proc.ClosedScheduler (s : Proc) (r : Nat) : Prop :=
  ∃ o k p, s.objs[r]? = some o ∧ o.cls = .scheduler ∧ o.pools = some k ∧ s.pools[k]? = some p ∧ p.running = false

/-- Object `r` is a scheduler whose pools run. -/
def Proc.OpenScheduler (s : Proc) (r : Nat) : Prop :=
  ∃ o k p, s.objs[r]? = some o ∧ o.cls = .scheduler ∧ o.pools = some k ∧ s.pools[k]? = some p ∧ p.running = true

/-- The calls of `log_remove_handler` name this handler. -/
def LogOp.Removes (id : Nat) : LogOp → Prop
  | .remove i => i = id
  | _ => False

end EG
