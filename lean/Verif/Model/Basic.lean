/-!
# Errors and parameters

Python exceptions are values.  A function that can raise returns `R α`.
-/

namespace EG

/-- Python exceptions that the modelled code raises.
* `overflow`  — `OverflowError` (group.py:28, int.to_bytes)
* `assertion` — `AssertionError` (`assert`, `get_optional` in utils.py)
* `zeroDiv`   — `ZeroDivisionError` raised by gmpy2 `invert`/`powmod`
* `value`, `type`, `index`, `key` — the Python exceptions of these names
* `truncation` — byte_padding.py:15 `TruncationError`
* `dlog`      — discrete_log.py `DiscreteLogExponentError`/`DiscreteLogNotFoundError`
* `recursion` — `RecursionError`
* `attribute` — `AttributeError` -/
inductive Err
  | overflow | assertion | zeroDiv | value | type | index | key | truncation
  | dlogExponent | dlogNotFound | recursion | attribute
  deriving DecidableEq, Repr

/-- A Python call: either returns or raises. -/
abbrev R (α : Type) := Except Err α

instance {α : Type} [DecidableEq α] : DecidableEq (R α) := fun a b =>
  match a, b with
  | .ok x, .ok y => if h : x = y then isTrue (by rw [h]) else isFalse (by intro e; cases e; exact h rfl)
  | .error x, .error y => if h : x = y then isTrue (by rw [h]) else isFalse (by intro e; cases e; exact h rfl)
  | .ok _, .error _ => isFalse (by intro e; cases e)
  | .error _, .ok _ => isFalse (by intro e; cases e)

/-- utils.py `get_optional`: unwrap an optional, `AssertionError` on `None`. -/
def getOptional {α : Type} : Option α → R α
  | some a => .ok a
  | none => .error .assertion

/-- The election constants read by `get_large_prime`, `get_small_prime`, `get_generator`
(constants.py:80-83). -/
structure Params where
  p : Nat
  q : Nat
  g : Nat
  deriving DecidableEq, Repr

end EG
