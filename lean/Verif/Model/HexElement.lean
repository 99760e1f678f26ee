import Verif.Model.Group
import Verif.Model.BigInteger

/-!
# group.py: elements from hexadecimal text
-/

namespace EG

/-- group.py:98-107 `hex_to_q`.  Only `OverflowError` is caught, so malformed text raises. -/
def hexToQ (P : Params) (s : List Char) : R (Option Nat) := do
  let n ← hexToInt s
  match mkQ P n with
  | .ok v => return some v
  | .error _ => return none

/-- group.py:122-131 `hex_to_p`. -/
def hexToP (P : Params) (s : List Char) : R (Option Nat) := do
  let n ← hexToInt s
  match mkP P n with
  | .ok v => return some v
  | .error _ => return none

end EG
