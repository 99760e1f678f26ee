import Verif.Model.Basic

/-!
# group.py

Elements of `ElementModP` and `ElementModQ` are naturals: the Python classes wrap a non-negative
`mpz`.  Elements built with `check_within_bounds=False` can be out of range, so bounds are not part
of the type.  Python `int` arguments of the arithmetic functions are naturals here, except where a
negative value can occur (`multQInt`, used by the Lagrange coefficients).
-/

namespace EG

/-- group.py:23-29 `BaseElement.__new__` for `ElementModQ` with the bounds check on. -/
def mkQ (P : Params) (v : Int) : R Nat :=
  if 0 ≤ v ∧ v < (P.q : Int) then .ok v.toNat else .error .overflow

/-- group.py:23-29 `BaseElement.__new__` for `ElementModP` with the bounds check on. -/
def mkP (P : Params) (v : Int) : R Nat :=
  if 0 ≤ v ∧ v < (P.p : Int) then .ok v.toNat else .error .overflow

/-- group.py:36-42 `is_in_bounds` for `ElementModQ`. -/
def inBoundsQ (P : Params) (a : Nat) : Bool := decide (a < P.q)

/-- group.py:36-42 `is_in_bounds` for `ElementModP`. -/
def inBoundsP (P : Params) (a : Nat) : Bool := decide (a < P.p)

/-- group.py:44-50 `is_in_bounds_no_zero` for `ElementModQ`. -/
def inBoundsNoZeroQ (P : Params) (a : Nat) : Bool := decide (1 ≤ a ∧ a < P.q)

/-- group.py:44-50 `is_in_bounds_no_zero` for `ElementModP`. -/
def inBoundsNoZeroP (P : Params) (a : Nat) : Bool := decide (1 ≤ a ∧ a < P.p)

/-- group.py:203-212 `pow_p`.  `powmod(b, e, p)`; exponents are naturals. -/
def powP (P : Params) (b e : Nat) : Nat := b ^ e % P.p

/-- group.py:215-224 `pow_q`. -/
def powQ (P : Params) (b e : Nat) : Nat := b ^ e % P.q

/-- group.py:253-259 `g_pow_p`. -/
def gPowP (P : Params) (e : Nat) : Nat := powP P P.g e

/-- group.py:227-237 `mult_p` (any number of arguments). -/
def multPs (P : Params) (l : List Nat) : Nat :=
  l.foldl (fun acc x => acc * x % P.p) 1

/-- group.py:227-237 `mult_p` with two arguments. -/
def multP (P : Params) (a b : Nat) : Nat := multPs P [a, b]

/-- group.py:240-250 `mult_q` (any number of arguments). -/
def multQs (P : Params) (l : List Nat) : Nat :=
  l.foldl (fun acc x => acc * x % P.q) 1

/-- group.py:240-250 `mult_q` with two arguments. -/
def multQ (P : Params) (a b : Nat) : Nat := multQs P [a, b]

/-- group.py:240-250 `mult_q` on Python ints, which may be negative.  Python's `%` is the Euclidean
remainder for a positive modulus, as is Lean's `Int.emod`. -/
def multQsInt (P : Params) (l : List Int) : Nat :=
  (l.foldl (fun acc x => acc * x % (P.q : Int)) 1).toNat

/-- group.py:146-152 `add_q` (any number of arguments). -/
def addQs (P : Params) (l : List Nat) : Nat :=
  l.foldl (fun acc x => (acc + x) % P.q) 0

/-- group.py:146-152 `add_q` with two arguments. -/
def addQ (P : Params) (a b : Nat) : Nat := addQs P [a, b]

/-- group.py:155-159 `a_minus_b_q`. -/
def aMinusBQ (P : Params) (a b : Nat) : Nat := (((a : Int) - (b : Int)) % (P.q : Int)).toNat

/-- group.py:176-179 `negate_q`: `ElementModQ(q - a)` with no reduction, so the bounds check of the
constructor applies to `q - a`. -/
def negateQ (P : Params) (a : Nat) : R Nat := mkQ P ((P.q : Int) - (a : Int))

/-- group.py:182-189 `a_plus_bc_q`. -/
def aPlusBCQ (P : Params) (a b c : Nat) : Nat := (a + b * c) % P.q

/-- gmpy2 `invert(b, m)`: the `x` in `[0, m)` with `b*x ≡ 1 (mod m)`; `ZeroDivisionError` if there is
none.  Written as a search; gmpy2 computes the same value with the extended Euclidean algorithm. -/
def invert (b m : Nat) : R Nat :=
  match (List.range m).find? (fun x => b * x % m == 1 % m) with
  | some x => .ok x
  | none => .error .zeroDiv

/-- group.py:162-166 `div_p`. -/
def divP (P : Params) (a b : Nat) : R Nat := do
  let inverse ← invert b P.p
  return multP P a inverse

/-- group.py:169-173 `div_q`. -/
def divQ (P : Params) (a b : Nat) : R Nat := do
  let inverse ← invert b P.q
  return multQ P a inverse

/-- group.py:192-200 `mult_inv_p`; `powmod(e, -1, p)` is the modular inverse. -/
def multInvP (P : Params) (e : Nat) : R Nat :=
  if e = 0 then .error .assertion else invert e P.p

/-- group.py:70-73 `ElementModP.is_valid_residue`. -/
def isValidResidue (P : Params) (a : Nat) : Bool :=
  let residue := powP P a P.q == 1
  inBoundsP P a && residue

/-- group.py:110-119 `int_to_q`. -/
def intToQ (P : Params) (v : Int) : Option Nat :=
  match mkQ P v with
  | .ok a => some a
  | .error _ => none

/-- group.py:134-143 `int_to_p`. -/
def intToP (P : Params) (v : Int) : Option Nat :=
  match mkP P v with
  | .ok a => some a
  | .error _ => none

end EG
