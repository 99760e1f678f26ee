import Verif.Model.BigInteger

/-!
# Comparing, hashing and looking up numbers: big_integer.py:58-100

`BigInteger` is a `str` that compares like a number.  `ElementModP`, `ElementModQ` and `BigInteger` share these methods, so
the class of an element does not matter here.  The dispatch of Python between the two operands is modelled: the method of
the left operand is asked first, except that a right operand of a subclass that overrides the method is asked before
(data model, `object.__lt__`), and the other operand is asked when the first answers `NotImplemented`; `int.__eq__` of an
element and gmpy2's comparison of an `mpz` with an element answer `NotImplemented`.
-/

namespace EG

/-- The values that meet an element in a comparison: another element, an `int` (or a `bool`), a `str`, the `mpz` that
`.value` returns, or any other object, known by its identity. -/
inductive PyVal
  | elem (v : Int)
  | int (v : Int)
  | str (s : String)
  | mpz (v : Int)
  | obj (i : Nat)
  deriving DecidableEq, Repr

/-- The six comparison operators. -/
inductive CmpOp | lt | le | eq | ne | gt | ge
  deriving DecidableEq, Repr

/-- The operator that the other operand is asked for. -/
def CmpOp.reflect : CmpOp → CmpOp
  | .lt => .gt | .le => .ge | .eq => .eq | .ne => .ne | .gt => .lt | .ge => .le

/-- big_integer.py:66-70 `__eq__`. -/
def bigEq (v : Int) : PyVal → Bool
  | .elem w => v == w
  | .int w => v == w
  | _ => false

/-- big_integer.py:72-74 `__ne__`. -/
def bigNe (v : Int) (o : PyVal) : Bool := !bigEq v o

/-- big_integer.py:76-80 `__lt__`. -/
def bigLt (v : Int) : PyVal → Bool
  | .elem w => decide (v < w)
  | .int w => decide (v < w)
  | _ => false

/-- big_integer.py:82-84 `__le__`. -/
def bigLe (v : Int) (o : PyVal) : Bool := bigLt v o || bigEq v o

/-- big_integer.py:86-90 `__gt__`. -/
def bigGt (v : Int) : PyVal → Bool
  | .elem w => decide (w < v)
  | .int w => decide (w < v)
  | _ => false

/-- big_integer.py:92-94 `__ge__`. -/
def bigGe (v : Int) (o : PyVal) : Bool := bigGt v o || bigEq v o

/-- The method of `BigInteger` for an operator. -/
def bigCmp : CmpOp → Int → PyVal → Bool
  | .lt => bigLt | .le => bigLe | .eq => bigEq | .ne => bigNe | .gt => bigGt | .ge => bigGe

/-- An operator on two numbers. -/
def numCmp (op : CmpOp) (v w : Int) : Bool :=
  match op with
  | .lt => decide (v < w) | .le => decide (v ≤ w) | .eq => v == w | .ne => v != w | .gt => decide (w < v)
  | .ge => decide (w ≤ v)

/-- An operator on two strings, in the order of code points. -/
def strCmp (op : CmpOp) (s t : String) : Bool :=
  match op with
  | .lt => decide (s < t) | .le => !decide (t < s) | .eq => s == t | .ne => s != t | .gt => decide (t < s)
  | .ge => !decide (s < t)

/-- `a op b` of Python; `TypeError` when neither operand knows the other and the operator is an order. -/
def pyCompare (op : CmpOp) : PyVal → PyVal → R Bool
  | .elem v, o => .ok (bigCmp op v o)
  | o, .elem v => .ok (bigCmp op.reflect v o)
  | .int v, .int w | .int v, .mpz w | .mpz v, .int w | .mpz v, .mpz w => .ok (numCmp op v w)
  | .str s, .str t => .ok (strCmp op s t)
  | a, b =>
    match op with
    | .eq => .ok (decide (a = b))
    | .ne => .ok (decide (a ≠ b))
    | _ => .error .type

/-- `a == b`. -/
def pyEq (a b : PyVal) : Bool :=
  match pyCompare .eq a b with
  | .ok r => r
  | .error _ => false

/-- The hash functions of Python and gmpy2: `int` and `mpz` hash alike. -/
structure Hashing where
  num : Int → Int
  text : String → Int
  obj : Nat → Int

/-- `hash(a)`; big_integer.py:96-98 `__hash__` is that of the `mpz`. -/
def pyHash (H : Hashing) : PyVal → Int
  | .elem v | .int v | .mpz v => H.num v
  | .str s => H.text s
  | .obj i => H.obj i

/-- A lookup in a `dict` with the given entries: a key is found when its hash is that of the argument and it equals the
argument (or is the same object, which implies it here). -/
def pyLookup {α : Type} (H : Hashing) (d : List (PyVal × α)) (k : PyVal) : Option α :=
  (d.find? (fun e => pyHash H e.1 == pyHash H k && pyEq e.1 k)).map (·.2)

/-- Python's `sorted` of a list of elements and ints: it is stable and asks only `<`.  Insertion from the right stands for it:
on a list where `<` is a strict weak order all stable sorts agree. -/
def pyInsert (x : PyVal) : List PyVal → List PyVal
  | [] => [x]
  | y :: ys =>
    match pyCompare .lt y x with
    | .ok true => y :: pyInsert x ys
    | _ => x :: y :: ys

/-- `sorted(xs)`. -/
def pySorted (xs : List PyVal) : List PyVal := xs.foldr pyInsert []

end EG
