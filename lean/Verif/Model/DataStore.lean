import Verif.Model.ObjectBase

/-!
# data_store.py

A store is its dict.  Keys are strings.
-/

namespace EG

/-- data_store.py:19-32, 54-66, 92-97 `DataStore` with `__iter__`, `items`, `keys` and `values`. -/
abbrev Store (α : Type) := List (String × α)

/-- data_store.py:34-38 `all`. -/
def Store.all {α : Type} (s : Store α) : List α := List.map (·.2) s

/-- data_store.py:40-44 `clear`. -/
def Store.clear {α : Type} (_ : Store α) : Store α := []

/-- data_store.py:46-52 `get`. -/
def Store.get {α : Type} (s : Store α) (k : String) : Option α := dget s k

/-- data_store.py:68-73 `__len__`. -/
def Store.len {α : Type} (s : Store α) : Nat := List.length s

/-- data_store.py:75-82 `pop`: the value, if any, and the store without the key. -/
def Store.pop {α : Type} (s : Store α) (k : String) : Option α × Store α :=
  match dget s k with
  | some v => (some v, ddel s k)
  | none => (none, s)

/-- data_store.py:84-90 `set`. -/
def Store.set {α : Type} (s : Store α) (k : String) (v : α) : Store α := dset s k v

/-- data_store.py:108-109 `ReadOnlyDataStore.__getitem__`: `get`, so a missing key gives `None` and never
`KeyError`. -/
def roGetItem {α : Type} (s : Store α) (k : String) : R (Option α) := .ok (s.get k)

/-- `key in view`: collections.abc.Mapping.__contains__ calls `__getitem__` and reports `False` only for
`KeyError`. -/
def roContains {α : Type} (s : Store α) (k : String) : Bool :=
  match roGetItem s k with
  | .ok _ => true
  | .error _ => false

/-- data_store.py:111-112 `ReadOnlyDataStore.__len__`. -/
def roLen {α : Type} (s : Store α) : Nat := s.len

/-- data_store.py:114-115 `ReadOnlyDataStore.__iter__`: the (key, value) pairs, not the keys. -/
def roIter {α : Type} (s : Store α) : List (String × α) := s

/-- data_store.py:117-120 `ReadOnlyDataStore.__eq__` against another read-only view: it calls itself with the
same arguments.  `depth` is the remaining recursion depth of the interpreter. -/
def roEq {α : Type} (s s' : Store α) : Nat → R Bool
  | 0 => .error .recursion
  | depth + 1 => roEq s s' depth

end EG
