import Verif.Model.Basic

/-!
# election_object_base.py and Python collections
-/

namespace EG

/-- Insert `x` before the first element that is not smaller. -/
def insertBy {α : Type} (le : α → α → Bool) (x : α) : List α → List α
  | [] => [x]
  | y :: ys => if le x y then x :: y :: ys else y :: insertBy le x ys

/-- A stable sort, as Python's `sorted`. -/
def stableSort {α : Type} (le : α → α → Bool) : List α → List α
  | [] => []
  | x :: xs => insertBy le x (stableSort le xs)

/-- Python `sorted(l, key=k)` for integer keys. -/
def sortByInt {α : Type} (k : α → Int) (l : List α) : List α := stableSort (fun a b => decide (k a ≤ k b)) l

/-- Python `sorted(l, key=k)` for string keys.  Python and Lean both order strings lexicographically by code
point. -/
def sortByStr {α : Type} (k : α → String) (l : List α) : List α := stableSort (fun a b => decide (k a ≤ k b)) l

/-- election_object_base.py:30-32 `sequence_order_sort`; `k` is the `sequence_order` attribute. -/
def sequenceOrderSort {α : Type} (k : α → Int) (l : List α) : List α := sortByInt k l

/-- election_object_base.py:35-44 `list_eq`; `k` is the `object_id` attribute and `==` the equality of the
objects. -/
def listEq {α : Type} [BEq α] (k : α → String) (l l' : List α) : Bool := sortByStr k l == sortByStr k l'

/-- A Python `set` built by the loops "if x not in s: s.add(x)" of manifest.py, as a list without
repetitions. -/
def pySetOf {α : Type} [DecidableEq α] (l : List α) : List α :=
  l.foldl (fun s x => if x ∈ s then s else s ++ [x]) []

/-- Lookup in a dict, represented as an association list in insertion order. -/
def dget {κ α : Type} [DecidableEq κ] (d : List (κ × α)) (k : κ) : Option α :=
  (d.find? (fun e => e.1 == k)).map (·.2)

/-- `d[k] = v`: overwrite in place if the key is present, else append. -/
def dset {κ α : Type} [DecidableEq κ] (d : List (κ × α)) (k : κ) (v : α) : List (κ × α) :=
  if d.any (fun e => e.1 == k) then d.map (fun e => if e.1 == k then (k, v) else e) else d ++ [(k, v)]

/-- `d.pop(k, None)`: the dict without the key. -/
def ddel {κ α : Type} [DecidableEq κ] (d : List (κ × α)) (k : κ) : List (κ × α) :=
  d.filter (fun e => !(e.1 == k))

/-- `d[k]` for reading: `KeyError` if the key is missing. -/
def dgetR {κ α : Type} [DecidableEq κ] (d : List (κ × α)) (k : κ) : R α :=
  match dget d k with
  | some v => .ok v
  | none => .error .key

/-- The keys of a dict. -/
def dkeys {κ α : Type} (d : List (κ × α)) : List κ := d.map (·.1)

end EG
