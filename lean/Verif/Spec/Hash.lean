import Verif.Model.Hash

/-!
# Specification vocabulary for hashing
-/

namespace EG

mutual
/-- The texts hashed in order to encode one argument: a non-empty list is hashed by itself. -/
def argTexts (E : Env) : HArg → List (List Char)
  | .list (x :: xs) => ('|' :: encs E (x :: xs)) :: argsTexts E (x :: xs)
  | _ => []

/-- The texts hashed in order to encode the arguments. -/
def argsTexts (E : Env) : List HArg → List (List Char)
  | [] => []
  | x :: xs => argTexts E x ++ argsTexts E xs
end

/-- All texts given to the hash function by `hash_elems(*l)`. -/
def hashTexts (E : Env) (l : List HArg) : List (List Char) := hashText E l :: argsTexts E l

/-- A collision among the given texts: two different ones with the same hash value (modulo `q`).  Collisions
among all texts exist for every hash function with finitely many values, so a claim "or there is a collision"
means something only for the texts that were actually hashed. -/
def CollisionIn (E : Env) (T : List (List Char)) : Prop :=
  ∃ t ∈ T, ∃ t' ∈ T, t ≠ t' ∧ E.sha t % E.P.q = E.sha t' % E.P.q

mutual
/-- Two hash arguments of the same kind; strings must not contain the separator. -/
def sameKind : HArg → HArg → Prop
  | .elem _, .elem _ => True
  | .obj _, .obj _ => True
  | .str s, .str t => '|' ∉ s.toList ∧ '|' ∉ t.toList
  | .int _, .int _ => True
  | .none, .none => True
  | .list l, .list l' => sameKinds l l'
  | _, _ => False

/-- Two argument lists, possibly of different lengths, whose arguments at each common position have the
same kind; none of the remaining strings contains the separator. -/
def sameKinds : List HArg → List HArg → Prop
  | [], [] => True
  | [], b :: l' => noBar b ∧ sameKinds [] l'
  | a :: l, [] => noBar a ∧ sameKinds l []
  | a :: l, b :: l' => sameKind a b ∧ sameKinds l l'

/-- The argument is not a string with the separator in it. -/
def noBar : HArg → Prop
  | .str s => '|' ∉ s.toList
  | _ => True
end

end EG
