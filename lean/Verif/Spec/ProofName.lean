import Verif.Model.ProofName

/-!
# What `space_between_capitals` promises: a space before every capital letter inside a word
-/

namespace EG

/-- The text with a space before each capital letter that follows a character of a word; `prev` says whether such a character came before. -/
def spacedAfter (word : Char → Bool) (prev : Bool) : List Char → List Char
  | [] => []
  | c :: s => (if prev && decide (c ∈ "ABCDEFGHIJKLMNOPQRSTUVWXYZ".toList) then [' ', c] else [c]) ++ spacedAfter word (word c) s

/-- Somewhere in the text a capital letter inside a word is followed by another capital letter. -/
def AdjacentCapitals (word : Char → Bool) (s : List Char) : Prop :=
  ∃ pre post : List Char, ∃ w a b : Char, s = pre ++ w :: a :: b :: post ∧ word w = true ∧
    a ∈ "ABCDEFGHIJKLMNOPQRSTUVWXYZ".toList ∧ b ∈ "ABCDEFGHIJKLMNOPQRSTUVWXYZ".toList

end EG
