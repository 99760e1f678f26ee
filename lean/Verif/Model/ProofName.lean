import Verif.Model.Basic

/-!
# utils.py `space_between_capitals`, proof.py: the name that a proof carries
-/

namespace EG

/-- `[A-Z]`. -/
def capitalLetter (c : Char) : Bool := decide ('A' ≤ c) && decide (c ≤ 'Z')

/-- utils.py:160-166 `space_between_capitals`: `re.sub` goes through the text from the left, looks for two characters that match `(\w)([A-Z])`, and goes on behind
both.  `word` says which characters match `\w`. -/
def spaceBetweenCapitals (word : Char → Bool) : List Char → List Char
  | a :: b :: s =>
    if word a && capitalLetter b then a :: ' ' :: b :: spaceBetweenCapitals word s
    else a :: spaceBetweenCapitals word (b :: s)
  | s => s

/-- proof.py:21-24 `Proof.__init__`: the name of a proof, from that of its class. -/
def proofName (word : Char → Bool) (className : String) : String := String.ofList (spaceBetweenCapitals word className.toList)

end EG
