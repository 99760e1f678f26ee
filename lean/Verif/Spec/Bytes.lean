import Verif.Model.BigInteger

/-!
# Specification vocabulary for text and bytes
-/

namespace EG

/-- Append one hexadecimal digit (either case) to a number; `none` if the character is not a digit. -/
def textStep (acc : Option Nat) (c : Char) : Option Nat :=
  match acc, hexVal c with
  | some a, some d => some (16 * a + d)
  | _, _ => none

/-- The number that a text of hexadecimal digits denotes; `none` if some character is not a digit. -/
def textValue (s : List Char) : Option Nat := s.foldl textStep (some 0)

/-- The message with zero bytes appended up to length `n`. -/
def zeroExtend (n : Nat) (m : Bytes) : Bytes := m ++ List.replicate (n - m.length) 0

end EG
