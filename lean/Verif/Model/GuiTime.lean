import Verif.Model.Time

/-!
# electionguard_gui/eel_utils.py: the times that the GUI shows
-/

namespace EG

/-- `strftime("%b")` in the locale of C. -/
def monthAbbr (m : Nat) : List Char :=
  ((["Jan", "Feb", "Mar", "Apr", "May", "Jun", "Jul", "Aug", "Sep", "Oct", "Nov", "Dec"][m - 1]?).getD "").toList

/-- `strftime("%-I")`. -/
def hour12 (h : Nat) : Nat := if h % 12 = 0 then 12 else h % 12

/-- `strftime("%b %-d, %Y %-I:%M %p")`. -/
def DateTime.shown (t : DateTime) : List Char :=
  monthAbbr t.date.month ++ ' ' :: (decInt t.date.day ++ ',' :: ' ' :: (decInt t.date.year ++ ' ' :: (decInt (hour12 t.hour) ++
    ':' :: (twoDigits t.minute ++ ' ' :: (if t.hour < 12 then "AM".toList else "PM".toList)))))

/-- eel_utils.py:23-24 `convert_utc_to_local`: whatever zone the time has, its fields are taken for UTC; `loc` is the offset of the machine. -/
def convertUtcToLocal (loc : Int) (t : DateTime) : R DateTime := ofWall (t.wall + loc) t.micro (some loc)

/-- eel_utils.py:14-20 `utc_to_str`, not on Windows; a `datetime` is never false. -/
def utcToStr (loc : Int) : Option DateTime → R (List Char)
  | none => .ok []
  | some t => do
    let l ← convertUtcToLocal loc t
    return l.shown

end EG
