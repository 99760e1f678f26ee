import Verif.Model.Hash

/-!
# Dates and times

`to_ticks` and `to_iso_date_string` of utils.py and the two clocks that ballots are stamped with.  The `datetime`
of Python is modelled by the fields it shows and an optional offset from UTC in seconds.  The zone of the machine is
a fixed offset; changes of summer time are not modelled.  Floats of seconds are exact numbers of microseconds.
-/

namespace EG

/-- A day of the calendar. -/
structure Date where
  year : Nat
  month : Nat
  day : Nat
  deriving DecidableEq, Repr

/-- Leap years. -/
def isLeap (y : Nat) : Bool := y % 4 == 0 && (y % 100 != 0 || y % 400 == 0)

/-- The length of a month. -/
def daysInMonth (y m : Nat) : Nat :=
  if m = 2 then (if isLeap y then 29 else 28)
  else if m = 4 ∨ m = 6 ∨ m = 9 ∨ m = 11 then 30
  else 31

/-- The next day. -/
def Date.next (d : Date) : Date :=
  if d.day < daysInMonth d.year d.month then { d with day := d.day + 1 }
  else if d.month < 12 then ⟨d.year, d.month + 1, 1⟩
  else ⟨d.year + 1, 1, 1⟩

/-- Days before the first of a month, in its year. -/
def daysBeforeMonth (y : Nat) : Nat → Nat
  | 0 => 0
  | 1 => 0
  | m + 2 => daysBeforeMonth y (m + 1) + daysInMonth y (m + 1)

/-- Days before the first of January of a year, counted from the year 1. -/
def daysBeforeYear : Nat → Nat
  | 0 => 0
  | 1 => 0
  | y + 2 => daysBeforeYear (y + 1) + (if isLeap (y + 1) then 366 else 365)

/-- `date.toordinal`: the first of January of the year 1 is day 1. -/
def Date.ordinal (d : Date) : Nat := daysBeforeYear d.year + daysBeforeMonth d.year d.month + d.day

/-- `date.fromordinal`: the day reached after `n - 1` days. -/
def dateOf (n : Nat) : Date := (n - 1).repeat Date.next ⟨1, 1, 1⟩

/-- `datetime`; `zone` is the offset from UTC in seconds, `none` for naive ones. -/
structure DateTime where
  date : Date
  hour : Nat
  minute : Nat
  second : Nat
  micro : Nat
  zone : Option Int
  deriving DecidableEq, Repr

/-- The seconds that the fields show, counted from the day 0 of `toordinal`. -/
def DateTime.wall (t : DateTime) : Int :=
  (t.date.ordinal : Int) * 86400 + t.hour * 3600 + t.minute * 60 + t.second

/-- The last day that Python has: the end of the year 9999. -/
def maxOrdinal : Nat := 3652059

/-- The `datetime` that shows the given seconds; `OverflowError` outside the years 1 to 9999. -/
def ofWall (s : Int) (micro : Nat) (zone : Option Int) : R DateTime :=
  let n := s / 86400
  let r := (s % 86400).toNat
  if n < 1 ∨ (maxOrdinal : Int) < n then .error .overflow
  else .ok ⟨dateOf n.toNat, r / 3600, r % 3600 / 60, r % 60, micro, zone⟩

/-- `astimezone(timezone.utc)`; a naive time is one of the zone of the machine, `loc` seconds ahead of UTC. -/
def DateTime.toUtc (loc : Int) (t : DateTime) : R DateTime :=
  ofWall (t.wall - t.zone.getD loc) t.micro (some 0)

/-- The day of the epoch, 1970-01-01, as an ordinal. -/
def epochOrdinal : Int := 719163

/-- `timestamp()` of an aware time, in microseconds. -/
def DateTime.timestamp (t : DateTime) : Int :=
  (t.wall - t.zone.getD 0 - epochOrdinal * 86400) * 1000000 + t.micro

/-- utils.py:129-142 `to_ticks`.  `int` cuts towards zero. -/
def toTicks (loc : Int) (t : DateTime) : R Int := do
  let u ← if t.zone.isSome then pure t else t.toUtc loc
  return u.timestamp.tdiv 1000000

/-- `strftime` with two digits. -/
def twoDigits (n : Nat) : List Char := [Char.ofNat (48 + n / 10), Char.ofNat (48 + n % 10)]

/-- `strftime("%Y-%m-%dT%H:%M:%SZ")`; `%Y` is not padded. -/
def DateTime.text (t : DateTime) : List Char :=
  decInt t.date.year ++ ('-' :: twoDigits t.date.month ++ '-' :: twoDigits t.date.day ++ 'T' :: twoDigits t.hour
    ++ ':' :: twoDigits t.minute ++ ':' :: twoDigits t.second ++ ['Z'])

/-- utils.py:145-157 `to_iso_date_string`: naive times are not converted. -/
def toIsoDateString (loc : Int) (t : DateTime) : R (List Char) := do
  let u ← if t.zone.isSome then t.toUtc loc else pure t
  return { u with micro := 0 }.text

/-- `datetime.now()`: naive, in the zone of the machine; `clock` is in microseconds since the epoch. -/
def pyNow (loc clock : Int) : R DateTime :=
  ofWall (clock / 1000000 + epochOrdinal * 86400 + loc) (clock % 1000000).toNat none

/-- `datetime.utcnow()`: naive, in UTC. -/
def pyUtcNow (clock : Int) : R DateTime :=
  ofWall (clock / 1000000 + epochOrdinal * 86400) (clock % 1000000).toNat none

/-- ballot.py:963: the time that `make_ciphertext_ballot` puts on a ballot when it is given none. -/
def newBallotTime (loc clock : Int) : R Int := do toTicks loc (← pyNow loc clock)

/-- ballot.py:1021: the time that `make_ciphertext_submitted_ballot` puts on a ballot when it is given none. -/
def submittedBallotTime (loc clock : Int) : R Int := do toTicks loc (← pyUtcNow clock)

/-- encrypt.py:90-94 `EncryptionDevice.get_timestamp`: `timestamp()` of a naive time takes it for one of the zone of
the machine. -/
def deviceTimestamp (loc clock : Int) : R Int := do
  let t ← pyUtcNow clock
  let u ← t.toUtc loc
  return u.timestamp.tdiv 1000000

end EG
