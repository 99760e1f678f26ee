import Verif.Model.Basic

/-!
# big_integer.py

`str` values that hold hexadecimal text are `List Char`; `bytes` are `List UInt8`.
-/

namespace EG

/-- Python `bytes`. -/
abbrev Bytes := List UInt8

/-- Base-`b` digits of `n`, most significant first, `[0]` for zero (Python `format`/`str` of an int).
The first argument bounds the recursion; `n + 1` is always enough. -/
def natDigits (b : Nat) : Nat → Nat → List Nat
  | 0, _ => []
  | f + 1, n => if n < b then [n] else natDigits b f (n / b) ++ [n % b]

/-- The upper-case hexadecimal digit of a number below 16. -/
def hexChar : Nat → Char
  | 0 => '0' | 1 => '1' | 2 => '2' | 3 => '3' | 4 => '4' | 5 => '5' | 6 => '6' | 7 => '7'
  | 8 => '8' | 9 => '9' | 10 => 'A' | 11 => 'B' | 12 => 'C' | 13 => 'D' | 14 => 'E' | _ => 'F'

/-- Value of a hexadecimal digit, either case. -/
def hexVal : Char → Option Nat
  | '0' => some 0 | '1' => some 1 | '2' => some 2 | '3' => some 3 | '4' => some 4 | '5' => some 5
  | '6' => some 6 | '7' => some 7 | '8' => some 8 | '9' => some 9
  | 'A' => some 10 | 'B' => some 11 | 'C' => some 12 | 'D' => some 13 | 'E' => some 14
  | 'F' => some 15
  | 'a' => some 10 | 'b' => some 11 | 'c' => some 12 | 'd' => some 13 | 'e' => some 14
  | 'f' => some 15
  | _ => none

/-- big_integer.py:20-22 `pad_hex`. -/
def padHex (h : List Char) : List Char := if h.length % 2 = 1 then '0' :: h else h

/-- big_integer.py:17-25 `_int_to_hex` for a non-negative int.  `format(n, "02X")` pads with zeros to
width two, then `pad_hex` makes the length even. -/
def toHex (n : Nat) : List Char :=
  let ds := (natDigits 16 (n + 1) n).map hexChar
  let two := if ds.length < 2 then '0' :: ds else ds
  padHex two

/-- ASCII whitespace that `bytes.fromhex` skips between bytes. -/
def isHexSpace (c : Char) : Bool :=
  c == ' ' || c == '\t' || c == '\n' || c == '\r' || c == '\x0b' || c == '\x0c'

/-- Python `bytes.fromhex`; `none` is its `ValueError`. -/
def fromHex : List Char → Option Bytes
  | [] => some []
  | c :: rest =>
    if isHexSpace c then fromHex rest
    else match rest with
      | [] => none
      | d :: rest' =>
        match hexVal c, hexVal d, fromHex rest' with
        | some x, some y, some bs => some (UInt8.ofNat (16 * x + y) :: bs)
        | _, _, _ => none

/-- `int.from_bytes(bs, "big")`. -/
def intOfBytes (bs : Bytes) : Nat := bs.foldl (fun acc b => 256 * acc + b.toNat) 0

/-- big_integer.py:10-14 `_hex_to_int`.  `input[0]` of an empty string is never evaluated because its
length is even. -/
def hexToInt (s : List Char) : R Nat :=
  let valid := if s.length % 2 ≠ 0 ∧ s.head? = some '0' then s.tail else s
  match fromHex valid with
  | some bs => .ok (intOfBytes bs)
  | none => .error .value

/-- big_integer.py:28-29 `bytes_to_hex`. -/
def bytesToHex (bs : Bytes) : List Char := toHex (intOfBytes bs)

/-- big_integer.py:106-111 `to_hex_bytes`: `b16decode` of the hexadecimal text of the element.
`toHex` only produces pairs of upper-case digits, on which `b16decode` and `fromHex` agree
(`fromHex_toHex_isSome` in `Lemmas/Hex.lean`). -/
def toHexBytes (n : Nat) : Bytes := (fromHex (toHex n)).getD []

/-- `BigInteger(data)` for a `str`: big_integer.py:35-43, 51-55.  The value and its hex text. -/
def bigIntegerOfHex (s : List Char) : R (List Char × Nat) := do
  let n ← hexToInt s
  return (toHex n, n)

/-- Python `str` of an int. -/
def decInt (i : Int) : List Char :=
  let ds := (natDigits 10 (i.natAbs + 1) i.natAbs).map hexChar
  if i < 0 then '-' :: ds else ds

end EG
