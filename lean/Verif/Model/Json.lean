import Verif.Model.ObjectBase
import Verif.Model.BigInteger

/-!
# The JSON text of serialize.py

Python's `json.dumps` and `json.loads` as serialize.py uses them: default separators, non-ASCII characters escaped, strict reading.
A Python `str` is a sequence of Unicode characters here; surrogates that do not form a pair, which Python accepts in a `str`, are
left out (reading them raises).  Numbers with a fraction or an exponent, which no class of the code has, are kept as text.
-/

namespace EG

/-- What `json.loads` returns; an object is a dictionary in the order of insertion. -/
inductive Json where
  | null
  | bool (b : Bool)
  | int (n : Int)
  | float (text : List Char)
  | str (s : String)
  | arr (xs : List Json)
  | obj (kvs : List (String × Json))

/-! ### Writing -/

/-- The lower-case hexadecimal digit of a number below 16. -/
def hexLower : Nat → Char
  | 0 => '0' | 1 => '1' | 2 => '2' | 3 => '3' | 4 => '4' | 5 => '5' | 6 => '6' | 7 => '7'
  | 8 => '8' | 9 => '9' | 10 => 'a' | 11 => 'b' | 12 => 'c' | 13 => 'd' | 14 => 'e' | _ => 'f'

/-- `\u` and four digits, for a number below 65536. -/
def escapeUnit (n : Nat) : List Char :=
  ['\\', 'u', hexLower (n / 4096 % 16), hexLower (n / 256 % 16), hexLower (n / 16 % 16), hexLower (n % 16)]

/-- Python json/encoder.py `py_encode_basestring_ascii`, one character. -/
def escapeChar (c : Char) : List Char :=
  if c = '"' then ['\\', '"']
  else if c = '\\' then ['\\', '\\']
  else if c = '\n' then ['\\', 'n']
  else if c = '\r' then ['\\', 'r']
  else if c = '\t' then ['\\', 't']
  else if c = '\x0c' then ['\\', 'f']
  else if c = '\x08' then ['\\', 'b']
  else if 32 ≤ c.toNat ∧ c.toNat ≤ 126 then [c]
  else if c.toNat < 65536 then escapeUnit c.toNat
  else escapeUnit (55296 + (c.toNat - 65536) / 1024) ++ escapeUnit (56320 + (c.toNat - 65536) % 1024)

/-- The text of a string. -/
def dumpString (s : List Char) : List Char := '"' :: (s.flatMap escapeChar ++ ['"'])

mutual

/-- `json.dumps`. -/
def Json.dumps : Json → List Char
  | .null => ['n', 'u', 'l', 'l']
  | .bool true => ['t', 'r', 'u', 'e']
  | .bool false => ['f', 'a', 'l', 's', 'e']
  | .int n => decInt n
  | .float t => t
  | .str s => dumpString s.toList
  | .arr xs => '[' :: Json.dumpsItems xs
  | .obj kvs => '{' :: Json.dumpsMembers kvs

/-- The items of an array and the bracket. -/
def Json.dumpsItems : List Json → List Char
  | [] => [']']
  | [x] => x.dumps ++ [']']
  | x :: y :: xs => x.dumps ++ (',' :: ' ' :: Json.dumpsItems (y :: xs))

/-- The members of an object and the brace. -/
def Json.dumpsMembers : List (String × Json) → List Char
  | [] => ['}']
  | [(k, v)] => dumpString k.toList ++ (':' :: ' ' :: (v.dumps ++ ['}']))
  | (k, v) :: m :: ms => dumpString k.toList ++ (':' :: ' ' :: (v.dumps ++ (',' :: ' ' :: Json.dumpsMembers (m :: ms))))

end

/-! ### Reading -/

/-- Python json/decoder.py `WHITESPACE`. -/
def isJsonSpace (c : Char) : Bool := c == ' ' || c == '\t' || c == '\n' || c == '\r'

/-- Skips white space. -/
def skipWs (s : List Char) : List Char := s.dropWhile isJsonSpace

/-- A decimal digit. -/
def isDecDigit (c : Char) : Bool := '0' ≤ c && c ≤ '9'

/-- The number of a four-digit escape. -/
def unitVal (a b c d : Char) : Option Nat :=
  match hexVal a, hexVal b, hexVal c, hexVal d with
  | some x, some y, some z, some w => some (4096 * x + 256 * y + 16 * z + w)
  | _, _, _, _ => none

/-- Python json/decoder.py `py_scanstring`, one step: `some (none, rest)` at the closing quote, `none` for an error. -/
def stringStep : List Char → Option (Option Char × List Char)
  | [] => none
  | '"' :: t => some (none, t)
  | '\\' :: 'u' :: a :: b :: c :: d :: t =>
    match unitVal a b c d with
    | none => none
    | some n =>
      if 55296 ≤ n ∧ n < 56320 then
        match t with
        | '\\' :: 'u' :: a' :: b' :: c' :: d' :: t' =>
          match unitVal a' b' c' d' with
          | none => none
          | some m =>
            if 56320 ≤ m ∧ m < 57344 then some (some (Char.ofNat (65536 + (n - 55296) * 1024 + (m - 56320))), t') else none
        | _ => none
      else if 56320 ≤ n ∧ n < 57344 then none
      else some (some (Char.ofNat n), t)
  | '\\' :: c :: t =>
    match c with
    | '"' => some (some '"', t)
    | '\\' => some (some '\\', t)
    | '/' => some (some '/', t)
    | 'b' => some (some '\x08', t)
    | 'f' => some (some '\x0c', t)
    | 'n' => some (some '\n', t)
    | 'r' => some (some '\r', t)
    | 't' => some (some '\t', t)
    | _ => none
  | c :: t => if c = '\\' ∨ c.toNat < 32 then none else some (some c, t)

/-- The characters up to the closing quote.  The first argument bounds the recursion; the length of the text is enough. -/
def parseChars : Nat → List Char → Option (List Char × List Char)
  | 0, _ => none
  | f + 1, s =>
    match stringStep s with
    | none => none
    | some (none, t) => some ([], t)
    | some (some c, t) =>
      match parseChars f t with
      | none => none
      | some (cs, t') => some (c :: cs, t')

/-- The value of decimal digits. -/
def decVal (s : List Char) : Nat := s.foldl (fun n c => 10 * n + (c.toNat - 48)) 0

/-- Python json/scanner.py `NUMBER_RE`: the length of a fraction. -/
def fractionLength : List Char → Nat
  | '.' :: t => match (t.takeWhile isDecDigit).length with | 0 => 0 | n => n + 1
  | _ => 0

/-- The length of an exponent. -/
def exponentLength : List Char → Nat
  | e :: t =>
    if e = 'e' ∨ e = 'E' then
      match t with
      | c :: t' =>
        if c = '+' ∨ c = '-' then match (t'.takeWhile isDecDigit).length with | 0 => 0 | n => n + 2
        else match (t.takeWhile isDecDigit).length with | 0 => 0 | n => n + 1
      | [] => 0
    else 0
  | [] => 0

/-- The rest of a number whose integer part was read; `whole` is the text of the number. -/
def numberRest (whole : List Char) (n : Int) (t : List Char) : Option (Json × List Char) :=
  let k := fractionLength t
  let e := exponentLength (t.drop k)
  if k + e = 0 then some (.int n, t)
  else some (.float (whole.take (whole.length - (t.drop (k + e)).length)), t.drop (k + e))

/-- A number without its sign. -/
def parseDigits (whole : List Char) (sign : Int) : List Char → Option (Json × List Char)
  | '0' :: t => numberRest whole 0 t
  | 'I' :: 'n' :: 'f' :: 'i' :: 'n' :: 'i' :: 't' :: 'y' :: t => some (.float (whole.take (whole.length - t.length)), t)
  | s =>
    let ds := s.takeWhile isDecDigit
    if ds = [] then none else numberRest whole (sign * decVal ds) (s.dropWhile isDecDigit)

/-- A number. -/
def parseNumber : List Char → Option (Json × List Char)
  | 'N' :: 'a' :: 'N' :: t => some (.float ['N', 'a', 'N'], t)
  | '-' :: t => parseDigits ('-' :: t) (-1) t
  | s => parseDigits s 1 s

mutual

/-- Python json/scanner.py `scan_once`.  The first argument bounds the recursion; the length of the text is enough. -/
def parseValue : Nat → List Char → Option (Json × List Char)
  | 0, _ => none
  | f + 1, s =>
    match s with
    | '"' :: t =>
      match parseChars t.length t with
      | none => none
      | some (cs, t') => some (.str (String.ofList cs), t')
    | '{' :: t =>
      match skipWs t with
      | '}' :: t' => some (.obj [], t')
      | t' => parseMembers f [] t'
    | '[' :: t =>
      match skipWs t with
      | ']' :: t' => some (.arr [], t')
      | t' => parseItems f [] t'
    | 'n' :: 'u' :: 'l' :: 'l' :: t => some (.null, t)
    | 't' :: 'r' :: 'u' :: 'e' :: t => some (.bool true, t)
    | 'f' :: 'a' :: 'l' :: 's' :: 'e' :: t => some (.bool false, t)
    | s => parseNumber s

/-- Python json/decoder.py `JSONArray`, from an item on; `acc` are the items before it. -/
def parseItems : Nat → List Json → List Char → Option (Json × List Char)
  | 0, _, _ => none
  | f + 1, acc, s =>
    match parseValue f s with
    | none => none
    | some (x, t) =>
      match skipWs t with
      | ']' :: t' => some (.arr (acc ++ [x]), t')
      | ',' :: t' => parseItems f (acc ++ [x]) (skipWs t')
      | _ => none

/-- Python json/decoder.py `JSONObject`, from a key on; `acc` are the members before it.  A repeated key keeps its place and takes the
last value. -/
def parseMembers : Nat → List (String × Json) → List Char → Option (Json × List Char)
  | 0, _, _ => none
  | f + 1, acc, s =>
    match s with
    | '"' :: t =>
      match parseChars t.length t with
      | none => none
      | some (cs, t1) =>
        match skipWs t1 with
        | ':' :: t2 =>
          match parseValue f (skipWs t2) with
          | none => none
          | some (x, t3) =>
            match skipWs t3 with
            | '}' :: t4 => some (.obj (dset acc (String.ofList cs) x), t4)
            | ',' :: t4 => parseMembers f (dset acc (String.ofList cs) x) (skipWs t4)
            | _ => none
        | _ => none
    | _ => none

end

/-- `json.loads` of a text; `JSONDecodeError` is a `ValueError`. -/
def jsonLoads (s : List Char) : R Json :=
  match parseValue (s.length + 1) (skipWs s) with
  | none => .error .value
  | some (j, t) => if skipWs t = [] then .ok j else .error .value

end EG
