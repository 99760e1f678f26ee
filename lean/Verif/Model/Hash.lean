import Verif.Model.Group
import Verif.Model.BigInteger

/-!
# hash.py and nonces.py

SHA-256 is an arbitrary function `sha` from text to naturals (the digest read as a big-endian
integer); the text is UTF-8 encoded by the code, which is injective.  HMAC-SHA-256 is an arbitrary
function `hmac key message`.
-/

namespace EG

/-- Group parameters together with the hash primitives. -/
structure Env where
  P : Params
  sha : List Char → Nat
  hmac : Bytes → Bytes → Bytes

/-- The argument types of `hash_elems` (hash.py:48-58).
* `elem n` — `ElementModP`/`ElementModQ` (hash.py:79-80);
* `obj h`  — a `CryptoHashable` whose `crypto_hash()` is `h` (hash.py:81-82);
* `str`, `int`, `none`, `list` — the Python values. -/
inductive HArg
  | elem (n : Nat)
  | obj (h : Nat)
  | str (s : String)
  | int (i : Int)
  | none
  | list (l : List HArg)

mutual
/-- hash.py:79-101: the text `hash_me` of one argument. -/
def tok (E : Env) : HArg → List Char
  | .elem n => toHex n
  | .obj h => toHex h
  | .str s => s.toList
  | .int i => decInt i
  | .none => "null".toList
  | .list [] => "null".toList
  | .list (x :: xs) => toHex (E.sha ('|' :: encs E (x :: xs)) % E.P.q)

/-- hash.py:73-99: the text fed to SHA-256 for a list of arguments, after the leading `|`. -/
def encs (E : Env) : List HArg → List Char
  | [] => []
  | x :: xs => tok E x ++ '|' :: encs E xs
end

/-- hash.py:71-99: the whole text fed to SHA-256. -/
def hashText (E : Env) (l : List HArg) : List Char := '|' :: encs E l

/-- hash.py:61-103 `hash_elems`. -/
def hashElems (E : Env) (l : List HArg) : Nat := E.sha (hashText E l) % E.P.q

/-- nonces.py:20-24 `Nonces.__init__`: the internal seed. -/
def noncesSeed (E : Env) (seed : Nat) (headers : List HArg) : Nat :=
  if headers.length > 0 then hashElems E (.elem seed :: headers) else seed

/-- nonces.py:49-59 `get_with_headers` on the internal seed. -/
def nonceGetWithHeaders (E : Env) (s : Nat) (item : Int) (headers : List HArg) : R Nat :=
  if item < 0 then .error .type else .ok (hashElems E (.elem s :: .int item :: headers))

/-- nonces.py:35-38 `Nonces(seed, *headers)[index]` for an int index. -/
def nonceAt (E : Env) (seed : Nat) (headers : List HArg) (i : Int) : R Nat :=
  nonceGetWithHeaders E (noncesSeed E seed headers) i []

/-- `Nonces(seed, *headers)[i]` for a non-negative index, where no exception is possible. -/
def nonce (E : Env) (seed : Nat) (headers : List HArg) (i : Nat) : Nat :=
  hashElems E [.elem (noncesSeed E seed headers), .int i]

/-- Python `range(start, stop, step)` for `step > 0` and `step < 0`; `step = 0` is a `ValueError`. -/
def pyRange (start stop step : Int) : R (List Int) :=
  if step = 0 then .error .value
  else if step > 0 then
    .ok ((List.range ((stop - start + step - 1) / step).toNat).map (fun (k : Nat) => start + step * (k : Int)))
  else
    .ok ((List.range ((start - stop + (-step) - 1) / (-step)).toNat).map
      (fun (k : Nat) => start + step * (k : Int)))

/-- nonces.py:35-44 `Nonces(seed, *headers)[start:stop:step]`. -/
def nonceSlice (E : Env) (seed : Nat) (headers : List HArg)
    (start : Option Int) (stop : Option Int) (step : Option Int) : R (List Nat) :=
  match stop with
  | none => .error .type
  | some e => do
    -- `index.step or 1` turns a step of zero into one
    let st := match step with
      | none => 1
      | some s => if s = 0 then 1 else s
    let idx ← pyRange (start.getD 0) e st
    idx.mapM (fun i => nonceAt E seed headers i)

end EG
