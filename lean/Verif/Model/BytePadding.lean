import Verif.Model.BigInteger

/-!
# byte_padding.py

Block sizes are arbitrary integers (`DataSize` has the single member 512).
-/

namespace EG

/-- A Python slice bound: negative bounds count from the end, bounds are clamped. -/
def pyBound (len : Nat) (i : Int) : Nat :=
  if i < 0 then ((len : Int) + i).toNat else min i.toNat len

/-- Python `l[start:stop]`. -/
def pySlice {α : Type} (l : List α) (start stop : Int) : List α :=
  (l.take (pyBound l.length stop)).drop (pyBound l.length start)

/-- The `k` lowest base-256 digits of `n`, least significant first. -/
def leBytes : Nat → Nat → Bytes
  | 0, _ => []
  | k + 1, n => UInt8.ofNat (n % 256) :: leBytes k (n / 256)

/-- Python `n.to_bytes(k, "little")`; `OverflowError` if negative or too large. -/
def toBytesLE (k : Nat) (n : Int) : R Bytes :=
  if n < 0 ∨ (256 ^ k : Nat) ≤ n.toNat then .error .overflow else .ok (leBytes k n.toNat)

/-- Python `n.to_bytes(k, "big")`. -/
def toBytesBE (k : Nat) (n : Int) : R Bytes := (toBytesLE k n).map List.reverse

/-- byte_padding.py:19-26 `to_padded_bytes`. -/
def toPaddedBytes (data : List Char) (size : Nat := 512) : R Bytes :=
  match fromHex data with
  | none => .error .value
  | some bs =>
    if bs.length ≥ size then .ok bs
    else .ok (List.replicate (size - bs.length) 0 ++ bs)

/-- byte_padding.py:29-46 `add_padding`. -/
def addPadding (message : Bytes) (size : Int) (allowTruncation : Bool) : R Bytes :=
  let paddedDataSize := size - 2
  let go (messageLength : Int) : R Bytes := do
    let paddingLength := paddedDataSize - messageLength
    let leading ← toBytesBE 2 paddingLength
    return leading ++ pySlice message 0 messageLength ++ List.replicate paddingLength.toNat 0
  if (message.length : Int) > paddedDataSize then
    if allowTruncation then go paddedDataSize else .error .truncation
  else go message.length

/-- byte_padding.py:49-54 `remove_padding`. -/
def removePadding (padded : Bytes) (size : Int) : Bytes :=
  let paddingLength := intOfBytes (pySlice padded 0 2)
  let messageEnd := size - paddingLength
  pySlice padded 2 messageEnd

end EG
