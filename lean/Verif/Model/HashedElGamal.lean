import Verif.Model.Hash
import Verif.Model.BytePadding
import Verif.Model.ElGamal

/-!
# hmac.py and the hashed ElGamal part of elgamal.py
-/

namespace EG

/-- hmac.py:10-39 `get_hmac` with `_fix_message_length`.  A length of `None` or 0 leaves the message
as it is (`if length:`). -/
def getHmac (E : Env) (key message : Bytes) (length : Option Nat := none) (start : Nat := 0) : R Bytes :=
  match length with
  | none => .ok (E.hmac key message)
  | some 0 => .ok (E.hmac key message)
  | some (l + 1) => do
    let startByte ← toBytesLE 4 start
    let endByte ← toBytesLE 4 ((l + 1 : Nat) : Int)
    return E.hmac key (startByte ++ message ++ endByte)

/-- elgamal.py:106-121 `HashedElGamalCiphertext`; `data` and `mac` are hexadecimal text. -/
structure HashedCiphertext where
  pad : Nat
  data : List Char
  mac : List Char
  deriving DecidableEq, Repr

/-- elgamal.py:267-269: `message` padded with zero bytes to a multiple of 32. -/
def padBlocks (message : Bytes) : Bytes :=
  if message.length % 32 = 0 then message
  else message ++ List.replicate (32 - message.length % 32) 0

/-- elgamal.py:266-277 `_get_chunks`: the 32-byte blocks and the length in bits. -/
def getChunks (message : Bytes) : List Bytes × Nat :=
  let m := padBlocks message
  ((List.range (m.length / 32)).map (fun i => (m.take (32 * (i + 1))).drop (32 * i)), m.length * 8)

/-- `bytes([a ^ b for (a, b) in zip(block, data_key)])`. -/
def xorBytes (a b : Bytes) : Bytes := List.zipWith (· ^^^ ·) a b

/-- elgamal.py:148-157 and 236-245: the loop over the blocks, from block index `i`. -/
def xorLoop (E : Env) (sessionKey seed : Bytes) (bitLength : Nat) : List Bytes → Nat → R Bytes
  | [], _ => .ok []
  | block :: blocks, i => do
    let dataKey ← getHmac E sessionKey seed (some bitLength) (i + 1)
    let rest ← xorLoop E sessionKey seed bitLength blocks (i + 1)
    return xorBytes block dataKey ++ rest

/-- elgamal.py:220-263 `hashed_elgamal_encrypt`. -/
def hashedEncrypt (E : Env) (message : Bytes) (nonce publicKey seed : Nat) : R HashedCiphertext := do
  let pad := gPowP E.P nonce
  let pubkeyPowN := powP E.P publicKey nonce
  let sessionKey := hashElems E [.elem pad, .elem pubkeyPowN]
  let chunks := getChunks message
  let data ← xorLoop E (toHexBytes sessionKey) (toHexBytes seed) chunks.2 chunks.1 0
  let macKey ← getHmac E (toHexBytes sessionKey) (toHexBytes seed) (some chunks.2)
  let toMac := toHexBytes pad ++ data
  let mac ← getHmac E macKey toMac
  return ⟨pad, bytesToHex data, bytesToHex mac⟩

/-- elgamal.py:122-158 `HashedElGamalCiphertext.decrypt`; `none` is the logged MAC failure. -/
def HashedCiphertext.decrypt (E : Env) (c : HashedCiphertext) (secret seed : Nat) : R (Option Bytes) := do
  let sessionKey := hashElems E [.elem c.pad, .elem (powP E.P c.pad secret)]
  let dataBytes ← toPaddedBytes c.data
  let chunks := getChunks dataBytes
  let macKey ← getHmac E (toHexBytes sessionKey) (toHexBytes seed) (some chunks.2)
  let toMac := toHexBytes c.pad ++ dataBytes
  let mac ← getHmac E macKey toMac
  if bytesToHex mac ≠ c.mac then return none
  else
    let data ← xorLoop E (toHexBytes sessionKey) (toHexBytes seed) chunks.2 chunks.1 0
    return some data

end EG
