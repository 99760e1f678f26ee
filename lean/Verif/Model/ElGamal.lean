import Verif.Model.Hash
import Verif.Model.DiscreteLog

/-!
# elgamal.py (exponential ElGamal)

The discrete logarithm is the pure function `dlog`; `maxE` is the `_max_exponent` of the
`DiscreteLog` class (discrete_log.py:159).  Messages are naturals.
-/

namespace EG

/-- elgamal.py:38-50 `ElGamalCiphertext`. -/
structure Ciphertext where
  pad : Nat
  data : Nat
  deriving DecidableEq, Repr

/-- elgamal.py:30-35 `ElGamalKeyPair`. -/
structure KeyPair where
  secret : Nat
  pub : Nat
  deriving DecidableEq, Repr

/-- elgamal.py:57-64 `decrypt_known_product`. -/
def Ciphertext.decryptKnownProduct (P : Params) (maxE : Nat) (c : Ciphertext) (product : Nat) :
    R Nat := do
  let inv ← multInvP P product
  dlog P maxE (multP P c.data inv)

/-- elgamal.py:66-73 `decrypt`. -/
def Ciphertext.decrypt (P : Params) (maxE : Nat) (c : Ciphertext) (secret : Nat) : R Nat :=
  c.decryptKnownProduct P maxE (powP P c.pad secret)

/-- elgamal.py:75-85 `decrypt_known_nonce`. -/
def Ciphertext.decryptKnownNonce (P : Params) (maxE : Nat) (c : Ciphertext) (pub nonce : Nat) :
    R Nat :=
  c.decryptKnownProduct P maxE (powP P pub nonce)

/-- elgamal.py:87-96 `partial_decrypt`. -/
def Ciphertext.partialDecrypt (P : Params) (c : Ciphertext) (secret : Nat) : Nat :=
  powP P c.pad secret

/-- elgamal.py:98-102 `crypto_hash`. -/
def Ciphertext.cryptoHash (E : Env) (c : Ciphertext) : Nat :=
  hashElems E [.elem c.pad, .elem c.data]

/-- elgamal.py:161-171 `elgamal_keypair_from_secret`. -/
def keypairFromSecret (P : Params) (a : Nat) : Option KeyPair :=
  if a < 2 then none else some ⟨a, gPowP P a⟩

/-- elgamal.py:183-190 `elgamal_combine_public_keys`. -/
def combinePublicKeys (P : Params) (keys : List Nat) : Nat := multPs P keys

/-- elgamal.py:193-217 `elgamal_encrypt`. -/
def elgamalEncrypt (P : Params) (message nonce pub : Nat) : Option Ciphertext :=
  if nonce = 0 then none
  else
    let pad := gPowP P nonce
    let gm := gPowP P message
    let kn := powP P pub nonce
    some ⟨pad, multP P gm kn⟩

/-- elgamal.py:280-293 `elgamal_add`. -/
def elgamalAdd (P : Params) : List Ciphertext → R Ciphertext
  | [] => .error .assertion
  | c :: cs => .ok (cs.foldl (fun r x => ⟨multP P r.pad x.pad, multP P r.data x.data⟩) c)

end EG
