import Verif.Model.ElGamal
import Verif.Spec.Group

/-!
# What it means for a ciphertext to encrypt a value
-/

namespace EG

/-- `c` is the exponential ElGamal ciphertext of `m` under public key `K` with nonce `r`:
`(g^r mod p, g^m K^r mod p)`. -/
def EncryptsWith (P : Params) (K r m : Nat) (c : Ciphertext) : Prop :=
  c.pad = P.g ^ r % P.p ∧ c.data = P.g ^ m * K ^ r % P.p

/-- `c` encrypts `m` under `K` with some nonce. -/
def Encrypts (P : Params) (K m : Nat) (c : Ciphertext) : Prop := ∃ r, EncryptsWith P K r m c

end EG
