import Mathlib.Algebra.BigOperators.Group.Finset.Basic
import Mathlib.Algebra.BigOperators.Ring.Finset
import Verif.Model.ElGamal

/-!
# Decisional Diffie-Hellman, and what a distinguisher of ciphertexts sees

An adversary against decisional Diffie-Hellman is any function of three elements; a distinguisher of lists of ciphertexts
is any function of a public key and the list.  Both may return any whole number: a yes/no answer is 1 or 0, an answer that
depends on coins is the number of coins for which it is yes.

`X` is the set secret keys are drawn from and `R` the set nonces are drawn from.
-/

namespace EG

open Finset

/-- What an adversary answers, summed over all Diffie-Hellman triples `g^x, g^r, g^(x r)`. -/
def ddhReal (P : Params) (X R : Finset Nat) (B : Nat → Nat → Nat → Int) : Int :=
  ∑ x ∈ X, ∑ r ∈ R, B (P.g ^ x % P.p) (P.g ^ r % P.p) (P.g ^ (x * r) % P.p)

/-- What an adversary answers, summed over all triples `g^x, g^r, g^z` with an unrelated third element. -/
def ddhRandom (P : Params) (X R : Finset Nat) (B : Nat → Nat → Nat → Int) : Int :=
  ∑ x ∈ X, ∑ r ∈ R, ∑ z ∈ range P.q, B (P.g ^ x % P.p) (P.g ^ r % P.p) (P.g ^ z % P.p)

/-- `q · |X| · |R|` times the advantage of an adversary: how far its average answer on Diffie-Hellman triples is from its
average answer on triples with an unrelated third element. -/
def ddhAdvantage (P : Params) (X R : Finset Nat) (B : Nat → Nat → Nat → Int) : Int :=
  P.q * ddhReal P X R B - ddhRandom P X R B

/-- What `F` answers on the ciphertexts of the messages under the key `K`, summed over all lists of nonces of `R`; a
message whose encryption fails contributes nothing. -/
def encSum (P : Params) (R : Finset Nat) (K : Nat) : List Nat → (List Ciphertext → Int) → Int
  | [], F => F []
  | m :: ms, F => ∑ r ∈ R,
      match elgamalEncrypt P m r K with
      | some c => encSum P R K ms (fun cs => F (c :: cs))
      | none => 0

/-- What a distinguisher answers on the public key and the ciphertexts of the messages, summed over all secret keys of `X`
and all lists of nonces of `R`. -/
def seen (P : Params) (X R : Finset Nat) (D : Nat → List Ciphertext → Int) (ms : List Nat) : Int :=
  ∑ x ∈ X, encSum P R (P.g ^ x % P.p) ms (D (P.g ^ x % P.p))

/-- The adversary made of a distinguisher `D`: of three elements it takes the first as public key, puts the ciphertext
`(second, third · g^m)` between ciphertexts it makes itself of the messages `before` and `after`, and answers what `D`
answers. -/
def adversaryOf (P : Params) (R : Finset Nat) (D : Nat → List Ciphertext → Int) (before : List Nat) (m : Nat)
    (after : List Nat) : Nat → Nat → Nat → Int := fun K Y Z =>
  encSum P R K before fun a => encSum P R K after fun b => D K (a ++ ⟨Y, Z * P.g ^ m % P.p⟩ :: b)

end EG
