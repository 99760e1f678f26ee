import Verif.Model.ChaumPedersen
import Mathlib.Data.Finset.Prod
import Mathlib.Data.Finset.Card
import Mathlib.Order.Interval.Finset.Nat

/-!
# Provers with explicit random numbers, and simulators

The proofs of chaum_pedersen.py and schnorr.py are interactive proofs whose challenge is a hash.  Here the random numbers of the prover
and the challenge are arguments, and next to each prover stands a simulator: it is given the challenge and the statement, and
neither the nonce or secret nor the plaintext.
-/

namespace EG

/-- The proof for an encryption of 0 with nonce `r`; random numbers `n0 n1 n2`, challenge `ch`. -/
def proveZero (P : Params) (r K n0 n1 n2 ch : Nat) : DisjProof :=
  let c0 := (ch + (P.q - n0)) % P.q
  ⟨P.g ^ n2 % P.p, K ^ n2 % P.p, P.g ^ n1 % P.p, K ^ n1 * P.g ^ n0 % P.p, c0, n0, ch, (n2 + c0 * r) % P.q, (n1 + n0 * r) % P.q⟩

/-- The proof for an encryption of 1 with nonce `r`; random numbers `n0 n1 n2`, challenge `ch`. -/
def proveOne (P : Params) (r K n0 n1 n2 ch : Nat) : DisjProof :=
  let c0 := P.q - n0
  let c1 := (ch + n0) % P.q
  ⟨P.g ^ n1 % P.p, K ^ n1 * P.g ^ n0 % P.p, P.g ^ n2 % P.p, K ^ n2 % P.p, c0, c1, ch, (n1 + c0 * r) % P.q, (n2 + c1 * r) % P.q⟩

/-- A proof made of its responses `v0 v1` and one half `c0` of the challenge. -/
def simulateDisj (P : Params) (c : Ciphertext) (K c0 v0 v1 ch : Nat) : DisjProof :=
  let c1 := (ch + (P.q - c0)) % P.q
  ⟨P.g ^ v0 * c.pad ^ (P.q - c0) % P.p, K ^ v0 * c.data ^ (P.q - c0) % P.p,
    P.g ^ v1 * c.pad ^ (P.q - c1) % P.p, P.g ^ c1 * K ^ v1 * c.data ^ (P.q - c1) % P.p, c0, c1, ch, v0, v1⟩

/-- The proof that the plaintext is `L`; random number `n`, challenge `ch`. -/
def proveConst (P : Params) (L : Int) (r K n ch : Nat) : ConstProof :=
  ⟨P.g ^ n % P.p, K ^ n % P.p, ch, (n + ch * r) % P.q, L⟩

/-- Such a proof made of its response. -/
def simulateConst (P : Params) (L : Int) (c : Ciphertext) (K v ch : Nat) : ConstProof :=
  ⟨P.g ^ v * c.pad ^ (P.q - ch) % P.p, P.g ^ (ch * L.toNat) * K ^ v * c.data ^ (P.q - ch) % P.p, ch, v, L⟩

/-- The proof that a share was made with the secret `s`; random number `n`, challenge `ch`. -/
def proveShare (P : Params) (c : Ciphertext) (s n ch : Nat) : CPProof :=
  ⟨P.g ^ n % P.p, c.pad ^ n % P.p, ch, (n + ch * s) % P.q⟩

/-- Such a proof for the public key `K` and the share `m`, made of its response. -/
def simulateShare (P : Params) (c : Ciphertext) (K m v ch : Nat) : CPProof :=
  ⟨P.g ^ v * K ^ (P.q - ch) % P.p, c.pad ^ v * m ^ (P.q - ch) % P.p, ch, v⟩

/-- The proof that one has the secret of a key; random number `n`, challenge `ch`. -/
def proveKey (P : Params) (kp : KeyPair) (n ch : Nat) : SchnorrProof :=
  ⟨kp.pub, P.g ^ n % P.p, ch, (n + kp.secret * ch) % P.q⟩

/-- Such a proof made of its response. -/
def simulateKey (P : Params) (K u ch : Nat) : SchnorrProof := ⟨K, P.g ^ u * K ^ (P.q - ch) % P.p, ch, u⟩

/-- How many of the random numbers below `q` give an outcome that a test accepts. -/
def outcomes {α : Type} (q : Nat) (f : Nat → α) (test : α → Bool) : Nat :=
  ((Finset.range q).filter (fun n => test (f n) = true)).card

/-- The same for three random numbers, of which the first is at least `lo`. -/
def outcomes3 {α : Type} (lo q : Nat) (f : Nat → Nat → Nat → α) (test : α → Bool) : Nat :=
  (((Finset.Ico lo q) ×ˢ (Finset.range q) ×ˢ (Finset.range q)).filter (fun n => test (f n.1 n.2.1 n.2.2) = true)).card

end EG
