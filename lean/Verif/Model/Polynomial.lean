import Verif.Model.ChaumPedersen

/-!
# election_polynomial.py
-/

namespace EG

/-- election_polynomial.py:26-38 `Coefficient`. -/
structure Coefficient where
  value : Nat
  commitment : Nat
  proof : SchnorrProof
  deriving DecidableEq, Repr

/-- election_polynomial.py:41-52 `ElectionPolynomial`: its list of coefficients. -/
abbrev Polynomial' := List Coefficient

/-- election_polynomial.py:54-56 `get_commitments`. -/
def getCommitments (poly : Polynomial') : List Nat := poly.map (·.commitment)

/-- election_polynomial.py:58-60 `get_proofs`. -/
def getProofs (poly : Polynomial') : List SchnorrProof := poly.map (·.proof)

/-- election_polynomial.py:78-84: one coefficient from its secret value and the proof nonce. -/
def mkCoefficient (E : Env) (value r : Nat) : Coefficient :=
  let commitment := gPowP E.P value
  ⟨value, commitment, makeSchnorr E ⟨value, commitment⟩ r⟩

/-- election_polynomial.py:63-85 `generate_polynomial` without a nonce: `rands` lists the results of
`rand_q()` in the order drawn, two per coefficient (value, proof nonce). -/
def generatePolynomial (E : Env) (rands : List (Nat × Nat)) : Polynomial' :=
  rands.map (fun vr => mkCoefficient E vr.1 vr.2)

/-- election_polynomial.py:63-85 `generate_polynomial` with a nonce: coefficient `i` is `nonce + i`. -/
def generatePolynomialNonce (E : Env) (nonce : Nat) (rands : List Nat) : Polynomial' :=
  rands.zipIdx.map (fun ri => mkCoefficient E (addQ E.P nonce ri.2) ri.1)

/-- election_polynomial.py:101-106: the loop of `compute_polynomial_coordinate`. -/
def coordinateLoop (P : Params) (x : Nat) : List Nat → Nat → Nat → Nat
  | [], _, acc => acc
  | a :: as, i, acc =>
    let exponent := powQ P x i
    let factor := multQ P a exponent
    coordinateLoop P x as (i + 1) (addQ P acc factor)

/-- election_polynomial.py:88-106 `compute_polynomial_coordinate`. -/
def computeCoordinate (P : Params) (x : Int) (poly : Polynomial') : R Nat := do
  let xq ← mkQ P x
  return coordinateLoop P xq (poly.map (·.value)) 0 0

/-- election_polynomial.py:120-131 `compute_lagrange_coefficient`. -/
def computeLagrange (P : Params) (coordinate : Int) (degrees : List Int) : R Nat :=
  let numerator := multQsInt P degrees
  let denominator := multQsInt P (degrees.map (fun d => d - coordinate))
  divQ P numerator denominator

/-- election_polynomial.py:150-154: the loop of `verify_polynomial_coordinate`.  The exponent is
`pow_p(x, i)`, i.e. `x^i` reduced modulo `p`. -/
def commitmentLoop (P : Params) (x : Nat) : List Nat → Nat → Nat → Nat
  | [], _, acc => acc
  | k :: ks, i, acc =>
    let exponent := powP P x i
    let factor := powP P k exponent
    commitmentLoop P x ks (i + 1) (multP P acc factor)

/-- election_polynomial.py:134-157 `verify_polynomial_coordinate`. -/
def verifyCoordinate (P : Params) (coordinate : Nat) (x : Int) (commitments : List Nat) : R Bool := do
  let xq ← mkQ P x
  return gPowP P coordinate == commitmentLoop P xq commitments 0 1

/-- decryption.py:534-537: the loop of `compute_recovery_public_key`.  Here the exponent is
`pow_q(order, index)`, i.e. reduced modulo `q`. -/
def recoveryLoop (P : Params) (order : Nat) : List Nat → Nat → Nat → Nat
  | [], _, acc => acc
  | k :: ks, i, acc =>
    let exponent := powQ P order i
    recoveryLoop P order ks (i + 1) (multP P acc (powP P k exponent))

/-- decryption.py:524-538 `compute_recovery_public_key`, from the sequence order of the available
guardian and the commitments of the missing one. -/
def recoveryPublicKey (P : Params) (order : Nat) (commitments : List Nat) : Nat :=
  recoveryLoop P order commitments 0 1

end EG
