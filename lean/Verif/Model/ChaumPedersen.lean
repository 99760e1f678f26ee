import Verif.Model.ElGamal

/-!
# chaum_pedersen.py and schnorr.py

The `usage` fields of the proofs are labels never read by the modelled code and are left out.
-/

namespace EG

/-- chaum_pedersen.py:24-49 `DisjunctiveChaumPedersenProof`. -/
structure DisjProof where
  a0 : Nat
  b0 : Nat
  a1 : Nat
  b1 : Nat
  c0 : Nat
  c1 : Nat
  c : Nat
  v0 : Nat
  v1 : Nat
  deriving DecidableEq, Repr

/-- The arguments hashed at chaum_pedersen.py:87, 428, 464. -/
def disjHashArgs (q : Nat) (m : Ciphertext) (a0 b0 a1 b1 : Nat) : List HArg :=
  [.elem q, .elem m.pad, .elem m.data, .elem a0, .elem b0, .elem a1, .elem b1]

/-- chaum_pedersen.py:54-138 `DisjunctiveChaumPedersenProof.is_valid`. -/
def DisjProof.isValid (E : Env) (pf : DisjProof) (message : Ciphertext) (k q : Nat) : Bool :=
  let P := E.P
  let alpha := message.pad
  let beta := message.data
  isValidResidue P alpha
    && isValidResidue P beta
    && isValidResidue P pf.a0
    && isValidResidue P pf.b0
    && isValidResidue P pf.a1
    && isValidResidue P pf.b1
    && inBoundsQ P pf.c0
    && inBoundsQ P pf.c1
    && inBoundsQ P pf.v0
    && inBoundsQ P pf.v1
    && (addQ P pf.c0 pf.c1 == pf.c
        && pf.c == hashElems E (disjHashArgs q message pf.a0 pf.b0 pf.a1 pf.b1))
    && gPowP P pf.v0 == multP P pf.a0 (powP P alpha pf.c0)
    && gPowP P pf.v1 == multP P pf.a1 (powP P alpha pf.c1)
    && powP P k pf.v0 == multP P pf.b0 (powP P beta pf.c0)
    && multP P (gPowP P pf.c1) (powP P k pf.v1) == multP P pf.b1 (powP P beta pf.c1)

/-- The header string of the nonces at chaum_pedersen.py:421, 457. -/
def disjHeader : List HArg := [.str "disjoint-chaum-pedersen-proof"]

/-- chaum_pedersen.py:400-433 `make_disjunctive_chaum_pedersen_zero`. -/
def makeDisjZero (E : Env) (message : Ciphertext) (r k q seed : Nat) : DisjProof :=
  let P := E.P
  let c1 := nonce E seed disjHeader 0
  let v := nonce E seed disjHeader 1
  let u0 := nonce E seed disjHeader 2
  let a0 := gPowP P u0
  let b0 := powP P k u0
  let a1 := gPowP P v
  let b1 := multP P (powP P k v) (gPowP P c1)
  let c := hashElems E (disjHashArgs q message a0 b0 a1 b1)
  let c0 := aMinusBQ P c c1
  let v0 := aPlusBCQ P u0 c0 r
  let v1 := aPlusBCQ P v c1 r
  ⟨a0, b0, a1, b1, c0, c1, c, v0, v1⟩

/-- chaum_pedersen.py:436-470 `make_disjunctive_chaum_pedersen_one`. -/
def makeDisjOne (E : Env) (message : Ciphertext) (r k q seed : Nat) : R DisjProof := do
  let P := E.P
  let w := nonce E seed disjHeader 0
  let v := nonce E seed disjHeader 1
  let u1 := nonce E seed disjHeader 2
  let a0 := gPowP P v
  let b0 := multP P (powP P k v) (gPowP P w)
  let a1 := gPowP P u1
  let b1 := powP P k u1
  let c := hashElems E (disjHashArgs q message a0 b0 a1 b1)
  let c0 ← negateQ P w
  let c1 := addQ P c w
  let v0 := aPlusBCQ P v c0 r
  let v1 := aPlusBCQ P u1 c1 r
  return ⟨a0, b0, a1, b1, c0, c1, c, v0, v1⟩

/-- chaum_pedersen.py:370-397 `make_disjunctive_chaum_pedersen`. -/
def makeDisj (E : Env) (message : Ciphertext) (r k q seed : Nat) (plaintext : Int) : R DisjProof :=
  if ¬ (0 ≤ plaintext ∧ plaintext ≤ 1) then .error .assertion
  else if plaintext = 0 then .ok (makeDisjZero E message r k q seed)
  else makeDisjOne E message r k q seed

/-- chaum_pedersen.py:141-156 `ChaumPedersenProof`. -/
structure CPProof where
  a : Nat
  b : Nat
  c : Nat
  v : Nat
  deriving DecidableEq, Repr

/-- The arguments hashed at chaum_pedersen.py:199, 498. -/
def cpHashArgs (q : Nat) (m : Ciphertext) (a b share : Nat) : List HArg :=
  [.elem q, .elem m.pad, .elem m.data, .elem a, .elem b, .elem share]

/-- chaum_pedersen.py:161-255 `ChaumPedersenProof.is_valid`. -/
def CPProof.isValid (E : Env) (pf : CPProof) (message : Ciphertext) (k m q : Nat) : Bool :=
  let P := E.P
  let alpha := message.pad
  let beta := message.data
  let consistentGv :=
    inBoundsQ P pf.v && isValidResidue P pf.a && inBoundsQ P pf.c
      && gPowP P pf.v == multP P pf.a (powP P k pf.c)
  let consistentAv :=
    isValidResidue P alpha && isValidResidue P pf.b && inBoundsQ P pf.c && inBoundsQ P pf.v
      && powP P alpha pf.v == multP P pf.b (powP P m pf.c)
  isValidResidue P alpha
    && isValidResidue P beta
    && isValidResidue P k
    && isValidResidue P m
    && isValidResidue P pf.a
    && isValidResidue P pf.b
    && inBoundsQ P pf.c
    && inBoundsQ P pf.v
    && inBoundsQ P q
    && pf.c == hashElems E (cpHashArgs q message pf.a pf.b m)
    && consistentGv
    && consistentAv

/-- The header string of the nonces at chaum_pedersen.py:495, 527. -/
def constHeader : List HArg := [.str "constant-chaum-pedersen-proof"]

/-- chaum_pedersen.py:473-501 `make_chaum_pedersen`. -/
def makeCP (E : Env) (message : Ciphertext) (s m seed header : Nat) : CPProof :=
  let P := E.P
  let u := nonce E seed constHeader 0
  let a := gPowP P u
  let b := powP P message.pad u
  let c := hashElems E (cpHashArgs header message a b m)
  let v := aPlusBCQ P u c s
  ⟨a, b, c, v⟩

/-- chaum_pedersen.py:258-275 `ConstantChaumPedersenProof`. -/
structure ConstProof where
  a : Nat
  b : Nat
  c : Nat
  v : Nat
  constant : Int
  deriving DecidableEq, Repr

/-- The arguments hashed at chaum_pedersen.py:317, 530. -/
def constHashArgs (q : Nat) (m : Ciphertext) (a b : Nat) : List HArg :=
  [.elem q, .elem m.pad, .elem m.data, .elem a, .elem b]

/-- chaum_pedersen.py:280-367 `ConstantChaumPedersenProof.is_valid`. -/
def ConstProof.isValid (E : Env) (pf : ConstProof) (message : Ciphertext) (k q : Nat) : Bool :=
  let P := E.P
  let alpha := message.pad
  let beta := message.data
  let constantQ := (intToQ P pf.constant).getD 0
  let inBoundsConstant := (intToQ P pf.constant).isSome
  let saneConstant := decide (0 ≤ pf.constant ∧ pf.constant < 1000000000)
  let consistentGv :=
    inBoundsQ P pf.v && isValidResidue P pf.a && isValidResidue P alpha && inBoundsQ P pf.c
      && gPowP P pf.v == multP P pf.a (powP P alpha pf.c)
  let consistentKv :=
    inBoundsConstant
      && multP P (gPowP P (multP P pf.c constantQ)) (powP P k pf.v)
          == multP P pf.b (powP P beta pf.c)
  isValidResidue P alpha
    && isValidResidue P beta
    && isValidResidue P pf.a
    && isValidResidue P pf.b
    && inBoundsQ P pf.c
    && inBoundsQ P pf.v
    && pf.c == hashElems E (constHashArgs q message pf.a pf.b)
    && inBoundsConstant
    && saneConstant
    && consistentGv
    && consistentKv

/-- chaum_pedersen.py:504-533 `make_constant_chaum_pedersen`. -/
def makeConst (E : Env) (message : Ciphertext) (constant : Int) (r k seed header : Nat) :
    ConstProof :=
  let P := E.P
  let u := nonce E seed constHeader 0
  let a := gPowP P u
  let b := powP P k u
  let c := hashElems E (constHashArgs header message a b)
  let v := aPlusBCQ P u c r
  ⟨a, b, c, v, constant⟩

/-- schnorr.py:17-33 `SchnorrProof`. -/
structure SchnorrProof where
  k : Nat
  h : Nat
  c : Nat
  u : Nat
  deriving DecidableEq, Repr

/-- schnorr.py:36-76 `SchnorrProof.is_valid`. -/
def SchnorrProof.isValid (E : Env) (pf : SchnorrProof) : Bool :=
  let P := E.P
  let c := hashElems E [.elem pf.k, .elem pf.h]
  isValidResidue P pf.k
    && inBoundsP P pf.h
    && inBoundsQ P pf.u
    && c == pf.c
    && gPowP P pf.u == multP P pf.h (powP P pf.k c)

/-- schnorr.py:79-92 `make_schnorr_proof`. -/
def makeSchnorr (E : Env) (kp : KeyPair) (r : Nat) : SchnorrProof :=
  let P := E.P
  let h := gPowP P r
  let c := hashElems E [.elem kp.pub, .elem h]
  ⟨kp.pub, h, c, aPlusBCQ P r kp.secret c⟩

end EG
