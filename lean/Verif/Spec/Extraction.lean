import Verif.Spec.Forgery

/-!
# Finding out the secret of somebody who shows proofs of knowledge

The program is run twice.  The second time the hash of the text of the proof is another one, and everything else is as before.
-/

namespace EG

open Finset

/-- The text whose hash is the challenge of a proof of knowledge. -/
def schnorrText (pf : SchnorrProof) : Text := elemText [pf.k, pf.h]

/-- All texts of this form. -/
def schnorrTexts (P : Params) : Finset Text := (range P.p ×ˢ range P.p).image fun x => elemText [x.1, x.2]

/-- The number found out from two runs of a program, `proof` being the proof of interest in what it shows: the difference of the responses
divided by the difference of the challenges. -/
def extractSecret {α : Type} (P : Params) (proof : α → SchnorrProof) (A : Asking α) (s : Text → Nat) (v : Nat) : R Nat :=
  let pf := proof (A.run s)
  let pf' := proof (A.run (Function.update s (schnorrText pf) v))
  divQ P (aMinusBQ P pf.u pf'.u) (aMinusBQ P pf.c pf'.c)

/-- It is the secret of the key in the proof. -/
def Extracted {α : Type} (P : Params) (proof : α → SchnorrProof) (A : Asking α) (s : Text → Nat) (v : Nat) : Prop :=
  ∃ x, extractSecret P proof A s v = .ok x ∧ P.g ^ x % P.p = (proof (A.run s)).k

/-- The vote and the nonce found out from two runs of a program that shows a ciphertext with the proof of a vote. -/
def extractVote {α : Type} (P : Params) (base : Nat) (item : α → Ciphertext × DisjProof) (A : Asking α) (s : Text → Nat) (v : Nat) :
    R (Nat × Nat) :=
  let i := item (A.run s)
  let pf' := (item (A.run (Function.update s (disjText base i.1 i.2) v))).2
  if i.2.c0 ≠ pf'.c0 then (divQ P (aMinusBQ P i.2.v0 pf'.v0) (aMinusBQ P i.2.c0 pf'.c0)).map fun r => (0, r)
  else (divQ P (aMinusBQ P i.2.v1 pf'.v1) (aMinusBQ P i.2.c1 pf'.c1)).map fun r => (1, r)

/-- The ciphertext is the encryption of that vote, which is 0 or 1, with that nonce. -/
def VoteExtracted {α : Type} (P : Params) (K base : Nat) (item : α → Ciphertext × DisjProof) (A : Asking α) (s : Text → Nat) (v : Nat) :
    Prop :=
  ∃ m r, extractVote P base item A s v = .ok (m, r) ∧ (m = 0 ∨ m = 1) ∧ EncryptsWith P K r m (item (A.run s)).1

end EG
