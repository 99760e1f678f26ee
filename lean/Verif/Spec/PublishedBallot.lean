import Verif.Spec.Ddh
import Verif.Spec.ZeroKnowledge

/-!
# What an observer of published ballots sees, and what a simulator shows them

As in `Spec/ZeroKnowledge.lean` the random numbers of the provers are drawn and the challenges are given.  Left out of the
draws are those for which the half of the challenge for zero is 0: such a proof shows the vote (`C82_zero_half_reveals_fails`),
and the prover for 1 raises instead of making one.
-/

namespace EG

open Finset

/-- What is published of a contest: the encrypted votes with their proofs, and the proof of their sum. -/
structure PublishedContest where
  items : List (Ciphertext × DisjProof)
  limitProof : ConstProof

/-- What two contests with different votes have in common: the number of votes to give, the challenges of the selections and
the challenge of the sum. -/
structure ContestPlan where
  limit : Nat
  challenges : List Nat
  limitChallenge : Nat

/-- The random numbers of the proof of a vote, without those for which the half of the challenge for zero is 0. -/
def proofCoins (P : Params) (vote ch : Nat) : Finset (Nat × Nat × Nat) :=
  (range P.q ×ˢ range P.q ×ˢ range P.q).filter fun n =>
    if vote = 0 then (ch + (P.q - n.1)) % P.q ≠ 0 else n.1 ≠ 0

/-- The proof of a vote 0 or 1. -/
def proveVote (P : Params) (vote r K : Nat) (n : Nat × Nat × Nat) (ch : Nat) : DisjProof :=
  if vote = 0 then proveZero P r K n.1 n.2.1 n.2.2 ch else proveOne P r K n.1 n.2.1 n.2.2 ch

/-- `F` of the encrypted votes with their proofs and of the sum of the nonces, summed over all nonces and random numbers. -/
def itemSum (P : Params) (R : Finset Nat) (K : Nat) :
    List (Nat × Nat) → (List (Ciphertext × DisjProof) → Nat → Int) → Int
  | [], F => F [] 0
  | (vote, ch) :: vs, F => ∑ r ∈ R,
      match elgamalEncrypt P vote r K with
      | some c => ∑ n ∈ proofCoins P vote ch,
          itemSum P R K vs (fun items t => F ((c, proveVote P vote r K n ch) :: items) (r + t))
      | none => 0

/-- `F` of what is published of a contest with these votes, summed over everything random. -/
def contestShown (P : Params) (R : Finset Nat) (K : Nat) (votes : List Nat) (plan : ContestPlan)
    (F : PublishedContest → Int) : Int :=
  itemSum P R K (votes.zip plan.challenges) fun items t =>
    ∑ n ∈ range P.q, F ⟨items, proveConst P plan.limit t K n plan.limitChallenge⟩

/-- `F` of what is published of a ballot, summed over everything random. -/
def ballotShown (P : Params) (R : Finset Nat) (K : Nat) :
    List (List Nat × ContestPlan) → (List PublishedContest → Int) → Int
  | [], F => F []
  | (votes, plan) :: cs, F =>
      contestShown P R K votes plan fun pub => ballotShown P R K cs fun pubs => F (pub :: pubs)

/-- What an observer of key and published ballot answers, summed over all secret keys and everything random. -/
def published (P : Params) (X R : Finset Nat) (D : Nat → List PublishedContest → Int)
    (ballot : List (List Nat × ContestPlan)) : Int :=
  ∑ x ∈ X, ballotShown P R (P.g ^ x % P.p) ballot (D (P.g ^ x % P.p))

/-- Simulated proofs for ciphertexts. -/
def simItems (P : Params) (K : Nat) :
    List (Ciphertext × Nat) → (List (Ciphertext × DisjProof) → Int) → Int
  | [], F => F []
  | (c, ch) :: cs, F => ∑ x ∈ Ico 1 P.q ×ˢ range P.q ×ˢ range P.q,
      simItems P K cs (fun items => F ((c, simulateDisj P c K x.1 x.2.1 x.2.2 ch) :: items))

/-- The product of ciphertexts. -/
def ctProduct (P : Params) (cs : List Ciphertext) : Ciphertext :=
  ⟨(cs.map Ciphertext.pad).prod % P.p, (cs.map Ciphertext.data).prod % P.p⟩

/-- A simulated contest, made of the ciphertexts alone. -/
def simContest (P : Params) (K : Nat) (plan : ContestPlan) (cs : List Ciphertext) (F : PublishedContest → Int) : Int :=
  simItems P K (cs.zip plan.challenges) fun items =>
    ∑ v ∈ range P.q, F ⟨items, simulateConst P plan.limit (ctProduct P cs) K v plan.limitChallenge⟩

/-- A simulated ballot, made of the ciphertexts of all contests in a row; with each plan the number of votes. -/
def simBallot (P : Params) (K : Nat) :
    List (Nat × ContestPlan) → List Ciphertext → (List PublishedContest → Int) → Int
  | [], _, F => F []
  | (n, plan) :: ps, cs, F =>
      simContest P K plan (cs.take n) fun pub => simBallot P K ps (cs.drop n) fun pubs => F (pub :: pubs)

/-- The observer of ciphertexts made of an observer of ballots: they simulate everything else. -/
def ciphertextObserver (P : Params) (plans : List (Nat × ContestPlan)) (D : Nat → List PublishedContest → Int) :
    Nat → List Ciphertext → Int := fun K cs => simBallot P K plans cs (D K)

end EG
