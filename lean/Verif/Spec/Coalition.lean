import Verif.Spec.PublishedBallot
import Verif.Spec.Polynomial
import Verif.Props.SharePrivacy

/-!
# What a coalition of guardians sees of the one guardian who does not belong to it

One guardian keeps to the protocol and draws the secret `x` and the other coefficients of their polynomial.  The coalition holds
the backups of that guardian for the sequence orders `orders`, one fewer than the polynomial has coefficients, and knows
the sum of the secret keys of all other guardians.  It may choose these secrets after it has seen the commitments and proofs
of the honest guardian and the backups.  It sees the published ballots, and the share of the honest guardian of every
tally; a tally is the product of the ciphertexts at some positions.  As in `Spec/ZeroKnowledge.lean` the challenges of the
proofs are given.

Next to this stands an observer who has the public key of the honest guardian and ciphertexts under that key, and makes up
everything else with coins of their own.
-/

namespace EG

open Finset

/-- All lists of `n` numbers below `q`. -/
def allLists (q : Nat) : Nat → Finset (List Nat)
  | 0 => {[]}
  | n + 1 => (range q ×ˢ allLists q n).image (fun e => e.1 :: e.2)

/-- The backups for the given orders. -/
def coordsOf (q : Nat) (as xs : List Nat) : List Nat := xs.map fun x => polyAt as x % q

/-- `F` of the proofs (which contain the commitments) of the coefficients, summed over the random numbers of the proofs;
with each coefficient its challenge. -/
def keysShown (P : Params) : List (Nat × Nat) → (List SchnorrProof → Int) → Int
  | [], F => F []
  | (a, ch) :: as, F => ∑ n ∈ range P.q, keysShown P as (fun pfs => F (proveKey P ⟨a, P.g ^ a % P.p⟩ n ch :: pfs))

/-- The elements of a list at the given positions. -/
def picked {α : Type} (positions : List Nat) (l : List α) : List α := positions.filterMap (fun i => l[i]?)

/-- `F` of the shares that the secret `x` gives of the ciphertexts, and of their proofs, summed over the random numbers of the
proofs; with each ciphertext its challenge. -/
def sharesShown (P : Params) (x : Nat) : List (Ciphertext × Nat) → (List (Nat × CPProof) → Int) → Int
  | [], F => F []
  | (c, ch) :: cs, F => ∑ n ∈ range P.q,
      sharesShown P x cs (fun l => F ((c.pad ^ x % P.p, proveShare P c x n ch) :: l))

/-- The circumstances of an election with one guardian outside the coalition. -/
structure CoalitionPlan where
  /-- the sequence orders of the backups that the coalition has -/
  orders : List Nat
  /-- the challenges of the proofs of the coefficients -/
  keyChallenges : List Nat
  /-- the sum of the secret keys of the others, chosen when commitments, proofs and backups are seen -/
  secrets : List SchnorrProof → List Nat → Nat
  /-- the positions that make up a tally, and the challenge of the proof of the share -/
  tallies : List (List Nat × Nat)

/-- All ciphertexts of published contests. -/
def ciphertextsOf (pubs : List PublishedContest) : List Ciphertext := pubs.flatMap fun c => c.items.map Prod.fst

/-- What the coalition answers, summed over the secret key of the guardian, the other coefficients, and everything random in
keys, ballots and shares. -/
def coalitionSees (P : Params) (X R : Finset Nat) (plan : CoalitionPlan)
    (D : List SchnorrProof → List Nat → List PublishedContest → List (Nat × CPProof) → Int)
    (ballots : List (List Nat × ContestPlan)) : Int :=
  ∑ x ∈ X, ∑ as ∈ allLists P.q plan.orders.length,
    keysShown P ((x :: as).zip plan.keyChallenges) fun keys =>
      let ys := coordsOf P.q (x :: as) plan.orders
      ballotShown P R (P.g ^ (x + plan.secrets keys ys) % P.p) ballots fun pubs =>
        sharesShown P x (plan.tallies.map fun t => (ctProduct P (picked t.1 (ciphertextsOf pubs)), t.2)) fun shares =>
          D keys ys pubs shares

/-! ### What can be made up from the public key -/

/-- The commitments to the coefficients of `y₀ + (X - x₀) Q`, from those of `Q` and (as `c`) of `y₀`. -/
def timesLinear (P : Params) (x₀ : Nat) : Nat → List Nat → List Nat
  | c, [] => [c]
  | c, k :: ks => c * k ^ (P.q - x₀ % P.q) % P.p :: timesLinear P x₀ k ks

/-- Newton's interpolation in the exponent: the commitments to the coefficients of the polynomial of which values at some points
are committed to. -/
def commitmentsFrom (P : Params) : List (Nat × Nat) → List Nat
  | [] => []
  | (x₀, k₀) :: rest => timesLinear P x₀ k₀ (commitmentsFrom P (rest.map fun e =>
      (e.1, (e.2 * k₀ ^ (P.q - 1)) ^ ((e.1 + (P.q - x₀ % P.q)) ^ (P.q - 2) % P.q) % P.p)))
termination_by l => l.length
decreasing_by simp

/-- The commitments of a guardian, from their public key and the backups. -/
def simCommitments (P : Params) (K : Nat) (xs ys : List Nat) : List Nat :=
  commitmentsFrom P ((0, K) :: xs.zip (ys.map fun y => P.g ^ y % P.p))

/-- Simulated proofs of commitments. -/
def keysSim (P : Params) : List (Nat × Nat) → (List SchnorrProof → Int) → Int
  | [], F => F []
  | (k, ch) :: ks, F => ∑ u ∈ range P.q, keysSim P ks (fun pfs => F (simulateKey P k u ch :: pfs))

/-- A ciphertext under a key becomes one under the product of that key and `g^s`. -/
def shiftKey (P : Params) (s : Nat) (c : Ciphertext) : Ciphertext := ⟨c.pad, c.data * c.pad ^ s % P.p⟩

/-- Simulated shares: of the guardian with public key `K`, when the others have the secret `s`; with each ciphertext the
published number and the challenge. -/
def sharesSim (P : Params) (K s : Nat) : List (Ciphertext × Nat × Nat) → (List (Nat × CPProof) → Int) → Int
  | [], F => F []
  | (c, number, ch) :: cs, F => ∑ v ∈ range P.q,
      let m := knownShare P c number [c.pad ^ s % P.p]
      sharesSim P K s cs (fun l => F ((m, simulateShare P c K m v ch) :: l))

/-- The observer of ciphertexts made of a coalition: they draw the backups, make the commitments and simulate all proofs, and
know of the votes only the published numbers. -/
def coalitionObserver (P : Params) (plan : CoalitionPlan) (contests : List (Nat × ContestPlan)) (numbers : List Nat)
    (D : List SchnorrProof → List Nat → List PublishedContest → List (Nat × CPProof) → Int) :
    Nat → List Ciphertext → Int := fun K cs =>
  ∑ ys ∈ allLists P.q plan.orders.length,
    keysSim P ((simCommitments P K plan.orders ys).zip plan.keyChallenges) fun keys =>
      let s := plan.secrets keys ys
      let cs' := cs.map (shiftKey P s)
      simBallot P (K * P.g ^ s % P.p) contests cs' fun pubs =>
        sharesSim P K s ((plan.tallies.zip numbers).map fun t => (ctProduct P (picked t.1.1 cs'), t.2, t.1.2)) fun shares =>
          D keys ys pubs shares

/-- The published numbers: the sums of the votes at the positions of each tally. -/
def numbersOf (plan : CoalitionPlan) (votes : List Nat) : List Nat := plan.tallies.map fun t => (picked t.1 votes).sum

end EG
