import Verif.Spec.PublishedBallot
import Mathlib.Data.Finset.Pi
import Mathlib.Algebra.BigOperators.Group.Finset.Basic

/-!
# Published ballots whose challenges are hashes

In `Spec/PublishedBallot.lean` the challenges of the proofs are given.  Here they are what `hash_elems` makes of the commitments, as
in chaum_pedersen.py, and the hash function is drawn from all functions with values below `M` on a finite set of texts: a random
oracle.  The observer has the whole function.
-/

namespace EG

open Finset

abbrev Text := List Char

/-- The text that `hash_elems` feeds to SHA-256 for a list of elements: their hexadecimal digits between bars. -/
def elemText (l : List Nat) : Text := '|' :: l.flatMap (fun n => toHex n ++ ['|'])

/-- The text whose hash is the challenge of the proof of a vote. -/
def disjText (base : Nat) (c : Ciphertext) (pf : DisjProof) : Text :=
  elemText [base, c.pad, c.data, pf.a0, pf.b0, pf.a1, pf.b1]

/-- The text whose hash is the challenge of the proof of a sum of votes. -/
def limitText (base : Nat) (c : Ciphertext) (pf : ConstProof) : Text := elemText [base, c.pad, c.data, pf.a, pf.b]

/-- The texts whose hashes are the challenges of a ballot, in the order in which they are made. -/
def textsOf (P : Params) (base : Nat) (pubs : List PublishedContest) : List Text :=
  pubs.flatMap fun c => c.items.map (fun i => disjText base i.1 i.2)
    ++ [limitText base (ctProduct P (c.items.map Prod.fst)) c.limitProof]

/-- The challenges of a ballot, in the same order. -/
def challengesOf (pubs : List PublishedContest) : List Nat :=
  pubs.flatMap fun c => c.items.map (fun i => i.2.c) ++ [c.limitProof.c]

/-- All texts of these forms. -/
def challengeTexts (P : Params) (base : Nat) : Finset Text :=
  (range P.p ×ˢ range P.p ×ˢ range P.p ×ˢ range P.p ×ˢ range P.p ×ˢ range P.p).image
      (fun x => elemText [base, x.1, x.2.1, x.2.2.1, x.2.2.2.1, x.2.2.2.2.1, x.2.2.2.2.2])
    ∪ (range P.p ×ˢ range P.p ×ˢ range P.p ×ˢ range P.p).image
      (fun x => elemText [base, x.1, x.2.1, x.2.2.1, x.2.2.2])

/-- All functions that have any values below `M` on the texts `T` and are `f` elsewhere. -/
noncomputable def oracles (f : Text → Nat) (T : Finset Text) (M : Nat) : Finset (Text → Nat) :=
  haveI := Classical.decEq (Text → Nat)
  (T.pi fun _ => range M).image fun h t => if ht : t ∈ T then h t ht else f t

/-- All lists of one element of `A` and a list of `L`. -/
def consAll {α : Type} [DecidableEq α] (A : Finset α) (L : Finset (List α)) : Finset (List α) :=
  (A ×ˢ L).image fun x => x.1 :: x.2

/-- All lists of `k` values below `M`. -/
def valueLists (M : Nat) : Nat → Finset (List Nat)
  | 0 => {[]}
  | k + 1 => consAll (range M) (valueLists M k)

/-- The nonce of an encrypted vote and the three random numbers of its proof, for which the prover of the code does not raise. -/
def voteDraws (P : Params) (R : Finset Nat) (vote : Nat) : Finset (Nat × Nat × Nat × Nat) :=
  R ×ˢ (if vote = 0 then range P.q else Ico 1 P.q) ×ˢ range P.q ×ˢ range P.q

/-- The same for the votes of a contest. -/
def itemDraws (P : Params) (R : Finset Nat) : List Nat → Finset (List (Nat × Nat × Nat × Nat))
  | [] => {[]}
  | v :: vs => consAll (voteDraws P R v) (itemDraws P R vs)

/-- Everything random of a ballot: for each contest that of its votes, and the random number of the proof of their sum. -/
def ballotDraws (P : Params) (R : Finset Nat) : List (List Nat) → Finset (List (List (Nat × Nat × Nat × Nat) × Nat))
  | [] => {[]}
  | votes :: b => consAll (itemDraws P R votes ×ˢ range P.q) (ballotDraws P R b)

/-- The encryption of a vote. -/
def voteCipher (P : Params) (K vote r : Nat) : Ciphertext := ⟨P.g ^ r % P.p, P.g ^ vote * K ^ r % P.p⟩

/-- The encrypted votes of a contest with their proofs for these challenges. -/
def publishItems (P : Params) (K : Nat) :
    List Nat → List Nat → List (Nat × Nat × Nat × Nat) → List (Ciphertext × DisjProof)
  | v :: vs, ch :: chs, d :: ds => (voteCipher P K v d.1, proveVote P v d.1 K d.2 ch) :: publishItems P K vs chs ds
  | _, _, _ => []

/-- A published contest for these challenges. -/
def publishContest (P : Params) (K : Nat) (votes : List Nat) (plan : ContestPlan) (d : List (Nat × Nat × Nat × Nat) × Nat) :
    PublishedContest :=
  ⟨publishItems P K votes plan.challenges d.1,
    proveConst P plan.limit (d.1.map Prod.fst).sum K d.2 plan.limitChallenge⟩

/-- A published ballot for these challenges. -/
def publishBallot (P : Params) (K : Nat) :
    List (List Nat × ContestPlan) → List (List (Nat × Nat × Nat × Nat) × Nat) → List PublishedContest
  | (votes, plan) :: b, d :: ds => publishContest P K votes plan d :: publishBallot P K b ds
  | _, _ => []

/-- How many proofs a ballot has: one for each vote and one for each contest. -/
def proofsOf (b : List (List Nat)) : Nat := (b.map fun votes => votes.length + 1).sum

/-- The challenges of a ballot are these values mod `q`, in the order of its proofs. -/
def planBy (q : Nat) : List (List Nat) → List Nat → List (List Nat × ContestPlan)
  | [], _ => []
  | votes :: b, vs =>
    (votes, ⟨votes.sum, (vs.take votes.length).map (· % q), vs.getD votes.length 0 % q⟩)
      :: planBy q b (vs.drop (votes.length + 1))

/-- The texts to hash, which are made before the challenges are known. -/
def commitTexts (P : Params) (base K : Nat) (b : List (List Nat)) (d : List (List (Nat × Nat × Nat × Nat) × Nat)) : List Text :=
  textsOf P base (publishBallot P K (planBy P.q b (List.replicate (proofsOf b) 0)) d)

/-- The published ballot whose challenges are hashes, for the hash function `s`. -/
def hashedBallot (P : Params) (base : Nat) (s : Text → Nat) (K : Nat) (b : List (List Nat))
    (d : List (List (Nat × Nat × Nat × Nat) × Nat)) : List PublishedContest :=
  publishBallot P K (planBy P.q b ((commitTexts P base K b d).map s)) d

/-- What an observer of key, hash function and published ballot answers, summed over all secret keys, hash functions and everything
random. -/
def hashedPublished (P : Params) (base : Nat) (X R : Finset Nat) (Ω : Finset (Text → Nat))
    (D : Nat → (Text → Nat) → List PublishedContest → Int) (b : List (List Nat)) : Int :=
  ∑ x ∈ X, ∑ s ∈ Ω, ∑ d ∈ ballotDraws P R b,
    D (P.g ^ x % P.p) s (hashedBallot P base s (P.g ^ x % P.p) b d)

/-- The hash function with these values at these texts. -/
def program (s : Text → Nat) : List Text → List Nat → (Text → Nat)
  | t :: ts, v :: vs => Function.update (program s ts vs) t v
  | _, _ => s

/-- The observer of ballots with given challenges made of an observer who also has the hash function: the function they are shown
has the values `vs` at the texts of the ballot. -/
def programmedObserver (P : Params) (base : Nat) (D : Nat → (Text → Nat) → List PublishedContest → Int) (s : Text → Nat)
    (vs : List Nat) : Nat → List PublishedContest → Int :=
  fun K pubs => D K (program s (textsOf P base pubs) vs) pubs

/-- The adversary against decisional Diffie-Hellman made of an observer of ballots with hashed challenges: it draws a hash function and
the challenges, simulates the proofs, and shows the observer the hash function with the challenges at the texts of the proofs. -/
def oracleAdversary (P : Params) (base : Nat) (R : Finset Nat) (Ω : Finset (Text → Nat)) (M : Nat)
    (D : Nat → (Text → Nat) → List PublishedContest → Int) (b : List (List Nat)) (before : List Nat) (m : Nat) (after : List Nat) :
    Nat → Nat → Nat → Int := fun K Y Z =>
  ∑ vs ∈ valueLists M (proofsOf b), ∑ s ∈ Ω,
    adversaryOf P R (ciphertextObserver P ((planBy P.q b vs).map fun c => (c.1.length, c.2)) (programmedObserver P base D s vs))
      before m after K Y Z

/-- What two ballots with different votes have in common. -/
def shapeOf (b : List (List Nat)) : List (Nat × Nat) := b.map fun votes => (votes.length, votes.sum)

/-- How many draws there are for a ballot, those for which the prover raises included. -/
def drawCount (P : Params) (R : Finset Nat) (b : List (List Nat)) : Nat :=
  (b.map fun votes => (R.card * P.q ^ 3) ^ votes.length * P.q).prod

end EG
