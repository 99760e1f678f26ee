import Verif.Spec.Decryption

/-!
# Vocabulary for the decryption of single ballots
-/

namespace EG

/-- The pairs (available, missing) for which a compensated share of the ballot was received. -/
def receivedBallotPairs (ballotId : String) (ops : List DMOp) : List (String × String) :=
  ops.filterMap (fun o => match o with
    | .receiveBallotComp cs => (dget cs ballotId).map (fun c => (c.guardianId, c.missingId))
    | _ => none)

/-- A call made on behalf of guardians of an election with keys `all` and polynomials `coef`, with right shares of the
ballots `bs`: a guardian that announces brings a share of every ballot.  The reconstruction has not been called yet. -/
def HonestBallotOp (E : Env) (baseHash : Nat) (bs : List SBallot) (all : List ElectionPublicKey)
    (coef : String → List Nat) : DMOp → Prop
  | .announce k _ shares => k ∈ all ∧ ∃ l, shares = some l ∧ (dkeys l).Nodup ∧ ∀ b ∈ bs, ∃ sh,
      dget l b.objectId = some (some sh) ∧ sh.guardianId = k.ownerId ∧
      ShareFor E baseHash (polyAt (coef k.ownerId) 0) k.key b.toCts sh
  | .announceMissing k => k ∈ all
  | .validateMissing ks => ∀ k ∈ ks, k ∈ all
  | .receiveTallyComp _ => True
  | .receiveBallotComp cs => (dkeys cs).Nodup ∧ ∀ b ∈ bs, ∀ c, dget cs b.objectId = some c →
      ∃ k ∈ all, ∃ m ∈ all, c.guardianId = k.ownerId ∧ c.missingId = m.ownerId ∧
        CompFor E baseHash (polyAt (coef m.ownerId) k.sequenceOrder.toNat % E.P.q) b.toCts c
  | .reconstructTally _ => True
  | .reconstructBallots _ => False

end EG
