import Verif.Model.Manifest
import Verif.Spec.Vote
import Verif.Spec.Election

/-!
# Contests that are marked in order
-/

namespace EG

/-- A contest filled in with `votes` votes: described selections only, each at most once, with a vote or an explicit no, no placeholders and no
write-ins. -/
structure PlaintextContest.Marked (c : PlaintextContest) (d : ContestWithPlaceholders) (votes : Int) : Prop where
  id : c.objectId = d.objectId
  once : ∃ rest, (c.ballotSelections.map PlaintextSelection.objectId ++ rest).Perm (d.ballotSelections.map SelectionDescription.objectId)
  votes : c.chosen = votes
  binary : ∀ s ∈ c.ballotSelections, s.vote = 0 ∨ s.vote = 1
  plain : ∀ s ∈ c.ballotSelections, s.isPlaceholder = false ∧ s.writeIn = none

/-- The numbers of votes that are asked for: none, if this is allowed; fewer than there are seats, if this is allowed; or one for each seat. -/
def VotesAsked (allowNull allowUnder : Bool) (seats votes : Int) : Prop :=
  votes = seats ∨ (allowNull = true ∧ votes = 0) ∨ (allowUnder = true ∧ 1 ≤ votes ∧ votes ≤ seats)

/-- A ballot with the contests of its style and no others, in the order of the manifest, each filled in as asked. -/
def PlaintextBallot.FilledIn (b : PlaintextBallot) (im : InternalManifest) (allowNull allowUnder : Bool) : Prop :=
  List.Forall₂ (fun c d => ∃ k, c.Marked d k ∧ VotesAsked allowNull allowUnder d.numberElected k) b.contests (im.contests.filter (im.onStyle b.styleId))

/-- The styles a ballot may have: the one that is asked for, or any; in either case one of the manifest. -/
def StyleAsked (im : InternalManifest) (asked : Option String) (sid : String) : Prop :=
  (∀ id, asked = some id → sid = id) ∧ sid ∈ im.ballotStyles.map BallotStyle.objectId

/-- The nonces that a contest's selections get from this seed are not 0. -/
def NoncesUsable (E : Env) (d : ContestWithPlaceholders) (seed : Nat) : Prop :=
  ∀ sd ∈ d.ballotSelections ++ d.placeholders,
    nonce E (sd.cryptoHash E) [.elem (nonce E (d.cryptoHash E) [.elem seed] d.sequenceOrder.toNat)] sd.sequenceOrder.toNat ≠ 0 ∧
    nonce E (nonce E (sd.cryptoHash E) [.elem (nonce E (d.cryptoHash E) [.elem seed] d.sequenceOrder.toNat)] 0) disjHeader 0 ≠ 0

/-- The orders of a contest and its selections are not negative. -/
def OrdersUsable (d : ContestWithPlaceholders) : Prop :=
  0 ≤ d.sequenceOrder ∧ ∀ sd ∈ d.ballotSelections ++ d.placeholders, 0 ≤ sd.sequenceOrder

end EG
