import Verif.Spec.RecordForgery

/-!
# Two records of the same ballots
-/

namespace EG

/-- The two records are about the same election: the same manifest, the same guardians, the same ballots, in any order. -/
structure RecordView.SameBallots (v v' : RecordView) : Prop where
  manifest : v.manifest = v'.manifest
  guardians : v.guardians.Perm v'.guardians
  ballots : v.ballots.Perm v'.ballots

/-- The two records show different results: different numbers for a selection of the manifest, or different contents of a ballot that
was spoiled. -/
def RecordView.Disagree (v v' : RecordView) (q : Nat) (im : InternalManifest) : Prop :=
  (∃ d ∈ im.contests, ∃ sd ∈ d.ballotSelections, ∃ ps ps', v.tally.Shows d.objectId sd.objectId ps ∧
    v'.tally.Shows d.objectId sd.objectId ps' ∧ ¬ ps.tally ≡ ps'.tally [MOD q]) ∨
  ∃ b ∈ v.ballots, b.state = .spoiled ∧ ∃ c ∈ b.contests, ∃ s ∈ c.ballotSelections, Describes v.manifest c.objectId s.objectId ∧
    ∃ pt ∈ v.spoiled, ∃ pt' ∈ v'.spoiled, pt.objectId = b.objectId ∧ pt'.objectId = b.objectId ∧
      ∃ ps ps', pt.Shows c.objectId s.objectId ps ∧ pt'.Shows c.objectId s.objectId ps' ∧ ¬ ps.tally ≡ ps'.tally [MOD q]

/-- Two records of the same ballots, as they should be, that show different results. -/
def Contradict (E : Env) (v v' : RecordView) : Prop :=
  v.SameBallots v' ∧ ∃ im, ElectionReady E v.manifest im ∧ (∀ b ∈ v.ballots, b.toCBallot.Regular im) ∧
    WFContests v.encryptedTally.contests ∧ WFContests v'.encryptedTally.contests ∧ v.Disagree v' E.P.q im

end EG
