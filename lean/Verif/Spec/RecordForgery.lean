import Verif.Spec.AuditQuorum
import Verif.Spec.Forgery
import Verif.Props.Election

/-!
# Somebody who asks for hashes and then shows an election record

The forger of `Spec/Forgery.lean` shows a whole election record after the key ceremony: the guardians are given, everything else, ballots
and decryptions included, is the forger's.
-/

namespace EG

open Finset

/-- The texts that are hashed for the proofs of a contest on a ballot. -/
def CContest.proofTexts (c : CContest) (base : Nat) : List Text :=
  c.ballotSelections.flatMap (fun s => s.proof.toList.map (disjText base s.ciphertext))
    ++ c.proof.toList.map (limitText base c.ciphertextAccumulation)

/-- The texts that are hashed for the proof of a share, or of its parts. -/
def DecSelection.proofTexts (x : DecSelection) (base : Nat) (message : Ciphertext) : List Text :=
  match x.proof with
  | some pf => [shareText base message x.share pf]
  | none => (x.recovered.getD []).map fun e => shareText base message e.2.share e.2.proof

/-- The texts that are hashed for the proofs in a decryption. -/
def PlaintextTally.proofTexts (pt : PlaintextTally) (base : Nat) : List Text :=
  pt.contests.flatMap fun c => c.2.selections.flatMap fun e => e.2.shares.flatMap fun x => x.proofTexts base e.2.message

/-- The texts that are hashed for the proofs in a record. -/
def RecordView.proofTexts (v : RecordView) : List Text :=
  v.ballots.flatMap (fun b => b.contests.flatMap fun c => c.proofTexts v.context.cryptoExtendedBaseHash)
    ++ (v.tally :: v.spoiled).flatMap fun pt => pt.proofTexts v.context.cryptoExtendedBaseHash

/-- All texts of the forms that are hashed for proofs, with all base hashes. -/
def auditTexts (P : Params) : Finset Text := (range P.q).biUnion fun base => challengeTexts P base ∪ shareTexts P base

/-- The contests on the ballots are proved to have numbers of votes among these. -/
def RecordView.LimitsIn (v : RecordView) (limits : Finset Nat) : Prop :=
  ∀ b ∈ v.ballots, ∀ c ∈ b.contests, ∀ pf, c.proof = some pf → ∃ L ∈ limits, pf.constant = (L : Int)

/-- The record is wrong: although the election and the ballots are as they should be, there are no votes on the ballots of which the record
shows the result. -/
def RecordView.Misleads (v : RecordView) (E : Env) : Prop :=
  ∃ im, ElectionReady E v.manifest im ∧ (∀ b ∈ v.ballots, b.toCBallot.Regular im) ∧ WFContests v.encryptedTally.contests ∧
    ¬ ∃ plain, v.ShowsVotes E im plain

end EG
