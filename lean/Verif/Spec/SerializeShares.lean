import Verif.Spec.Serialize
import Verif.Model.GuiDecryption

/-!
# Elements of shares, and of what the GUI keeps of a decryption
-/

namespace EG

/-- Elements and dicts of the share of a contest. -/
def DecContest.Typed (P : Params) (c : DecContest) : Prop := c.descriptionHash < P.q ∧ Keys c.selections ∧ ∀ e ∈ c.selections, e.2.Typed P

/-- Elements and dicts of a share. -/
def DecShare.Typed (P : Params) (s : DecShare) : Prop := s.publicKey < P.p ∧ Keys s.contests ∧ ∀ e ∈ s.contests, e.2.Typed P

/-- Elements and dicts of the compensated share of a contest. -/
def CompContest.Typed (P : Params) (c : CompContest) : Prop := c.descriptionHash < P.q ∧ Keys c.selections ∧ ∀ e ∈ c.selections, e.2.Typed P

/-- Elements and dicts of a compensated share. -/
def CompShare.Typed (P : Params) (s : CompShare) : Prop := s.publicKey < P.p ∧ Keys s.contests ∧ ∀ e ∈ s.contests, e.2.Typed P

/-- Elements and dicts of the shares that a guardian adds to a decryption. -/
def JoinedShare.SharesTyped (P : Params) (s : JoinedShare) : Prop :=
  s.tallyShare.Typed P ∧ ∀ b ∈ s.ballotShares, ∀ sh ∈ b.2, sh.Typed P

/-- Elements and dicts of what a guardian adds to a decryption. -/
def JoinedShare.Typed (P : Params) (s : JoinedShare) : Prop := s.key.Typed P ∧ s.SharesTyped P

/-- Elements and dicts of the result of a decryption. -/
def GuiResult.Typed (P : Params) (r : GuiResult) : Prop :=
  r.tally.Typed P ∧ (∀ b ∈ r.ballots, b.2.Typed P) ∧ (Keys r.lagrange ∧ ∀ e ∈ r.lagrange, e.2 < P.q) ∧
    Keys r.ciphertextTally.contests ∧ ∀ e ∈ r.ciphertextTally.contests, e.2.Typed P

end EG
