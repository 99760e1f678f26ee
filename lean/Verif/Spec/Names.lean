import Verif.Model.Names
import Verif.Spec.Decryption
import Verif.Spec.Manifest

/-!
# Vocabulary for names and reports
-/

namespace EG

/-- The name has a text, if the manifest has a name. -/
def Manifest.Named (m : Manifest) : Prop := ∀ t, m.name = some t → t.text ≠ []

/-- The ids of the selections are distinct across all contests. -/
def Manifest.DistinctSelections (m : Manifest) : Prop :=
  (m.contests.flatMap (fun c => c.ballotSelections.map SelectionDescription.objectId)).Nodup

/-- A selection stands for a candidate of the manifest. -/
def Manifest.KnownCandidates (m : Manifest) : Prop :=
  ∀ c ∈ m.contests, ∀ s ∈ c.ballotSelections, ∃ k ∈ m.candidates, k.objectId = s.candidateId

/-- The plaintext tally has each contest under its id, each selection under its id, and nothing that the manifest does not have. -/
def PlaintextTally.FromManifest (pt : PlaintextTally) (m : Manifest) : Prop :=
  (dkeys pt.contests).Nodup ∧ ∀ e ∈ pt.contests, e.2.objectId = e.1 ∧ (dkeys e.2.selections).Nodup ∧
    ∃ c ∈ m.contests, c.objectId = e.1 ∧ ∀ s ∈ e.2.selections, s.2.objectId = s.1 ∧
      s.1 ∈ c.ballotSelections.map SelectionDescription.objectId

/-- A text in a language, if there is one that is not empty. -/
inductive InternationalizedText.Says (t : InternationalizedText) (lang : String) : String → Prop
  | first (pre post : List Language) (l : Language) : t.text = pre ++ l :: post → (∀ x ∈ pre, x.language ≠ lang) →
      l.language = lang → l.value ≠ "" → t.Says lang l.value

/-- How a candidate is shown. -/
inductive Candidate.Shown (c : Candidate) (lang : String) : String → Prop
  | writeIn : c.isWriteIn = some true → c.Shown lang "Write-In"
  | name (v : String) : c.isWriteIn ≠ some true → c.name.Says lang v → c.Shown lang v
  | id : c.isWriteIn ≠ some true → (∀ v, ¬ c.name.Says lang v) → c.Shown lang c.objectId

/-- How a selection is shown: by its candidate, or by the candidate's id if the manifest has no such candidate. -/
def Manifest.ShowsSelection (m : Manifest) (s : SelectionDescription) (name : String) : Prop :=
  (∃ k ∈ m.candidates, k.objectId = s.candidateId ∧ k.Shown "en" name) ∨
  ((∀ k ∈ m.candidates, k.objectId ≠ s.candidateId) ∧ name = s.candidateId)

/-- What has to be printed for a plaintext tally: the contests in order, each with its name and, in order, the name and the number of
each of its selections. -/
def Manifest.Prints (m : Manifest) (pt : PlaintextTally) (out : List PrintedContest) : Prop :=
  List.Forall₂ (fun (e : String × PTContest) (p : PrintedContest) => ∃ c ∈ m.contests, c.objectId = e.1 ∧ p.name = some c.name ∧
    List.Forall₂ (fun (s : String × PTSelection) (line : String × Nat) => ∃ d ∈ c.ballotSelections, d.objectId = s.1 ∧
      m.ShowsSelection d line.1 ∧ line.2 = s.2.tally) e.2.selections p.lines) pt.contests out

/-- The party of a candidate, as it is shown. -/
def Manifest.ShowsParty (m : Manifest) (k : Candidate) (name : String) : Prop :=
  (k.partyId = none ∧ name = "") ∨
  ∃ p ∈ m.parties, k.partyId = some p.objectId ∧ (p.name.Says "en" name ∨ ((∀ v, ¬ p.name.Says "en" v) ∧ name = ""))

/-- What has to be shown for a selection that is no write-in. -/
structure Manifest.ReportsSelection (m : Manifest) (c : ContestDescription) (total : Nat) (s : PTSelection) (r : ReportSelection) :
    Prop where
  described : ∃ d ∈ c.ballotSelections, d.objectId = s.objectId ∧ ∃ k ∈ m.candidates, k.objectId = d.candidateId ∧
    k.Shown "en" r.name ∧ m.ShowsParty k r.party
  tally : r.tally = s.tally
  percent : r.percent.1 * total = s.tally * r.percent.2 ∧ 0 < r.percent.2

/-- The selection is for a write-in candidate. -/
def Manifest.WriteIn (m : Manifest) (c : ContestDescription) (sid : String) : Prop :=
  ∃ d ∈ c.ballotSelections, d.objectId = sid ∧ ∃ k ∈ m.candidates, k.objectId = d.candidateId ∧ k.isWriteIn = some true

/-- What has to be shown for a contest: every selection that is no write-in, and the sums of the others and of these. -/
structure Manifest.ReportsContest (m : Manifest) (pc : PTContest) (r : ReportContest) : Prop where
  intro ::
  shown : ∃ c ∈ m.contests, c.objectId = pc.objectId ∧ r.name = c.name ∧ ∃ regular written : List PTSelection,
    (regular ++ written).Perm (pc.selections.map (·.2)) ∧ regular.Sublist (pc.selections.map (·.2)) ∧ (∀ s ∈ regular, ¬ m.WriteIn c s.objectId) ∧
    (∀ s ∈ written, m.WriteIn c s.objectId) ∧
    List.Forall₂ (m.ReportsSelection c r.nonWriteInTotal) regular r.selections ∧
    r.nonWriteInTotal = (regular.map (fun s => s.tally)).sum ∧
    r.writeInTotal = if written = [] then none else some (written.map (fun s => s.tally)).sum

end EG
