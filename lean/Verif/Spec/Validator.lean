import Verif.Model.Validator

/-!
# Specification of a ballot that matches its ballot style

"The" ballot style, contest or selection with an id is the first one with this id (`List.find?`).
-/

namespace EG

/-- The contest `d` of the manifest is voted in a district of the ballot style `sid`. -/
def InternalManifest.StyleHas (m : InternalManifest) (sid : String) (d : ContestWithPlaceholders) : Prop :=
  ∃ s us, m.ballotStyles.find? (fun s => s.objectId == sid) = some s ∧ s.geopoliticalUnitIds = some us ∧
    d ∈ m.contests ∧ d.electoralDistrictId ∈ us

/-- The ballot contest `c` has the manifest's hash of `d`, as many selections as `d` has selections and
placeholders, and every selection of `d` with the manifest's hash. -/
structure CContest.Matches (E : Env) (c : CContest) (d : ContestWithPlaceholders) : Prop where
  hash : c.descriptionHash = d.cryptoHash E
  count : c.ballotSelections.length = d.ballotSelections.length + d.placeholders.length
  selections : ∀ sd ∈ d.ballotSelections, ∃ s,
    c.ballotSelections.find? (fun s => s.objectId == sd.objectId) = some s ∧ s.descriptionHash = sd.cryptoHash E

/-- Every contest of the ballot's style is on the ballot and matches the manifest. -/
def CBallot.MatchesStyle (E : Env) (b : CBallot) (m : InternalManifest) : Prop :=
  ∀ d, m.StyleHas b.styleId d → ∃ c, b.contests.find? (fun c => c.objectId == d.objectId) = some c ∧ c.Matches E d

end EG
