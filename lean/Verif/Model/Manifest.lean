import Verif.Model.Hash
import Verif.Model.ObjectBase

/-!
# manifest.py

Texts, contact information and so on are modelled in full.  Simplifications: a date is the text
`to_iso_date_string` makes of it; `ElectionType` and `ReportingUnitType` values are their names; a contest
has one optional list `primaryPartyIds`, which is `none` unless it is a `CandidateContestDescription`
(manifest.py:494-504) with such a list.
-/

namespace EG

/-- An optional string as a hash argument. -/
def HArg.ofOptStr : Option String → HArg
  | some s => .str s
  | Option.none => .none

/-- An optional int as a hash argument. -/
def HArg.ofOptInt : Option Int → HArg
  | some s => .int s
  | Option.none => .none

/-- An optional hashable object, given by its `crypto_hash()`, as a hash argument. -/
def HArg.ofOptObj : Option Nat → HArg
  | some h => .obj h
  | Option.none => .none

/-- An optional list as a hash argument. -/
def HArg.ofOptList : Option (List HArg) → HArg
  | some l => .list l
  | Option.none => .none

/-- manifest.py:100-124 `AnnotatedString`. -/
structure AnnotatedString where
  annotation : String
  value : String
  deriving DecidableEq, Repr

/-- manifest.py:119-124. -/
def AnnotatedString.hashArgs (a : AnnotatedString) : List HArg :=
  [.str a.annotation, .str a.value]

/-- See `AnnotatedString.hashArgs`. -/
def AnnotatedString.cryptoHash (E : Env) (a : AnnotatedString) : Nat := hashElems E (a.hashArgs)

/-- manifest.py:129-153 `Language`. -/
structure Language where
  value : String
  language : String
  deriving DecidableEq, Repr

/-- manifest.py:148-153. -/
def Language.hashArgs (a : Language) : List HArg :=
  [.str a.value, .str a.language]

/-- See `Language.hashArgs`. -/
def Language.cryptoHash (E : Env) (a : Language) : Nat := hashElems E (a.hashArgs)

/-- manifest.py:158-179 `InternationalizedText`. -/
structure InternationalizedText where
  text : List Language
  deriving DecidableEq, Repr

/-- manifest.py:174-179: the list is one argument. -/
def InternationalizedText.hashArgs (E : Env) (a : InternationalizedText) : List HArg :=
  [.list (a.text.map (fun l => .obj (l.cryptoHash E)))]

/-- See `InternationalizedText.hashArgs`. -/
def InternationalizedText.cryptoHash (E : Env) (a : InternationalizedText) : Nat := hashElems E (a.hashArgs E)

/-- manifest.py:184-214 `ContactInformation`. -/
structure ContactInformation where
  addressLine : Option (List String)
  email : Option (List AnnotatedString)
  phone : Option (List AnnotatedString)
  name : Option String
  deriving DecidableEq, Repr

/-- manifest.py:209-214. -/
def ContactInformation.hashArgs (E : Env) (c : ContactInformation) : List HArg :=
  [.ofOptStr c.name, .ofOptList (c.addressLine.map (·.map .str)),
    .ofOptList (c.email.map (·.map (fun a => .obj (a.cryptoHash E)))),
    .ofOptList (c.phone.map (·.map (fun a => .obj (a.cryptoHash E))))]

/-- See `ContactInformation.hashArgs`. -/
def ContactInformation.cryptoHash (E : Env) (c : ContactInformation) : Nat := hashElems E (c.hashArgs E)

/-- manifest.py:218-236 `GeopoliticalUnit`. -/
structure GeopoliticalUnit where
  objectId : String
  name : String
  type : String
  contactInformation : Option ContactInformation
  deriving DecidableEq, Repr

/-- manifest.py:229-236. -/
def GeopoliticalUnit.hashArgs (E : Env) (u : GeopoliticalUnit) : List HArg :=
  [.str u.objectId, .str u.name, .str u.type,
    .ofOptObj (u.contactInformation.map (·.cryptoHash E))]

/-- See `GeopoliticalUnit.hashArgs`. -/
def GeopoliticalUnit.cryptoHash (E : Env) (u : GeopoliticalUnit) : Nat := hashElems E (u.hashArgs E)

/-- manifest.py:240-256 `BallotStyle`. -/
structure BallotStyle where
  objectId : String
  geopoliticalUnitIds : Option (List String)
  partyIds : Option (List String)
  imageUri : Option String
  deriving DecidableEq, Repr

/-- manifest.py:249-256. -/
def BallotStyle.hashArgs (s : BallotStyle) : List HArg :=
  [.str s.objectId, .ofOptList (s.geopoliticalUnitIds.map (·.map .str)),
    .ofOptList (s.partyIds.map (·.map .str)), .ofOptStr s.imageUri]

/-- See `BallotStyle.hashArgs`. -/
def BallotStyle.cryptoHash (E : Env) (s : BallotStyle) : Nat := hashElems E (s.hashArgs)

/-- manifest.py:260-288 `Party`. -/
structure Party where
  objectId : String
  name : InternationalizedText
  abbreviation : Option String
  color : Option String
  logoUri : Option String
  deriving DecidableEq, Repr

/-- manifest.py:277-288. -/
def Party.hashArgs (E : Env) (p : Party) : List HArg :=
  [.str p.objectId, .obj (p.name.cryptoHash E), .ofOptStr p.abbreviation, .ofOptStr p.color,
    .ofOptStr p.logoUri]

/-- See `Party.hashArgs`. -/
def Party.cryptoHash (E : Env) (p : Party) : Nat := hashElems E (p.hashArgs E)

/-- manifest.py:292-319 `Candidate`. -/
structure Candidate where
  objectId : String
  name : InternationalizedText
  partyId : Option String
  imageUri : Option String
  isWriteIn : Option Bool
  deriving DecidableEq, Repr

/-- manifest.py:314-319. -/
def Candidate.cryptoHash (E : Env) (c : Candidate) : Nat :=
  hashElems E [.str c.objectId, .obj (c.name.cryptoHash E), .ofOptStr c.partyId, .ofOptStr c.imageUri]

/-- manifest.py:322-344 `SelectionDescription`. -/
structure SelectionDescription where
  objectId : String
  sequenceOrder : Int
  candidateId : String
  deriving DecidableEq, Repr

/-- manifest.py:339-344. -/
def SelectionDescription.hashArgs (s : SelectionDescription) : List HArg :=
  [.str s.objectId, .int s.sequenceOrder, .str s.candidateId]

/-- See `SelectionDescription.hashArgs`. -/
def SelectionDescription.cryptoHash (E : Env) (s : SelectionDescription) : Nat := hashElems E (s.hashArgs)

/-- manifest.py:69-86 `VoteVariationType`. -/
inductive VoteVariation
  | one_of_m | approval | borda | cumulative | majority | n_of_m | plurality | proportional | range | rcv
  | super_majority | other
  deriving DecidableEq, Repr

/-- The `name` attribute of the enum member. -/
def VoteVariation.name : VoteVariation → String
  | .one_of_m => "one_of_m"
  | .approval => "approval"
  | .borda => "borda"
  | .cumulative => "cumulative"
  | .majority => "majority"
  | .n_of_m => "n_of_m"
  | .plurality => "plurality"
  | .proportional => "proportional"
  | .range => "range"
  | .rcv => "rcv"
  | .super_majority => "super_majority"
  | .other => "other"

/-- manifest.py:89-96 `SUPPORTED_VOTE_VARIATIONS`. -/
def supportedVoteVariations : List VoteVariation :=
  [.one_of_m, .approval, .majority, .n_of_m, .plurality, .super_majority]

/-- manifest.py:348-385 `ContestDescription`. -/
structure ContestDescription where
  objectId : String
  sequenceOrder : Int
  electoralDistrictId : String
  voteVariation : VoteVariation
  numberElected : Int
  votesAllowed : Option Int
  name : String
  ballotSelections : List SelectionDescription
  ballotTitle : Option InternationalizedText
  ballotSubtitle : Option InternationalizedText
  primaryPartyIds : Option (List String)
  deriving DecidableEq, Repr

/-- manifest.py:400-420 `ContestDescription.crypto_hash`; placeholders are not hashed. -/
def ContestDescription.hashArgs (E : Env) (c : ContestDescription) : List HArg :=
  [.str c.objectId, .int c.sequenceOrder, .str c.electoralDistrictId, .str c.voteVariation.name,
    .ofOptObj (c.ballotTitle.map (·.cryptoHash E)), .ofOptObj (c.ballotSubtitle.map (·.cryptoHash E)),
    .str c.name, .int c.numberElected, .ofOptInt c.votesAllowed,
    .list (c.ballotSelections.map (fun s => .obj (s.cryptoHash E)))]

/-- See `ContestDescription.hashArgs`. -/
def ContestDescription.cryptoHash (E : Env) (c : ContestDescription) : Nat := hashElems E (c.hashArgs E)

/-- manifest.py:422-491 `ContestDescription.is_valid`. -/
def ContestDescription.isValid (c : ContestDescription) : Bool :=
  let validNumberElected := decide (c.numberElected ≤ (c.ballotSelections.length : Int))
  let validVotesAllowed := match c.votesAllowed with
    | none => true
    | some v => decide (c.numberElected ≤ v)
  let candidateIds := pySetOf (c.ballotSelections.map (·.candidateId))
  let selectionIds := pySetOf (c.ballotSelections.map (·.objectId))
  let sequenceIds := pySetOf (c.ballotSelections.map (·.sequenceOrder))
  let expected := c.ballotSelections.length
  validNumberElected && validVotesAllowed && candidateIds.length == expected
    && selectionIds.length == expected && sequenceIds.length == expected
    && decide (c.voteVariation ∈ supportedVoteVariations)

/-- manifest.py:517-527 `ContestDescriptionWithPlaceholders`. -/
structure ContestWithPlaceholders extends ContestDescription where
  placeholders : List SelectionDescription
  deriving DecidableEq, Repr

/-- manifest.py:529-538 `ContestDescriptionWithPlaceholders.is_valid`. -/
def ContestWithPlaceholders.isValid (c : ContestWithPlaceholders) : Bool :=
  c.toContestDescription.isValid && decide ((c.placeholders.length : Int) = c.numberElected)

/-- manifest.py:540-545 `is_placeholder`. -/
def ContestWithPlaceholders.isPlaceholder (c : ContestWithPlaceholders) (s : SelectionDescription) : Bool :=
  decide (s ∈ c.placeholders)

/-- manifest.py:547-566 `selection_for`. -/
def ContestWithPlaceholders.selectionFor (c : ContestWithPlaceholders) (id : String) :
    Option SelectionDescription :=
  match c.ballotSelections.filter (fun i => i.objectId == id) with
  | s :: _ => some s
  | [] =>
    match c.placeholders.filter (fun i => i.objectId == id) with
    | s :: _ => some s
    | [] => none

/-- manifest.py:577-605 `Manifest`. -/
structure Manifest where
  electionScopeId : String
  specVersion : String
  type : String
  startDate : String
  endDate : String
  geopoliticalUnits : List GeopoliticalUnit
  parties : List Party
  candidates : List Candidate
  contests : List ContestDescription
  ballotStyles : List BallotStyle
  name : Option InternationalizedText
  contactInformation : Option ContactInformation
  deriving DecidableEq, Repr

/-- manifest.py:651-667 `Manifest.crypto_hash`. -/
def Manifest.hashArgs (E : Env) (m : Manifest) : List HArg :=
  [.str m.electionScopeId, .str m.type, .str m.startDate, .str m.endDate,
    .ofOptObj (m.name.map (·.cryptoHash E)), .ofOptObj (m.contactInformation.map (·.cryptoHash E)),
    .list (m.geopoliticalUnits.map (fun x => .obj (x.cryptoHash E))),
    .list (m.parties.map (fun x => .obj (x.cryptoHash E))),
    .list (m.contests.map (fun x => .obj (x.cryptoHash E))),
    .list (m.ballotStyles.map (fun x => .obj (x.cryptoHash E)))]

/-- See `Manifest.hashArgs`. -/
def Manifest.cryptoHash (E : Env) (m : Manifest) : Nat := hashElems E (m.hashArgs E)

/-- manifest.py:689-702: the loop over the ballot styles.  Returns the set of ids seen so far and the flag; a
style without geopolitical units stops the loop. -/
def ballotStyleLoop (gpUnitIds : List String) : List BallotStyle → List String → Bool → List String × Bool
  | [], ids, ok => (ids, ok)
  | s :: rest, ids, ok =>
    let ids' := if s.objectId ∈ ids then ids else ids ++ [s.objectId]
    match s.geopoliticalUnitIds with
    | none => (ids', false)
    | some us => ballotStyleLoop gpUnitIds rest ids' (us.foldl (fun ok u => ok && decide (u ∈ gpUnitIds)) ok)

/-- manifest.py:669-809 `Manifest.is_valid`. -/
def Manifest.isValid (m : Manifest) : Bool :=
  let gpUnitIds := pySetOf (m.geopoliticalUnits.map (·.objectId))
  let geopoliticalUnitsValid := gpUnitIds.length == m.geopoliticalUnits.length
  let styles := ballotStyleLoop gpUnitIds m.ballotStyles [] true
  let ballotStylesValid := styles.1.length == m.ballotStyles.length && styles.2
  let partyIds := pySetOf (m.parties.map (·.objectId))
  let partiesValid := partyIds.length == m.parties.length
  let candidateIds := pySetOf (m.candidates.map (·.objectId))
  let candidatesHaveValidPartyIds := m.candidates.foldl (fun ok c => ok && (match c.partyId with
    | none => true
    | some p => decide (p ∈ partyIds))) true
  let candidatesValid := candidateIds.length == m.candidates.length && candidatesHaveValidPartyIds
  let contestIds := pySetOf (m.contests.map (·.objectId))
  let sequenceIds := pySetOf (m.contests.map (·.sequenceOrder))
  let contestsValidate := m.contests.foldl (fun ok c => ok && c.isValid) true
  let contestsHaveDistrict := m.contests.foldl (fun ok c => ok && decide (c.electoralDistrictId ∈ gpUnitIds)) true
  let contestsHaveParties := m.contests.foldl (fun ok c => match c.primaryPartyIds with
    | none => ok
    | some ps => ps.foldl (fun ok p => ok && decide (p ∈ partyIds)) ok) true
  let contestsValid := contestIds.length == m.contests.length && sequenceIds.length == m.contests.length
    && contestsValidate && contestsHaveDistrict && contestsHaveParties
  geopoliticalUnitsValid && ballotStylesValid && partiesValid && candidatesValid && contestsValid

/-- The decimal text of an int, as a Python f-string prints it. -/
def decStr (i : Int) : String := String.ofList (decInt i)

/-- manifest.py:977-1001 `generate_placeholder_selection_from` with a given sequence id. -/
def generatePlaceholder (c : ContestDescription) (seq : Int) : Option SelectionDescription :=
  if seq ∈ c.ballotSelections.map (·.sequenceOrder) then none
  else
    let oid := c.objectId ++ "-" ++ decStr seq
    some ⟨oid ++ "-placeholder", seq, oid ++ "-candidate"⟩

/-- Python `max(l)` of a list of ints: `ValueError` for the empty list. -/
def pyMax : List Int → R Int
  | [] => .error .value
  | x :: xs => .ok (xs.foldl max x)

/-- manifest.py:1004-1024 `generate_placeholder_selections_from`.  `range(count)` is empty for a negative
count. -/
def generatePlaceholders (c : ContestDescription) (count : Int) : R (List SelectionDescription) := do
  let m ← pyMax (c.ballotSelections.map (·.sequenceOrder))
  (List.range count.toNat).mapM (fun i : Nat => getOptional (generatePlaceholder c (m + 1 + (i : Int))))

/-- manifest.py:953-974 `contest_description_with_placeholders_from`. -/
def contestWithPlaceholdersFrom (c : ContestDescription) (ps : List SelectionDescription) :
    ContestWithPlaceholders := { c with primaryPartyIds := none, placeholders := ps }

/-- manifest.py:863-886 `InternalManifest`. -/
structure InternalManifest where
  geopoliticalUnits : List GeopoliticalUnit
  contests : List ContestWithPlaceholders
  ballotStyles : List BallotStyle
  manifestHash : Nat
  deriving DecidableEq, Repr

/-- manifest.py:932-950 `_generate_contests_with_placeholders`. -/
def generateContestsWithPlaceholders (m : Manifest) : R (List ContestWithPlaceholders) :=
  m.contests.mapM (fun c => do
    let ps ← generatePlaceholders c c.numberElected
    return contestWithPlaceholdersFrom c ps)

/-- manifest.py:880-886 `InternalManifest.__post_init__`. -/
def mkInternalManifest (E : Env) (m : Manifest) : R InternalManifest := do
  let cs ← generateContestsWithPlaceholders m
  return ⟨m.geopoliticalUnits, cs, m.ballotStyles, m.cryptoHash E⟩

/-- manifest.py:888-902 `contest_for`. -/
def InternalManifest.contestFor (m : InternalManifest) (id : String) : Option ContestWithPlaceholders :=
  match m.contests.filter (fun i => i.objectId == id) with
  | c :: _ => some c
  | [] => none

/-- manifest.py:904-911 `get_ballot_style`: `IndexError` if there is none. -/
def InternalManifest.getBallotStyle (m : InternalManifest) (id : String) : R BallotStyle :=
  match m.ballotStyles.filter (fun i => i.objectId == id) with
  | s :: _ => .ok s
  | [] => .error .index

/-- manifest.py:913-930 `get_contests_for`. -/
def InternalManifest.getContestsFor (m : InternalManifest) (styleId : String) :
    R (List ContestWithPlaceholders) := do
  let style ← m.getBallotStyle styleId
  match style.geopoliticalUnitIds with
  | none => return []
  | some us => return m.contests.filter (fun c => decide (c.electoralDistrictId ∈ us))

end EG
