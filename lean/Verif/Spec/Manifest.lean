import Verif.Model.Manifest
import Verif.Spec.Hash

/-!
# Specification of well-formed manifests
-/

namespace EG

/-- A contest description is well formed: enough selections for the seats, at least as many votes as seats,
distinct candidates, ids and sequence orders, and a supported way of voting. -/
structure ContestOk (c : ContestDescription) : Prop where
  seats : c.numberElected ≤ (c.ballotSelections.length : Int)
  votes : ∀ v, c.votesAllowed = some v → c.numberElected ≤ v
  candidates : (c.ballotSelections.map SelectionDescription.candidateId).Nodup
  ids : (c.ballotSelections.map SelectionDescription.objectId).Nodup
  orders : (c.ballotSelections.map SelectionDescription.sequenceOrder).Nodup
  variation : c.voteVariation ∈ [VoteVariation.one_of_m, .approval, .majority, .n_of_m, .plurality, .super_majority]

/-- The id belongs to one of the manifest's geopolitical units. -/
def Manifest.HasUnit (m : Manifest) (id : String) : Prop := ∃ u ∈ m.geopoliticalUnits, u.objectId = id

/-- The id belongs to one of the manifest's parties. -/
def Manifest.HasParty (m : Manifest) (id : String) : Prop := ∃ u ∈ m.parties, u.objectId = id

/-- What the manifest check establishes: ids and contest orders are unique, every ballot style lists its
geopolitical units and they exist, every contest is well formed and its district exists, and the parties of
candidates and primaries exist. -/
structure ManifestOk (m : Manifest) : Prop where
  unitIds : (m.geopoliticalUnits.map GeopoliticalUnit.objectId).Nodup
  styleIds : (m.ballotStyles.map BallotStyle.objectId).Nodup
  partyIds : (m.parties.map Party.objectId).Nodup
  candidateIds : (m.candidates.map Candidate.objectId).Nodup
  contestIds : (m.contests.map ContestDescription.objectId).Nodup
  contestOrders : (m.contests.map ContestDescription.sequenceOrder).Nodup
  styleUnits : ∀ s ∈ m.ballotStyles, ∃ us, s.geopoliticalUnitIds = some us ∧ ∀ u ∈ us, m.HasUnit u
  candidateParty : ∀ c ∈ m.candidates, ∀ p, c.partyId = some p → m.HasParty p
  contests : ∀ c ∈ m.contests, ContestOk c
  district : ∀ c ∈ m.contests, m.HasUnit c.electoralDistrictId
  primaryParty : ∀ c ∈ m.contests, ∀ ps, c.primaryPartyIds = some ps → ∀ p ∈ ps, m.HasParty p

/-- A manifest ready for an election: valid, with selections and a non-negative number of seats in every contest,
the contests in sequence order, and no selection with the id of a placeholder of its contest. -/
structure ManifestReady (m : Manifest) : Prop where
  ok : ManifestOk m
  nonempty : ∀ c ∈ m.contests, c.ballotSelections ≠ []
  seats : ∀ c ∈ m.contests, 0 ≤ c.numberElected
  sorted : m.contests.Pairwise (fun c d => c.sequenceOrder ≤ d.sequenceOrder)
  fresh : ∀ c ∈ m.contests, ∀ s ∈ c.ballotSelections, ∀ i : Int,
    s.objectId ≠ c.objectId ++ "-" ++ decStr i ++ "-placeholder"

/-- The ids of the contests differ, and within each contest those of the selections and placeholders. -/
def InternalManifest.UniqueIds (m : InternalManifest) : Prop :=
  (m.contests.map (fun d => d.objectId)).Nodup ∧
  ∀ d ∈ m.contests, ((d.ballotSelections ++ d.placeholders).map SelectionDescription.objectId).Nodup

/-- A text the hash encoding does not confuse with others: it neither contains the separator nor is the word that
stands for a missing value. -/
def Plain (s : String) : Prop := '|' ∉ s.toList ∧ s ≠ "null"

instance (s : String) : Decidable (Plain s) := inferInstanceAs (Decidable (_ ∧ _))

/-- All texts of the manifest that are hashed are plain. -/
def AnnotatedString.Plain (a : AnnotatedString) : Prop := EG.Plain a.annotation ∧ EG.Plain a.value

/-- See `AnnotatedString.Plain`. -/
def Language.Plain (a : Language) : Prop := EG.Plain a.value ∧ EG.Plain a.language

/-- See `AnnotatedString.Plain`. -/
def InternationalizedText.Plain (a : InternationalizedText) : Prop := ∀ l ∈ a.text, l.Plain

/-- See `AnnotatedString.Plain`. -/
structure ContactInformation.Plain (c : ContactInformation) : Prop where
  name : ∀ s ∈ c.name, EG.Plain s
  addressLine : ∀ l ∈ c.addressLine, ∀ s ∈ l, EG.Plain s
  email : ∀ l ∈ c.email, ∀ a ∈ l, a.Plain
  phone : ∀ l ∈ c.phone, ∀ a ∈ l, a.Plain

/-- See `AnnotatedString.Plain`. -/
structure GeopoliticalUnit.Plain (u : GeopoliticalUnit) : Prop where
  objectId : EG.Plain u.objectId
  name : EG.Plain u.name
  type : EG.Plain u.type
  contact : ∀ c ∈ u.contactInformation, c.Plain

/-- See `AnnotatedString.Plain`. -/
structure BallotStyle.Plain (s : BallotStyle) : Prop where
  objectId : EG.Plain s.objectId
  units : ∀ l ∈ s.geopoliticalUnitIds, ∀ s ∈ l, EG.Plain s
  parties : ∀ l ∈ s.partyIds, ∀ s ∈ l, EG.Plain s
  imageUri : ∀ i ∈ s.imageUri, EG.Plain i

/-- See `AnnotatedString.Plain`. -/
structure Party.Plain (p : Party) : Prop where
  objectId : EG.Plain p.objectId
  name : p.name.Plain
  abbreviation : ∀ s ∈ p.abbreviation, EG.Plain s
  color : ∀ s ∈ p.color, EG.Plain s
  logoUri : ∀ s ∈ p.logoUri, EG.Plain s

/-- See `AnnotatedString.Plain`. -/
def SelectionDescription.Plain (s : SelectionDescription) : Prop := EG.Plain s.objectId ∧ EG.Plain s.candidateId

/-- See `AnnotatedString.Plain`. -/
structure ContestDescription.Plain (c : ContestDescription) : Prop where
  objectId : EG.Plain c.objectId
  district : EG.Plain c.electoralDistrictId
  name : EG.Plain c.name
  title : ∀ t ∈ c.ballotTitle, t.Plain
  subtitle : ∀ t ∈ c.ballotSubtitle, t.Plain
  selections : ∀ s ∈ c.ballotSelections, s.Plain

/-- See `AnnotatedString.Plain`. -/
structure Manifest.Plain (m : Manifest) : Prop where
  scope : EG.Plain m.electionScopeId
  type : EG.Plain m.type
  startDate : EG.Plain m.startDate
  endDate : EG.Plain m.endDate
  name : ∀ t ∈ m.name, t.Plain
  contact : ∀ c ∈ m.contactInformation, c.Plain
  units : ∀ u ∈ m.geopoliticalUnits, u.Plain
  parties : ∀ u ∈ m.parties, u.Plain
  contests : ∀ u ∈ m.contests, u.Plain
  styles : ∀ u ∈ m.ballotStyles, u.Plain

/-- An empty optional list and a missing one are identified. -/
def normList {α : Type} : Option (List α) → Option (List α)
  | some [] => none
  | l => l

/-- The content up to the difference between empty and missing lists. -/
def ContactInformation.core (c : ContactInformation) : ContactInformation :=
  { c with addressLine := normList c.addressLine, email := normList c.email, phone := normList c.phone }

/-- See `ContactInformation.core`. -/
def GeopoliticalUnit.core (u : GeopoliticalUnit) : GeopoliticalUnit :=
  { u with contactInformation := u.contactInformation.map ContactInformation.core }

/-- See `ContactInformation.core`. -/
def BallotStyle.core (s : BallotStyle) : BallotStyle :=
  { s with geopoliticalUnitIds := normList s.geopoliticalUnitIds, partyIds := normList s.partyIds }

/-- The part of a contest that the hash covers: all but the primary party ids. -/
def ContestDescription.core (c : ContestDescription) : ContestDescription := { c with primaryPartyIds := none }

/-- The part of a manifest that the hash covers: all but the specification version, the candidates and the primary
party ids, and up to the difference between empty and missing lists. -/
def Manifest.core (m : Manifest) : Manifest :=
  { m with
    specVersion := ""
    candidates := []
    contactInformation := m.contactInformation.map ContactInformation.core
    geopoliticalUnits := m.geopoliticalUnits.map GeopoliticalUnit.core
    ballotStyles := m.ballotStyles.map BallotStyle.core
    contests := m.contests.map ContestDescription.core }

/-- The texts given to the hash function by `crypto_hash`, those of the parts included. -/
def AnnotatedString.texts (E : Env) (a : AnnotatedString) : List (List Char) := hashTexts E a.hashArgs

/-- See `AnnotatedString.texts`. -/
def Language.texts (E : Env) (a : Language) : List (List Char) := hashTexts E a.hashArgs

/-- See `AnnotatedString.texts`. -/
def InternationalizedText.texts (E : Env) (a : InternationalizedText) : List (List Char) :=
  hashTexts E (a.hashArgs E) ++ a.text.flatMap (·.texts E)

/-- See `AnnotatedString.texts`. -/
def ContactInformation.texts (E : Env) (c : ContactInformation) : List (List Char) :=
  hashTexts E (c.hashArgs E) ++ (c.email.getD []).flatMap (·.texts E) ++ (c.phone.getD []).flatMap (·.texts E)

/-- See `AnnotatedString.texts`. -/
def GeopoliticalUnit.texts (E : Env) (u : GeopoliticalUnit) : List (List Char) :=
  hashTexts E (u.hashArgs E) ++ u.contactInformation.toList.flatMap (·.texts E)

/-- See `AnnotatedString.texts`. -/
def BallotStyle.texts (E : Env) (s : BallotStyle) : List (List Char) := hashTexts E s.hashArgs

/-- See `AnnotatedString.texts`. -/
def Party.texts (E : Env) (p : Party) : List (List Char) := hashTexts E (p.hashArgs E) ++ p.name.texts E

/-- See `AnnotatedString.texts`. -/
def SelectionDescription.texts (E : Env) (s : SelectionDescription) : List (List Char) := hashTexts E s.hashArgs

/-- See `AnnotatedString.texts`. -/
def ContestDescription.texts (E : Env) (c : ContestDescription) : List (List Char) :=
  hashTexts E (c.hashArgs E) ++ c.ballotTitle.toList.flatMap (·.texts E)
    ++ c.ballotSubtitle.toList.flatMap (·.texts E) ++ c.ballotSelections.flatMap (·.texts E)

/-- See `AnnotatedString.texts`. -/
def Manifest.texts (E : Env) (m : Manifest) : List (List Char) :=
  hashTexts E (m.hashArgs E) ++ m.name.toList.flatMap (·.texts E)
    ++ m.contactInformation.toList.flatMap (·.texts E) ++ m.geopoliticalUnits.flatMap (·.texts E)
    ++ m.parties.flatMap (·.texts E) ++ m.contests.flatMap (·.texts E) ++ m.ballotStyles.flatMap (·.texts E)

end EG
