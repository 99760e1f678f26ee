import Verif.Model.Export

/-!
# The values of the classes that serialize.py writes

What the types of the Python fields say and the naturals and lists of the model do not: an `ElementModP` is below p, an `ElementModQ`
below q, a dict has each key once, and an enum has one of its values.
-/

namespace EG

/-- The keys of a dict are distinct. -/
def Keys {α : Type} (d : List (String × α)) : Prop := (d.map (·.1)).Nodup

/-- Elements of a ciphertext. -/
def Ciphertext.Typed (P : Params) (c : Ciphertext) : Prop := c.pad < P.p ∧ c.data < P.p

/-- Elements of a hashed ciphertext. -/
def HashedCiphertext.Typed (P : Params) (c : HashedCiphertext) : Prop := c.pad < P.p

/-- Elements of a disjunctive proof. -/
def DisjProof.Typed (P : Params) (p : DisjProof) : Prop :=
  (p.a0 < P.p ∧ p.b0 < P.p ∧ p.a1 < P.p ∧ p.b1 < P.p) ∧ p.c0 < P.q ∧ p.c1 < P.q ∧ p.c < P.q ∧ p.v0 < P.q ∧ p.v1 < P.q

/-- Elements of a proof. -/
def CPProof.Typed (P : Params) (p : CPProof) : Prop := p.a < P.p ∧ p.b < P.p ∧ p.c < P.q ∧ p.v < P.q

/-- Elements of a constant proof. -/
def ConstProof.Typed (P : Params) (p : ConstProof) : Prop := p.a < P.p ∧ p.b < P.p ∧ p.c < P.q ∧ p.v < P.q

/-- Elements of a Schnorr proof. -/
def SchnorrProof.Typed (P : Params) (p : SchnorrProof) : Prop := p.k < P.p ∧ p.h < P.p ∧ p.c < P.q ∧ p.u < P.q

/-- Elements of an encrypted selection. -/
def CSelection.Typed (P : Params) (s : CSelection) : Prop :=
  s.descriptionHash < P.q ∧ s.ciphertext.Typed P ∧ s.cryptoHash < P.q ∧ (∀ n ∈ s.nonce, n < P.q) ∧ ∀ p ∈ s.proof, p.Typed P

/-- Elements of an encrypted contest. -/
def CContest.Typed (P : Params) (c : CContest) : Prop :=
  c.descriptionHash < P.q ∧ (∀ s ∈ c.ballotSelections, s.Typed P) ∧ c.ciphertextAccumulation.Typed P ∧ c.cryptoHash < P.q ∧
    (∀ n ∈ c.nonce, n < P.q) ∧ (∀ p ∈ c.proof, p.Typed P) ∧ ∀ d ∈ c.extendedData, d.Typed P

/-- Elements of an encrypted ballot. -/
def CBallot.Typed (P : Params) (b : CBallot) : Prop :=
  b.manifestHash < P.q ∧ b.codeSeed < P.q ∧ (∀ c ∈ b.contests, c.Typed P) ∧ b.code < P.q ∧ b.cryptoHash < P.q ∧ ∀ n ∈ b.nonce, n < P.q

/-- The dict of write-ins. -/
def ContestData.Typed (d : ContestData) : Prop := ∀ w ∈ d.writeIns, Keys w

/-- Elements of a key pair. -/
def KeyPair.Typed (P : Params) (k : KeyPair) : Prop := k.secret < P.q ∧ k.pub < P.p

/-- Elements of a coefficient. -/
def Coefficient.Typed (P : Params) (c : Coefficient) : Prop := c.value < P.q ∧ c.commitment < P.p ∧ c.proof.Typed P

/-- Elements of a public key. -/
def ElectionPublicKey.Typed (P : Params) (k : ElectionPublicKey) : Prop :=
  k.key < P.p ∧ (∀ c ∈ k.commitments, c < P.p) ∧ ∀ p ∈ k.proofs, p.Typed P

/-- Elements of the keys of a guardian. -/
def ElectionKeyPair.Typed (P : Params) (k : ElectionKeyPair) : Prop := k.keyPair.Typed P ∧ ∀ c ∈ k.polynomial, c.Typed P

/-- Elements of a joint key. -/
def ElectionJointKey.Typed (P : Params) (k : ElectionJointKey) : Prop := k.jointPublicKey < P.p ∧ k.commitmentHash < P.q

/-- Elements of a backup. -/
def Backup.Typed (P : Params) (b : Backup) : Prop := b.encrypted.Typed P

/-- Elements of a guardian record. -/
def GuardianRecord.Typed (P : Params) (g : GuardianRecord) : Prop :=
  g.publicKey < P.p ∧ (∀ c ∈ g.commitments, c < P.p) ∧ ∀ p ∈ g.proofs, p.Typed P

/-- Elements and dicts of the private record of a guardian. -/
def PrivateGuardianRecord.Typed (P : Params) (r : PrivateGuardianRecord) : Prop :=
  r.electionKeys.Typed P ∧ (Keys r.backupsToShare ∧ ∀ e ∈ r.backupsToShare, e.2.Typed P) ∧
    (Keys r.guardianKeys ∧ ∀ e ∈ r.guardianKeys, e.2.Typed P) ∧ (Keys r.guardianBackups ∧ ∀ e ∈ r.guardianBackups, e.2.Typed P) ∧
    Keys r.guardianVerifications

/-- Elements of a context. -/
def Context.Typed (P : Params) (c : Context) : Prop :=
  c.elgamalPublicKey < P.p ∧ c.commitmentHash < P.q ∧ c.manifestHash < P.q ∧ c.cryptoBaseHash < P.q ∧ c.cryptoExtendedBaseHash < P.q

/-- Elements of an encrypted tally. -/
def TallySelection.Typed (P : Params) (s : TallySelection) : Prop := s.descriptionHash < P.q ∧ s.ciphertext.Typed P

/-- Elements and dicts of an encrypted tally. -/
def TallyContest.Typed (P : Params) (c : TallyContest) : Prop :=
  c.descriptionHash < P.q ∧ Keys c.selections ∧ ∀ e ∈ c.selections, e.2.Typed P

/-- Elements and dicts of an encrypted tally. -/
def PublishedTally.Typed (P : Params) (t : PublishedTally) : Prop := Keys t.contests ∧ ∀ e ∈ t.contests, e.2.Typed P

/-- Elements of a compensated share. -/
def CompSelection.Typed (P : Params) (s : CompSelection) : Prop := s.share < P.p ∧ s.recoveryKey < P.p ∧ s.proof.Typed P

/-- Elements and dicts of a share. -/
def DecSelection.Typed (P : Params) (s : DecSelection) : Prop :=
  s.share < P.p ∧ (∀ p ∈ s.proof, p.Typed P) ∧ ∀ d ∈ s.recovered, Keys d ∧ ∀ e ∈ d, e.2.Typed P

/-- Elements of a tally. -/
def PTSelection.Typed (P : Params) (s : PTSelection) : Prop := s.value < P.p ∧ s.message.Typed P ∧ ∀ d ∈ s.shares, d.Typed P

/-- Elements and dicts of a tally. -/
def PTContest.Typed (P : Params) (c : PTContest) : Prop := Keys c.selections ∧ ∀ e ∈ c.selections, e.2.Typed P

/-- Elements and dicts of a tally. -/
def PlaintextTally.Typed (P : Params) (t : PlaintextTally) : Prop := Keys t.contests ∧ ∀ e ∈ t.contests, e.2.Typed P

/-- The enums of a manifest (manifest.py:13-66, 569-573). -/
def Manifest.Typed (m : Manifest) : Prop :=
  m.specVersion ∈ ["v0.95", "1.0"] ∧
  m.type ∈ ["unknown", "general", "partisan_primary_closed", "partisan_primary_open", "primary", "runoff", "special", "other"] ∧
  ∀ u ∈ m.geopoliticalUnits, u.type ∈ ["unknown", "ballot_batch", "ballot_style_area", "borough", "city", "city_council",
    "combined_precinct", "congressional", "country", "county", "county_council", "drop_box", "judicial", "municipality", "polling_place",
    "precinct", "school", "special", "split_precinct", "state", "state_house", "state_senate", "township", "utility", "village",
    "vote_center", "ward", "water", "other"]

end EG
