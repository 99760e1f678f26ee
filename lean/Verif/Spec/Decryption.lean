import Verif.Model.DecryptionMediator
import Verif.Spec.ElGamal
import Verif.Spec.Polynomial
import Mathlib.Data.ZMod.Basic

/-!
# Vocabulary for decryption
-/

namespace EG

/-- All encrypted selections of some contests. -/
def ctSelections (cs : List CtContest) : List CtSelection := cs.flatMap (fun c => c.selections)

/-- All selections of a decryption share. -/
def DecShare.allSelections (sh : DecShare) : List DecSelection :=
  sh.contests.flatMap (fun e => e.2.selections.map (·.2))

/-- The share is the right one for a guardian with secret key `secret`: for every selection, in order, it has the
partial decryption `pad ^ secret` with a valid proof or valid recovered parts. -/
structure ShareFor (E : Env) (baseHash secret pub : Nat) (cs : List CtContest) (sh : DecShare) : Prop where
  key : sh.publicKey = pub
  selections : List.Forall₂ (fun (s : CtSelection) (d : DecSelection) => d.objectId = s.objectId ∧
    d.share = s.ciphertext.pad ^ secret % E.P.p ∧ d.isValid E s.ciphertext pub baseHash = true)
    (ctSelections cs) sh.allSelections

/-- Contest ids are distinct, and so are selection ids, across all contests. -/
structure DistinctIds (cs : List CtContest) : Prop where
  contests : (cs.map (fun c => c.objectId)).Nodup
  selections : ((ctSelections cs).map (fun s => s.objectId)).Nodup

/-- The plaintext tally reports the number `v` for a selection of a contest. -/
def PlaintextTally.Reports (pt : PlaintextTally) (cid sid : String) (v : Nat) : Prop :=
  ∃ pc ps, dget pt.contests cid = some pc ∧ dget pc.selections sid = some ps ∧ ps.tally = v

/-- The manifest describes a selection of a contest (by its last contest with the id). -/
def Describes (m : Manifest) (cid sid : String) : Prop :=
  ∃ d, m.contests.reverse.find? (fun c => c.objectId == cid) = some d ∧
    sid ∈ d.ballotSelections.map (fun s => s.objectId)

/-- The compensated share is the right one for coordinate `y`: for every selection it has the partial decryption
`pad ^ y` with a proof that is valid for the recovery key it names. -/
def CompFor (E : Env) (baseHash y : Nat) (cs : List CtContest) (sh : CompShare) : Prop :=
  ∀ c ∈ cs, ∃ cc, dget sh.contests c.objectId = some cc ∧ ∀ s ∈ c.selections, ∃ z,
    dget cc.selections s.objectId = some z ∧ z.objectId = s.objectId ∧
    z.share = s.ciphertext.pad ^ y % E.P.p ∧ z.proof.isValid E s.ciphertext z.recoveryKey z.share baseHash = true

/-- Encrypted contests that can be decrypted: the ids are distinct, every selection is a pair of group elements, and the
selections described in the manifest encrypt values below `q` and within the limit of the discrete logarithm. -/
structure Decryptable (P : Params) (maxE K : Nat) (m : Manifest) (cs : List CtContest) : Prop where
  ids : DistinctIds cs
  elements : ∀ s ∈ ctSelections cs, isValidResidue P s.ciphertext.pad = true ∧
    isValidResidue P s.ciphertext.data = true
  values : ∀ c ∈ cs, ∀ s ∈ c.selections, Describes m c.objectId s.objectId →
    ∃ v, v < P.q ∧ v ≤ maxE ∧ Encrypts P K v s.ciphertext

/-- The plaintext tally reports exactly the encrypted values of the described selections. -/
def PlaintextTally.Correct (pt : PlaintextTally) (P : Params) (K : Nat) (m : Manifest) (cs : List CtContest) : Prop :=
  ∀ cid sid v, pt.Reports cid sid v ↔ ∃ c ∈ cs, ∃ s ∈ c.selections, c.objectId = cid ∧ s.objectId = sid ∧
    Describes m cid sid ∧ v < P.q ∧ Encrypts P K v s.ciphertext

end EG

namespace EG

/-! ### Histories of the decryption mediator -/

/-- The keys under which guardians announced themselves, in order. -/
def announcedKeys (ops : List DMOp) : List ElectionPublicKey :=
  ops.filterMap (fun o => match o with | .announce k _ _ => some k | _ => none)

/-- The pairs (available, missing) for which a compensated tally share was received. -/
def receivedPairs (ops : List DMOp) : List (String × String) :=
  ops.filterMap (fun o => match o with | .receiveTallyComp c => some (c.guardianId, c.missingId) | _ => none)

/-- The ids of the guardians a call reports as missing. -/
def reportedMissing : DMOp → List String
  | .announceMissing k => [k.ownerId]
  | .validateMissing ks => ks.map (fun k => k.ownerId)
  | _ => []

/-- A call made on behalf of guardians of an election with keys `all` and polynomials `coef`, with right shares of the
tally; the reconstruction has not been called yet. -/
def HonestOp (E : Env) (baseHash : Nat) (t : Tally) (all : List ElectionPublicKey) (coef : String → List Nat) :
    DMOp → Prop
  | .announce k sh _ => k ∈ all ∧ sh.guardianId = k.ownerId ∧
      ShareFor E baseHash (polyAt (coef k.ownerId) 0) k.key t.toCts sh
  | .announceMissing k => k ∈ all
  | .validateMissing ks => ∀ k ∈ ks, k ∈ all
  | .receiveTallyComp c => ∃ k ∈ all, ∃ m ∈ all, c.guardianId = k.ownerId ∧ c.missingId = m.ownerId ∧
      CompFor E baseHash (polyAt (coef m.ownerId) k.sequenceOrder.toNat % E.P.q) t.toCts c
  | .receiveBallotComp _ => True
  | .reconstructTally _ => False
  | .reconstructBallots _ => True

/-- The keys of an election whose guardians share their secrets by polynomials: distinct ids, orders that are not
negative and distinct modulo `q`, keys that belong to the constant terms, and no polynomial longer than the quorum. -/
structure SharedKeys (P : Params) (quorum : Int) (all : List ElectionPublicKey) (coef : String → List Nat) : Prop where
  ids : (all.map (fun k => k.ownerId)).Nodup
  nonneg : ∀ k ∈ all, 0 ≤ k.sequenceOrder
  orders : (all.map (fun k => (k.sequenceOrder : ZMod P.q))).Nodup
  keys : ∀ k ∈ all, k.key = P.g ^ polyAt (coef k.ownerId) 0 % P.p
  lengths : ∀ k ∈ all, ((coef k.ownerId).length : Int) ≤ quorum

end EG
