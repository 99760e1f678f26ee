import Verif.Model.GuiKeyCeremony
import Verif.Spec.Polynomial
import Verif.Spec.Hash

/-!
# Vocabulary for the key ceremony in the GUI
-/

namespace EG

/-- The coefficients of the polynomial of a key pair. -/
def ElectionKeyPair.coefficients (kp : ElectionKeyPair) : List Nat := kp.polynomial.map (fun c => c.value)

/-- The guardians with the key pairs `kps` hold the joint key `jk` that the document shows: they are the guardians that joined first,
numbered in the order in which they joined, their key pairs have as many coefficients as the quorum and are those in their private
files, their public keys are published, for any two of them the second one checked a backup that it can decrypt to the value of the
polynomial of the first one at its own number, and the joint key is the product of `g` to their secrets, with the hash of the
commitments of all. -/
structure KeyHolders (E : Env) (loads : Bytes → R (List Char)) (doc : KCDoc) (files : List (String × PrivateGuardianRecord))
    (jk : ElectionJointKey) (kps : List ElectionKeyPair) : Prop where
  count : (kps.length : Int) = doc.guardianCount
  ids : kps.map (fun kp => kp.ownerId) = doc.joined.take kps.length
  orders : kps.map (fun kp => kp.sequenceOrder) = (List.range kps.length).map (fun i : Nat => (i : Int) + 1)
  coefficients : ∀ kp ∈ kps, kp.coefficients.length = doc.quorum.toNat
  secret : ∀ kp ∈ kps, kp.coefficients.head? = some kp.keyPair.secret
  shares : ∀ kp ∈ kps, kp.share.key = E.P.g ^ kp.keyPair.secret % E.P.p ∧
    kp.share.commitments = kp.coefficients.map (fun a => E.P.g ^ a % E.P.p)
  files : ∀ kp ∈ kps, ∃ r, dget files kp.ownerId = some r ∧ r.electionKeys = kp
  published : ∀ kp ∈ kps, doc.findKey kp.ownerId = .ok kp.share
  backups : ∀ kp ∈ kps, ∀ kp' ∈ kps, kp.ownerId ≠ kp'.ownerId →
    ⟨kp.ownerId, kp'.ownerId, kp'.ownerId, true⟩ ∈ doc.verifications ∧
    ∃ b ∈ doc.backups, b.ownerId = kp.ownerId ∧ b.designatedId = kp'.ownerId ∧
      verifyBackup E loads kp'.ownerId b kp.share kp' = .ok ⟨kp.ownerId, kp'.ownerId, kp'.ownerId, true⟩ ∧
      decryptBackup E loads b kp' = .ok (some (polyAt kp.coefficients kp'.sequenceOrder.toNat % E.P.q))
  joint : jk.jointPublicKey = (kps.map (fun kp => E.P.g ^ kp.keyPair.secret % E.P.p)).prod % E.P.p
  commitmentHash : jk.commitmentHash = hashElems E [.list ((kps.flatMap
    (fun kp => kp.coefficients.map (fun a => E.P.g ^ a % E.P.p))).map HArg.elem)]

/-- How far a key ceremony that everybody joined has come. -/
inductive KCPhase where
  /-- Everybody has joined. -/
  | joined
  /-- The keys are announced and these guardians have made their backups. -/
  | backups (made : List String)
  /-- The backups are shared and these guardians have checked theirs. -/
  | verifying (done : List String)
  /-- The joint key is published. -/
  | complete
  deriving DecidableEq, Repr

/-- What the browser of a user does to a ceremony of these guardians: the administrator goes on when everybody is ready, and a
guardian does its part once. -/
def KCPhase.next (ids : List String) (user : String) (isAdmin : Bool) : KCPhase → KCPhase
  | .joined => if isAdmin then .backups [] else .joined
  | .backups made =>
    if isAdmin then if ids.length = made.length then .verifying [] else .backups made
    else if user ∈ ids ∧ user ∉ made then .backups (made ++ [user]) else .backups made
  | .verifying done =>
    if isAdmin then if ids.length = done.length ∨ ids.length = 1 then .complete else .verifying done
    else if user ∈ ids ∧ user ∉ done ∧ ids.length ≠ 1 then .verifying (done ++ [user]) else .verifying done
  | .complete => .complete

/-- A browser handles a change of the document while no other call is under way: it reads the document, computes and makes its
updates. -/
def KCEvent.whole (e : String × Bool × (Nat → Nat)) : List KCEvent :=
  .poll e.1 e.2.1 :: List.replicate 4 (.step 0 (fun _ => (0, 0)) e.2.2)

/-- Every guardian looks at the document at least once. -/
def EveryoneLooks (ids : List String) (l : List (String × Bool × (Nat → Nat))) : Prop :=
  ∀ id ∈ ids, ∃ nonces, (id, false, nonces) ∈ l

end EG
