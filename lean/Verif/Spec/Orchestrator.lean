import Verif.Model.Orchestrator
import Verif.Spec.KeyCeremony
import Verif.Spec.Polynomial

/-!
# Vocabulary for a ceremony run by the orchestrators
-/

namespace EG

/-- Guardians ready for a key ceremony: ids that are distinct and not empty, key pairs generated from random numbers
with as many coefficients as the quorum, and sequence orders that are not negative, below `q` and with powers below `p`. -/
structure Team (E : Env) (quorum : Nat) (rands : String → List (Nat × Nat)) (kps : List ElectionKeyPair) : Prop where
  ids : (kps.map (fun kp => kp.ownerId)).Nodup
  named : ∀ kp ∈ kps, kp.ownerId ≠ ""
  generated : ∀ kp ∈ kps, generateElectionKeyPair E kp.ownerId kp.sequenceOrder (rands kp.ownerId) = .ok kp
  coefficients : ∀ kp ∈ kps, (rands kp.ownerId).length = quorum
  orders : ∀ kp ∈ kps, 0 ≤ kp.sequenceOrder ∧ kp.sequenceOrder.toNat < E.P.q ∧
    ∀ i < quorum, kp.sequenceOrder.toNat ^ i < E.P.p

/-- A guardian after a key ceremony: it has its own key pair, the public keys of all, and from every other guardian a backup that
it can decrypt to the value of that guardian's polynomial at its own sequence order. -/
structure Guardian.Equipped (E : Env) (loads : Bytes → R (List Char)) (rands : String → List (Nat × Nat))
    (kps : List ElectionKeyPair) (g : Guardian) (kp : ElectionKeyPair) : Prop where
  own : g.electionKeys = kp
  keys : ∀ kp' ∈ kps, dget g.guardianKeys kp'.ownerId = some kp'.share
  noOther : g.guardianKeys.length = kps.length
  backups : ∀ kp' ∈ kps, kp'.ownerId ≠ kp.ownerId → ∃ b, dget g.guardianBackups kp'.ownerId = some b ∧
    g.decryptBackup E loads b
      = .ok (some (polyAt ((rands kp'.ownerId).map Prod.fst) kp.sequenceOrder.toNat % E.P.q))

end EG
