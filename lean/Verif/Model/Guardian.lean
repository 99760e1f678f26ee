import Verif.Model.KeyCeremony
import Verif.Model.ObjectBase

/-!
# guardian.py: the key-ceremony half of `Guardian`

The dictionaries an exported record shares by reference with the guardian are copied here.
-/

namespace EG

/-- guardian.py:40-71 `GuardianRecord`. -/
structure GuardianRecord where
  guardianId : String
  sequenceOrder : Int
  publicKey : Nat
  commitments : List Nat
  proofs : List SchnorrProof
  deriving DecidableEq, Repr

/-- guardian.py:74-88 `publish_guardian_record`. -/
def publishGuardianRecord (k : ElectionPublicKey) : GuardianRecord :=
  ⟨k.ownerId, k.sequenceOrder, k.key, k.commitments, k.proofs⟩

/-- guardian.py:91-113 `PrivateGuardianRecord`. -/
structure PrivateGuardianRecord where
  guardianId : String
  electionKeys : ElectionKeyPair
  backupsToShare : List (String × Backup)
  guardianKeys : List (String × ElectionPublicKey)
  guardianBackups : List (String × Backup)
  guardianVerifications : List (String × Verification)
  deriving DecidableEq, Repr

/-- guardian.py:116-148 `Guardian`. -/
structure Guardian where
  electionKeys : ElectionKeyPair
  details : CeremonyDetails
  backupsToShare : List (String × Backup)
  guardianKeys : List (String × ElectionPublicKey)
  guardianBackups : List (String × Backup)
  guardianVerifications : List (String × Verification)
  deriving DecidableEq, Repr

/-- guardian.py:189-191 `id`. -/
def Guardian.id (g : Guardian) : String := g.electionKeys.ownerId

/-- guardian.py:292-298 `save_guardian_key`. -/
def Guardian.saveKey (g : Guardian) (k : ElectionPublicKey) : Guardian :=
  { g with guardianKeys := dset g.guardianKeys k.ownerId k }

/-- guardian.py:150-187 `__init__`; absent dictionaries are empty. -/
def Guardian.init (keys : ElectionKeyPair) (details : CeremonyDetails)
    (guardianKeys : List (String × ElectionPublicKey) := []) (guardianBackups : List (String × Backup) := [])
    (backupsToShare : List (String × Backup) := [])
    (verifications : List (String × Verification) := []) : Guardian :=
  (Guardian.mk keys details backupsToShare guardianKeys guardianBackups verifications).saveKey keys.share

/-- guardian.py:197-212 `from_public_key`. -/
def Guardian.fromPublicKey (n quorum : Int) (k : ElectionPublicKey) : Guardian :=
  Guardian.init ⟨k.ownerId, k.sequenceOrder, ⟨0, k.key⟩, []⟩ ⟨n, quorum⟩

/-- guardian.py:214-228 `from_nonce` without a nonce. -/
def Guardian.fromRandom (E : Env) (id : String) (order n quorum : Int) (rands : List (Nat × Nat)) : R Guardian := do
  let kp ← generateElectionKeyPair E id order rands
  return Guardian.init kp ⟨n, quorum⟩

/-- guardian.py:230-246 `from_private_record`. -/
def Guardian.fromPrivateRecord (r : PrivateGuardianRecord) (n quorum : Int) : Guardian :=
  Guardian.init r.electionKeys ⟨n, quorum⟩ r.guardianKeys r.guardianBackups r.backupsToShare
    r.guardianVerifications

/-- guardian.py:248-250 `publish`. -/
def Guardian.publish (g : Guardian) : GuardianRecord := publishGuardianRecord g.electionKeys.share

/-- guardian.py:252-261 `export_private_data`. -/
def Guardian.exportPrivate (g : Guardian) : PrivateGuardianRecord :=
  ⟨g.id, g.electionKeys, g.backupsToShare, g.guardianKeys, g.guardianBackups, g.guardianVerifications⟩

/-- guardian.py:263-270 `set_ceremony_details`. -/
def Guardian.setDetails (g : Guardian) (n quorum : Int) : Guardian := { g with details := ⟨n, quorum⟩ }

/-- guardian.py:284-290 `share_key`. -/
def Guardian.shareKey (g : Guardian) : ElectionPublicKey := g.electionKeys.share

/-- guardian.py:300-309 `all_guardian_keys_received`. -/
def Guardian.allKeysReceived (g : Guardian) : Bool :=
  (g.guardianKeys.length : Int) == g.details.numberOfGuardians

/-- guardian.py:315-324: the loop of `generate_election_partial_key_backups`; a call that raises leaves the
backups made so far. -/
def Guardian.backupLoop (E : Env) (g : Guardian) (nonces : Nat → Nat) :
    List ElectionPublicKey → Nat → R Bool × Guardian
  | [], _ => (.ok true, g)
  | k :: ks, i =>
    match generateBackup E g.id g.electionKeys.polynomial k (nonces i) with
    | .error e => (.error e, g)
    | .ok b =>
      Guardian.backupLoop E { g with backupsToShare := dset g.backupsToShare k.ownerId b } nonces ks (i + 1)

/-- guardian.py:311-326 `generate_election_partial_key_backups`; `nonces i` is the `i`-th random number drawn.
The guardian's own key is among its keys, so it also makes a backup for itself. -/
def Guardian.generateBackups (E : Env) (g : Guardian) (nonces : Nat → Nat) : R Bool × Guardian :=
  g.backupLoop E nonces (g.guardianKeys.map (·.2)) 0

/-- guardian.py:329-338 `share_election_partial_key_backup`. -/
def Guardian.shareBackup (g : Guardian) (id : String) : Option Backup := dget g.backupsToShare id

/-- guardian.py:340-346 `share_election_partial_key_backups`. -/
def Guardian.shareBackups (g : Guardian) : List Backup := g.backupsToShare.map (·.2)

/-- guardian.py:348-356 `save_election_partial_key_backup`. -/
def Guardian.saveBackup (g : Guardian) (b : Backup) : Guardian :=
  { g with guardianBackups := dset g.guardianBackups b.ownerId b }

/-- guardian.py:358-367 `all_election_partial_key_backups_received`. -/
def Guardian.allBackupsReceived (g : Guardian) : Bool :=
  (g.guardianBackups.length : Int) == g.details.numberOfGuardians - 1

/-- guardian.py:370-389 `verify_election_partial_key_backup`. -/
def Guardian.verifyBackup (E : Env) (loads : Bytes → R (List Char)) (g : Guardian) (id : String) :
    R Verification :=
  match dget g.guardianBackups id with
  | none => .error .value
  | some b => match dget g.guardianKeys id with
    | none => .error .value
    | some k => EG.verifyBackup E loads g.id b k g.electionKeys

/-- guardian.py:391-405 `publish_election_backup_challenge`. -/
def Guardian.publishChallenge (P : Params) (g : Guardian) (id : String) : R (Option BackupChallenge) :=
  match dget g.backupsToShare id with
  | none => .ok none
  | some b => (generateChallenge P b g.electionKeys.polynomial).map some

/-- guardian.py:407-416 `verify_election_partial_key_challenge`. -/
def Guardian.verifyChallenge (P : Params) (g : Guardian) (c : BackupChallenge) : R Verification :=
  EG.verifyChallenge P g.id c

/-- guardian.py:418-428 `save_election_partial_key_verification`. -/
def Guardian.saveVerification (g : Guardian) (v : Verification) : Guardian :=
  { g with guardianVerifications := dset g.guardianVerifications v.designatedId v }

/-- guardian.py:430-442 `all_election_partial_key_backups_verified`. -/
def Guardian.allBackupsVerified (g : Guardian) : Bool :=
  if (g.guardianVerifications.length : Int) ≠ g.details.numberOfGuardians - 1 then false
  else g.guardianVerifications.all (fun e => e.2.verified)

/-- guardian.py:445-460 `publish_joint_key`. -/
def Guardian.publishJointKey (P : Params) (g : Guardian) : Option Nat :=
  if !g.allKeysReceived then none
  else if !g.allBackupsVerified then none
  else some (combinePublicKeys P (g.guardianKeys.map (fun e => e.2.key)))

/-- guardian.py:272-281 `decrypt_backup`. -/
def Guardian.decryptBackup (E : Env) (loads : Bytes → R (List Char)) (g : Guardian) (b : Backup) :
    R (Option Nat) := EG.decryptBackup E loads b g.electionKeys

/-- The calls that change a guardian during the ceremony. -/
inductive GuardianOp
  | saveKey (k : ElectionPublicKey)
  | generateBackups (nonces : Nat → Nat)
  | saveBackup (b : Backup)
  | saveVerification (v : Verification)
  | setDetails (n quorum : Int)

/-- The effect of one call. -/
def Guardian.step (E : Env) (g : Guardian) : GuardianOp → Guardian
  | .saveKey k => g.saveKey k
  | .generateBackups nonces => (g.generateBackups E nonces).2
  | .saveBackup b => g.saveBackup b
  | .saveVerification v => g.saveVerification v
  | .setDetails n quorum => g.setDetails n quorum

/-- The state after a sequence of calls. -/
def Guardian.run (E : Env) (g : Guardian) (ops : List GuardianOp) : Guardian := ops.foldl (Guardian.step E) g

end EG
