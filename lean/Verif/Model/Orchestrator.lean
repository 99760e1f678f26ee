import Verif.Model.Guardian
import Verif.Model.KeyCeremonyMediator
import Verif.Model.DecryptionMediator

/-!
# electionguard_tools/helpers: the key ceremony and tally ceremony orchestrators

The guardians and the mediator are objects the orchestrator changes; here every function returns them.  A run that
raises is abandoned: its half-changed objects are not modelled.  Comparisons of ids with `is` (key_ceremony_orchestrator.py:73,
96) are equality of ids.  Random numbers are arguments, by the id of the guardian that draws them.
-/

namespace EG

/-- key_ceremony_orchestrator.py:12-22 `create_guardians`; `rands i` are the random numbers of guardian `i + 1`, one pair
per coefficient. -/
def createGuardians (E : Env) (d : CeremonyDetails) (rands : Nat → List (Nat × Nat)) : R (List Guardian) :=
  (List.range d.numberOfGuardians.toNat).mapM (fun (i : Nat) =>
    Guardian.fromRandom E (decStr ((i : Int) + 1)) ((i : Int) + 1) d.numberOfGuardians d.quorum (rands i))

/-- key_ceremony_orchestrator.py:34-46 `perform_round_1`. -/
def performRound1 (gs : List Guardian) (m : KCM) : R (List Guardian × KCM) := do
  let m := gs.foldl (fun m g => m.announce g.shareKey) m
  let gs ← gs.mapM (fun g => do
    let others ← getOptional (← m.shareAnnounced (some g.id))
    return others.foldl Guardian.saveKey g)
  return (gs, m)

/-- key_ceremony_orchestrator.py:54-56: the first loop of `perform_round_2`. -/
def generateAndSend (E : Env) (nonces : String → Nat → Nat) : List Guardian → KCM → R (List Guardian × KCM)
  | [], m => .ok ([], m)
  | g :: gs, m => do
    let (r, g) := g.generateBackups E (nonces g.id)
    let _ ← r
    let (gs, m) ← generateAndSend E nonces gs (m.receiveBackups g.shareBackups)
    return (g :: gs, m)

/-- key_ceremony_orchestrator.py:48-61 `perform_round_2`. -/
def performRound2 (E : Env) (nonces : String → Nat → Nat) (gs : List Guardian) (m : KCM) : R (List Guardian × KCM) := do
  let (gs, m) ← generateAndSend E nonces gs m
  let gs ← gs.mapM (fun g => do
    let backups ← getOptional (← m.shareBackups (some g.id))
    return backups.foldl Guardian.saveBackup g)
  return (gs, m)

/-- key_ceremony_orchestrator.py:70-81: the inner loop of `perform_round_3`, over the other guardians. -/
def verifyOthers (E : Env) (loads : Bytes → R (List Char)) (g : Guardian) : List Guardian → KCM → R KCM
  | [], m => .ok m
  | o :: os, m => do
    let vs ← if g.id = o.id then pure [] else do
      let v ← g.verifyBackup E loads o.id
      pure [v]
    verifyOthers E loads g os (m.receiveVerifications vs)

/-- key_ceremony_orchestrator.py:63-81 `perform_round_3`. -/
def performRound3 (E : Env) (loads : Bytes → R (List Char)) (gs : List Guardian) (m : KCM) : R KCM :=
  gs.foldlM (fun m g => verifyOthers E loads g gs m) m

/-- key_ceremony_orchestrator.py:24-32 `perform_full_ceremony`. -/
def performFullCeremony (E : Env) (loads : Bytes → R (List Char)) (nonces : String → Nat → Nat) (gs : List Guardian)
    (m : KCM) : R (List Guardian × KCM) := do
  let (gs, m) ← performRound1 gs m
  let (gs, m) ← performRound2 E nonces gs m
  let m ← performRound3 E loads gs m
  return (gs, m)

/-- key_ceremony_orchestrator.py:91-109: the inner loop of `fail_round_3`. -/
def failOthers (E : Env) (loads : Bytes → R (List Char)) (pair : String × String) (g : Guardian) :
    List Guardian → KCM → R KCM
  | [], m => .ok m
  | o :: os, m => do
    let vs ← if g.id = o.id then pure [] else do
      let v ← g.verifyBackup E loads o.id
      pure [if v.ownerId = pair.1 ∧ v.designatedId = pair.2 then ⟨pair.1, pair.2, pair.2, false⟩ else v]
    failOthers E loads pair g os (m.receiveVerifications vs)

/-- key_ceremony_orchestrator.py:83-111 `fail_round_3`; fewer than two guardians are an `IndexError`. -/
def failRound3 (E : Env) (loads : Bytes → R (List Char)) (gs : List Guardian) (m : KCM) :
    R ((String × String) × KCM) :=
  match gs with
  | g :: g' :: _ => do
    let pair := (g.id, g'.id)
    let m ← gs.foldlM (fun m g => failOthers E loads pair g gs m) m
    return (pair, m)
  | _ => .error .index

/-! ### The tally ceremony -/

/-- The random numbers of the tally ceremony: the seeds of the proofs, by the guardian, the ballot (if any), and the place of
the contest and selection; and, for compensated shares, also by the missing guardian. -/
structure TallySeeds where
  tally : String → Nat → Nat → Nat
  ballot : String → Nat → Nat → Nat → Nat
  compTally : String → String → Nat → Nat → Nat
  compBallot : String → String → Nat → Nat → Nat → Nat

/-- tally_ceremony_orchestrator.py:74-84: the available guardians announce. -/
def announceAvailable (E : Env) (sd : TallySeeds) (ctx : Context) (t : Tally) (bs : List SBallot) :
    List Guardian → DM → R DM
  | [], m => .ok m
  | g :: gs, m => do
    let share ← getOptional (g.computeTallyShare E t ctx (sd.tally g.id))
    let ballotShares := getValidBallotShares (g.computeBallotShares E bs ctx (sd.ballot g.id))
    announceAvailable E sd ctx t bs gs (m.announce g.shareKey share (some (ballotShares.map (fun e => (e.1, some e.2)))))

/-- tally_ceremony_orchestrator.py:58-96 `announcement`. -/
def tallyAnnouncement (E : Env) (sd : TallySeeds) (ctx : Context) (t : Tally) (bs : List SBallot)
    (available : List Guardian) (keys : List ElectionPublicKey) (m : DM) : R DM := do
  let m ← announceAvailable E sd ctx t bs available m
  let missing := keys.filter (fun k => decide (k.ownerId ∉ available.map Guardian.id))
  return missing.foldl DM.announceMissing m

/-- tally_ceremony_orchestrator.py:116-132: the inner loop over the missing guardians. -/
def sendCompensation (E : Env) (loads : Bytes → R (List Char)) (sd : TallySeeds) (ctx : Context) (t : Tally)
    (bs : List SBallot) (g : Guardian) : List ElectionPublicKey → DM → R DM
  | [], m => .ok m
  | k :: ks, m => do
    let share ← g.computeCompTallyShare E loads k.ownerId t ctx (sd.compTally g.id k.ownerId)
    let m := match share with
      | some sh => m.receiveTallyComp sh
      | none => m
    let ballotShares ← g.computeCompBallotShares E loads k.ownerId bs ctx (sd.compBallot g.id k.ownerId)
    sendCompensation E loads sd ctx t bs g ks (m.receiveBallotComp (getValidBallotShares ballotShares))

/-- tally_ceremony_orchestrator.py:98-136 `exchange_compensated_decryption_shares`; decryption_mediator.py:167-171
`get_missing_guardians`. -/
def exchangeCompensation (E : Env) (loads : Bytes → R (List Char)) (sd : TallySeeds) (ctx : Context) (t : Tally)
    (bs : List SBallot) (available : List Guardian) (m : DM) : R DM := do
  let missing := m.missing.map (·.2)
  let m ← available.foldlM (fun m g => sendCompensation E loads sd ctx t bs g missing m) m
  let (r, m) := m.reconstructTally E.P t
  let _ ← r
  let (r, m) := m.reconstructBallots E.P bs
  let _ ← r
  return m

/-- tally_ceremony_orchestrator.py:15-33 `perform_decryption_setup`. -/
def performDecryptionSetup (E : Env) (sd : TallySeeds) (ctx : Context) (t : Tally) (bs : List SBallot)
    (available : List Guardian) (m : DM) : R DM :=
  tallyAnnouncement E sd ctx t bs available (available.map Guardian.shareKey) m

/-- tally_ceremony_orchestrator.py:35-56 `perform_compensated_decryption_setup`. -/
def performCompensatedSetup (E : Env) (loads : Bytes → R (List Char)) (sd : TallySeeds) (ctx : Context) (t : Tally)
    (bs : List SBallot) (available : List Guardian) (keys : List ElectionPublicKey) (m : DM) : R DM := do
  let m ← tallyAnnouncement E sd ctx t bs available keys m
  exchangeCompensation E loads sd ctx t bs available m

end EG
