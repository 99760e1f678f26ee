import Verif.Model.GuiBallots
import Verif.Model.DecryptionMediator

/-!
# electionguard_gui: the decryption of an election

A decryption is a document of the database.  Guardians join it (stage 1), then an administrator announces the shares to a
decryption mediator and stores the result (stage 2).  Shares and results are stored as JSON; reading gives back what was
written.  An `Exception` of the GUI is `Err.value` here.  A guardian is loaded from a private file (`Guardian`, or `none` if
there is no such file).
-/

namespace EG

/-- decryption_service.py:122-134, decryption_dto.py:13-34 `GuardianDecryptionShare`: an entry of `decryption_shares`. -/
structure JoinedShare where
  guardianId : String
  key : ElectionPublicKey
  tallyShare : DecShare
  ballotShares : List (String × Option DecShare)
  deriving DecidableEq, Repr

/-- decryption_service.py:156-167: what `set_decryption_completed` stores. -/
structure GuiResult where
  tally : PlaintextTally
  ballots : List (String × PlaintextTally)
  lagrange : List (String × Nat)
  ciphertextTally : Tally
  deriving DecidableEq, Repr

/-- decryption_service.py:44-62, decryption_dto.py:38-86: a decryption. -/
structure GuiDecryption where
  electionId : String
  guardians : Int
  joined : List String
  shares : List JoinedShare
  completed : Option GuiResult
  deriving DecidableEq, Repr

/-- decryption_service.py:36-67 `create`; the number of guardians is that of the election. -/
def GuiDecryption.create (electionId : String) (guardians : Int) : GuiDecryption := ⟨electionId, guardians, [], [], none⟩

/-- decryption_dto.py:88-93 `get_status`. -/
inductive GuiStatus | waiting | performing | complete
  deriving DecidableEq, Repr

/-- decryption_dto.py:88-93 `get_status`. -/
def GuiDecryption.status (d : GuiDecryption) : GuiStatus :=
  if (d.joined.length : Int) < d.guardians then .waiting
  else if d.completed.isNone then .performing
  else .complete

/-- decryption_dto.py:131-135 `set_can_join`. -/
def GuiDecryption.canJoin (d : GuiDecryption) (user : String) (isAdmin : Bool) : Bool :=
  !decide (user ∈ d.joined) && !isAdmin

/-- election_service.py:74-79 `get`. -/
def GuiDb.getElection (db : GuiDb) (eid : String) : R ElectionDoc :=
  match dget db.elections eid with
  | none => .error .value
  | some e => .ok e

/-- election_dto.py:122-126 `get_guardian_sequence_order`. -/
def ElectionDoc.sequenceOrder (e : ElectionDoc) (guardianId : String) : R Int :=
  match e.guardianRecords.find? (fun r => r.1 == guardianId) with
  | none => .error .value
  | some r => .ok r.2

/-- decryption_s1_join_service.py:39-41 and decryption_s2_announce_service.py:55-57. -/
def spoiledOf (bs : List SBallot) : List SBallot := bs.filter (fun b => decide (b.state = .spoiled))

/-- The random numbers that a guardian draws while joining. -/
structure JoinSeeds where
  tally : Nat → Nat → Nat
  ballots : Nat → Nat → Nat → Nat

/-- decryption_s1_join_service.py:15-45: the part of stage 1 that computes the shares of the guardian, with the tally that
it computed. -/
def s1Compute (E : Env) (parse : List Char → Option SBallot) (net : Nat → Nat → Bool) (db : GuiDb) (eid user : String)
    (guardian : Option Guardian) (seeds : JoinSeeds) : R (JoinedShare × Tally) := do
  let election ← db.getElection eid
  match guardian with
  | none => .error .value
  | some g =>
    let ballots := db.getBallots parse net eid
    let t ← getTally E election.manifest election.context ballots false
    match g.computeTallyShare E t election.context seeds.tally with
    | none => .error .value
    | some sh =>
      return (⟨user, g.shareKey, sh, g.computeBallotShares E (spoiledOf ballots) election.context seeds.ballots⟩, t)

/-- decryption_service.py:122-134: the first update of `append_guardian_joined`. -/
def GuiDecryption.pushShare (d : GuiDecryption) (s : JoinedShare) : GuiDecryption := { d with shares := d.shares ++ [s] }

/-- decryption_service.py:135-138: the second update of `append_guardian_joined`. -/
def GuiDecryption.pushJoined (d : GuiDecryption) (user : String) : GuiDecryption := { d with joined := d.joined ++ [user] }

/-- decryption_service.py:105-138 `append_guardian_joined`. -/
def GuiDecryption.appendJoined (d : GuiDecryption) (s : JoinedShare) : GuiDecryption :=
  (d.pushShare s).pushJoined s.guardianId

/-- decryption_s1_join_service.py:15-57 `run`: stage 1, with nothing in between. -/
def s1Join (E : Env) (parse : List Char → Option SBallot) (net : Nat → Nat → Bool) (db : GuiDb) (d : GuiDecryption)
    (user : String) (guardian : Option Guardian) (seeds : JoinSeeds) : R GuiDecryption := do
  let r ← s1Compute E parse net db d.electionId user guardian seeds
  return d.appendJoined r.1

/-- decryption_s2_announce_service.py:16-20 `should_run`. -/
def s2ShouldRun (d : GuiDecryption) (isAdmin : Bool) : Bool :=
  isAdmin && decide (d.guardians ≤ d.joined.length) && d.completed.isNone

/-- decryption_dto.py:120-129 `get_decryption_shares`: `from_raw` raises `TypeError` for a ballot share that is `None`. -/
def GuiDecryption.getShares (d : GuiDecryption) : R (List JoinedShare) :=
  if d.shares.any (fun s => s.ballotShares.any (fun b => b.2.isNone)) then .error .type else .ok d.shares

/-- decryption_s2_announce_service.py:35-49: the loop over the shares.  The owner id of the key is replaced by the sequence
order in the guardian records of the election. -/
def announceShares (e : ElectionDoc) : List JoinedShare → DM → R DM
  | [], dm => .ok dm
  | s :: ss, dm => do
    let order ← e.sequenceOrder s.guardianId
    announceShares e ss (dm.announce { s.key with ownerId := toString order } s.tallyShare (some s.ballotShares))

/-- decryption_s2_announce_service.py:22-87: the part of stage 2 that computes the result.  `d` is the decryption as it was
read. -/
def s2Compute (E : Env) (maxE : Nat) (parse : List Char → Option SBallot) (net : Nat → Nat → Bool) (db : GuiDb)
    (d : GuiDecryption) : R GuiResult := do
  let election ← db.getElection d.electionId
  let shares ← d.getShares
  let dm ← announceShares election shares DM.init
  let ballots := db.getBallots parse net d.electionId
  let t ← getTally E election.manifest election.context ballots false
  match ← dm.plaintextTally E maxE election.context t election.manifest with
  | none => .error .value
  | some pt =>
    match ← dm.plaintextBallots E maxE election.context (spoiledOf ballots) election.manifest with
    | none => .error .value
    | some pbs =>
      let lagrange ← lagrangeForGuardians E.P (dm.available.map (·.2))
      return ⟨pt, pbs, lagrange, t⟩

/-- decryption_service.py:140-167 `set_decryption_completed`. -/
def GuiDecryption.setCompleted (d : GuiDecryption) (r : GuiResult) : GuiDecryption := { d with completed := some r }

/-- view_decryption_component.py:77-84 `try_run_stage_2`, with nothing in between. -/
def tryRunStage2 (E : Env) (maxE : Nat) (parse : List Char → Option SBallot) (net : Nat → Nat → Bool) (db : GuiDb)
    (d : GuiDecryption) (isAdmin : Bool) : R Bool × GuiDecryption :=
  if s2ShouldRun d isAdmin then
    match s2Compute E maxE parse net db d with
    | .error e => (.error e, d)
    | .ok r => (.ok true, d.setCompleted r)
  else (.ok false, d)

/-! ### Several users at the same time -/

/-- The database, and what the users have in hand: the shares that guardians computed (with the tally they computed, which
is not stored), the decryptions that administrators read, and the results that they computed. -/
structure GuiWorld where
  db : GuiDb
  dec : GuiDecryption
  made : List (JoinedShare × Tally)
  reads : List GuiDecryption
  results : List GuiResult

/-- One step of one user.  `joinShare`/`joinId` are the two updates of `append_guardian_joined`, `complete` is the update of
`set_decryption_completed`; each acts with something that the user had computed before. -/
inductive GuiEvent
  | upload (uid eid fn : String) (contents : List Char)
  | createUpload (eid newId : String) (device : Bool)
  | joinCompute (user : String) (net : Nat → Nat → Bool) (seeds : JoinSeeds)
  | joinShare (i : Nat)
  | joinId (i : Nat)
  | adminRead
  | adminCompute (i : Nat) (net : Nat → Nat → Bool)
  | complete (i : Nat)

/-- The effect of one step; `guardianOf` are the private files. -/
def GuiWorld.step (E : Env) (maxE : Nat) (parse : List Char → Option SBallot) (guardianOf : String → Option Guardian)
    (w : GuiWorld) : GuiEvent → GuiWorld
  | .upload uid eid fn contents => { w with db := (w.db.uploadBallot parse uid eid fn contents).2 }
  | .createUpload eid newId device => { w with db := (w.db.createUpload eid newId device).2 }
  | .joinCompute user net seeds =>
    match s1Compute E parse net w.db w.dec.electionId user (guardianOf user) seeds with
    | .error _ => w
    | .ok r => { w with made := w.made ++ [r] }
  | .joinShare i =>
    match w.made[i]? with
    | none => w
    | some r => { w with dec := w.dec.pushShare r.1 }
  | .joinId i =>
    match w.made[i]? with
    | none => w
    | some r => { w with dec := w.dec.pushJoined r.1.guardianId }
  | .adminRead => { w with reads := w.reads ++ [w.dec] }
  | .adminCompute i net =>
    match w.reads[i]? with
    | none => w
    | some d =>
      if s2ShouldRun d true then
        match s2Compute E maxE parse net w.db d with
        | .error _ => w
        | .ok r => { w with results := w.results ++ [r] }
      else w
  | .complete i =>
    match w.results[i]? with
    | none => w
    | some r => { w with dec := w.dec.setCompleted r }

/-- The world after a sequence of steps. -/
def GuiWorld.run (E : Env) (maxE : Nat) (parse : List Char → Option SBallot) (guardianOf : String → Option Guardian)
    (w : GuiWorld) (evs : List GuiEvent) : GuiWorld := evs.foldl (GuiWorld.step E maxE parse guardianOf) w

/-- A new decryption. -/
def GuiWorld.start (db : GuiDb) (electionId : String) (guardians : Int) : GuiWorld :=
  ⟨db, GuiDecryption.create electionId guardians, [], [], []⟩

end EG
