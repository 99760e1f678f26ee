import Verif.Model.DecryptShares

/-!
# decryption_mediator.py

The context of the mediator is a parameter.  The dicts of ballot shares are updated in place, so a call that raises
half-way leaves a changed mediator behind.
-/

namespace EG

/-- decryption_mediator.py:25-61 `DecryptionMediator`. -/
structure DM where
  available : List (String × ElectionPublicKey)
  missing : List (String × ElectionPublicKey)
  tallyShares : List (String × DecShare)
  ballotShares : List (String × List (String × DecShare))
  compTally : List ((String × String) × CompShare)
  compBallot : List (String × List ((String × String) × CompShare))
  deriving DecidableEq, Repr

/-- decryption_mediator.py:49-61 `__init__`. -/
def DM.init : DM := ⟨[], [], [], [], [], []⟩

/-- decryption_mediator.py:319-331 `_save_ballot_shares`. -/
def DM.saveBallotShares (s : DM) (id : String) (shares : List (String × Option DecShare)) : DM :=
  { s with ballotShares := shares.foldl (fun d e =>
      let old := (dget d e.1).getD []
      dset d e.1 (match e.2 with | some sh => dset old id sh | none => old)) s.ballotShares }

/-- decryption_mediator.py:63-90 `announce`, with 313-317 `_save_tally_share` and 333-340 `_mark_available`. -/
def DM.announce (s : DM) (k : ElectionPublicKey) (tallyShare : DecShare)
    (ballotShares : Option (List (String × Option DecShare))) : DM :=
  if k.ownerId ∈ dkeys s.available then s
  else
    let s := { s with tallyShares := dset s.tallyShares k.ownerId tallyShare }
    let s := match ballotShares with
      | some bs => s.saveBallotShares k.ownerId bs
      | none => s
    { s with available := dset s.available k.ownerId k, missing := ddel s.missing k.ownerId }

/-- decryption_mediator.py:92-105 `announce_missing` and 342-344 `_mark_missing`. -/
def DM.announceMissing (s : DM) (k : ElectionPublicKey) : DM :=
  if k.ownerId ∈ dkeys s.available then s else { s with missing := dset s.missing k.ownerId k }

/-- decryption_mediator.py:124-135: the loop of `validate_missing_guardians`. -/
def validateLoop : List (String × ElectionPublicKey) → List (String × ElectionPublicKey) →
    Bool × List (String × ElectionPublicKey)
  | [], missing => (true, missing)
  | (id, k) :: ks, missing =>
    match dget missing id with
    | some k' => if k' ≠ k then (false, missing) else validateLoop ks missing
    | none => validateLoop ks (dset missing id k)

/-- decryption_mediator.py:107-136 `validate_missing_guardians`. -/
def DM.validateMissing (s : DM) (keys : List ElectionPublicKey) : Bool × DM :=
  let candidates := (keys.filter (fun k => decide (k.ownerId ∉ dkeys s.available))).foldl
    (fun d k => dset d k.ownerId k) []
  let r := validateLoop candidates s.missing
  (r.1, { s with missing := r.2 })

/-- decryption_mediator.py:138-157 `announcement_complete`. -/
def DM.announcementComplete (s : DM) (ctx : Context) : Bool :=
  if (s.available.length : Int) < ctx.quorum then false
  else if (s.available.length : Int) + s.missing.length ≠ ctx.numberOfGuardians then false
  else true

/-- decryption_mediator.py:173-181 `receive_tally_compensation_share`. -/
def DM.receiveTallyComp (s : DM) (c : CompShare) : DM :=
  { s with compTally := dset s.compTally (c.guardianId, c.missingId) c }

/-- decryption_mediator.py:183-193 `receive_ballot_compensation_shares`. -/
def DM.receiveBallotComp (s : DM) (cs : List (String × CompShare)) : DM :=
  { s with compBallot := cs.foldl (fun d e =>
      dset d e.1 (dset ((dget d e.1).getD []) (e.2.guardianId, e.2.missingId) e.2)) s.compBallot }

/-- decryption_mediator.py:353-364 `_filter_by_missing_guardian`. -/
def filterByMissing (missingId : String) (shares : List ((String × String) × CompShare)) :
    List (String × CompShare) :=
  shares.foldl (fun d e => if e.1.2 = missingId then dset d e.1.1 e.2 else d) []

/-- decryption_mediator.py:202-222: the loop of `reconstruct_shares_for_tally` over the missing guardians. -/
def reconstructTallyLoop (P : Params) (t : Tally) (lagrange : List (String × Nat))
    (comps : List ((String × String) × CompShare)) : List (String × ElectionPublicKey) →
    List (String × DecShare) → R Unit × List (String × DecShare)
  | [], shares => (.ok (), shares)
  | (id, k) :: rest, shares =>
    if id ∈ dkeys shares then reconstructTallyLoop P t lagrange comps rest shares
    else match reconstructShare P k t.objectId t.toCts (filterByMissing id comps) lagrange with
      | .error e => (.error e, shares)
      | .ok sh => reconstructTallyLoop P t lagrange comps rest (dset shares id sh)

/-- decryption_mediator.py:200-222 `reconstruct_shares_for_tally`. -/
def DM.reconstructTally (P : Params) (s : DM) (t : Tally) : R Unit × DM :=
  match lagrangeForGuardians P (s.available.map (·.2)) with
  | .error e => (.error e, s)
  | .ok lagrange =>
    let r := reconstructTallyLoop P t lagrange s.compTally s.missing s.tallyShares
    (r.1, { s with tallyShares := r.2 })

/-- decryption_mediator.py:234-253: the loop over the missing guardians for one ballot.  The compensated shares
are looked up only when a share has to be reconstructed. -/
def reconstructBallotLoop (P : Params) (b : SBallot) (lagrange : List (String × Nat))
    (compBallot : List (String × List ((String × String) × CompShare))) : List (String × ElectionPublicKey) →
    List (String × DecShare) → R Unit × List (String × DecShare)
  | [], shares => (.ok (), shares)
  | (id, k) :: rest, shares =>
    if id ∈ dkeys shares then reconstructBallotLoop P b lagrange compBallot rest shares
    else match dgetR compBallot b.objectId with
      | .error e => (.error e, shares)
      | .ok comps =>
        match reconstructShare P k b.objectId b.toCts (filterByMissing id comps) lagrange with
        | .error e => (.error e, shares)
        | .ok sh => reconstructBallotLoop P b lagrange compBallot rest (dset shares id sh)

/-- decryption_mediator.py:230-256: the loop over the ballots. -/
def reconstructBallotsLoop (P : Params) (lagrange : List (String × Nat)) : List SBallot → DM → R Unit × DM
  | [], s => (.ok (), s)
  | b :: bs, s =>
    match dgetR s.ballotShares b.objectId with
    | .error e => (.error e, s)
    | .ok shares =>
      let r := reconstructBallotLoop P b lagrange s.compBallot s.missing shares
      let s' := { s with ballotShares := dset s.ballotShares b.objectId r.2 }
      match r.1 with
      | .error e => (.error e, s')
      | .ok _ => reconstructBallotsLoop P lagrange bs s'

/-- decryption_mediator.py:224-256 `reconstruct_shares_for_ballots`. -/
def DM.reconstructBallots (P : Params) (s : DM) (bs : List SBallot) : R Unit × DM :=
  match lagrangeForGuardians P (s.available.map (·.2)) with
  | .error e => (.error e, s)
  | .ok lagrange => reconstructBallotsLoop P lagrange bs s

/-- decryption_mediator.py:346-350 `_ready_to_decrypt`. -/
def readyToDecrypt (ctx : Context) (shares : List (String × DecShare)) : Bool :=
  (shares.length : Int) == ctx.numberOfGuardians

/-- decryption_mediator.py:258-278 `get_plaintext_tally`. -/
def DM.plaintextTally (E : Env) (maxE : Nat) (s : DM) (ctx : Context) (t : Tally) (m : Manifest) :
    R (Option PlaintextTally) :=
  if !s.announcementComplete ctx || !readyToDecrypt ctx s.tallyShares then .ok none
  else decryptTally E maxE t s.tallyShares ctx.cryptoExtendedBaseHash m

/-- decryption_mediator.py:295-311: the loop of `get_plaintext_ballots`. -/
def plaintextBallotsLoop (E : Env) (maxE : Nat) (s : DM) (ctx : Context) (m : Manifest) :
    List SBallot → List (String × PlaintextTally) → R (List (String × PlaintextTally))
  | [], d => .ok d
  | b :: bs, d =>
    match dget s.ballotShares b.objectId with
    | none => plaintextBallotsLoop E maxE s ctx m bs d
    | some shares =>
      if shares.isEmpty || !readyToDecrypt ctx shares then plaintextBallotsLoop E maxE s ctx m bs d
      else do
        let p ← decryptBallotWithShares E maxE b shares ctx.cryptoExtendedBaseHash m
        match p with
        | none => plaintextBallotsLoop E maxE s ctx m bs d
        | some p => plaintextBallotsLoop E maxE s ctx m bs (dset d p.objectId p)

/-- decryption_mediator.py:280-311 `get_plaintext_ballots`. -/
def DM.plaintextBallots (E : Env) (maxE : Nat) (s : DM) (ctx : Context) (bs : List SBallot) (m : Manifest) :
    R (Option (List (String × PlaintextTally))) :=
  if !s.announcementComplete ctx then .ok none
  else (plaintextBallotsLoop E maxE s ctx m bs []).map some

/-- The calls that change the mediator. -/
inductive DMOp
  | announce (k : ElectionPublicKey) (tallyShare : DecShare)
      (ballotShares : Option (List (String × Option DecShare)))
  | announceMissing (k : ElectionPublicKey)
  | validateMissing (keys : List ElectionPublicKey)
  | receiveTallyComp (c : CompShare)
  | receiveBallotComp (cs : List (String × CompShare))
  | reconstructTally (t : Tally)
  | reconstructBallots (bs : List SBallot)

/-- The effect of one call. -/
def DM.step (P : Params) (s : DM) : DMOp → DM
  | .announce k t b => s.announce k t b
  | .announceMissing k => s.announceMissing k
  | .validateMissing ks => (s.validateMissing ks).2
  | .receiveTallyComp c => s.receiveTallyComp c
  | .receiveBallotComp cs => s.receiveBallotComp cs
  | .reconstructTally t => (s.reconstructTally P t).2
  | .reconstructBallots bs => (s.reconstructBallots P bs).2

/-- The state after a sequence of calls on a new mediator. -/
def DM.run (P : Params) (ops : List DMOp) : DM := ops.foldl (DM.step P) DM.init

end EG
