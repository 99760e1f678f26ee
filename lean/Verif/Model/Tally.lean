import Verif.Model.DataStore
import Verif.Model.Validator

/-!
# tally.py (the encrypted tally)

The manifest and context of a tally are parameters.  A mutating call returns its result together with the new
tally, so that a call that raises half-way can leave a changed tally behind.  `Scheduler.schedule`
runs the tasks in other processes, on copies, and returns the results in the order of the arguments; the modelled
tasks cannot raise, but the pool may be closed (`schedule`).
-/

namespace EG

/-- tally.py:40-71 `CiphertextTallySelection`. -/
structure TallySelection where
  objectId : String
  sequenceOrder : Int
  descriptionHash : Nat
  ciphertext : Ciphertext
  deriving DecidableEq, Repr

/-- tally.py:82-97 `CiphertextTallyContest`; `selections` is a dict. -/
structure TallyContest where
  objectId : String
  sequenceOrder : Int
  descriptionHash : Nat
  selections : List (String × TallySelection)
  deriving DecidableEq, Repr

/-- tally.py:189-211 `CiphertextTally`; the two sets are lists without repetitions, `contests` is a dict. -/
structure Tally where
  objectId : String
  castIds : List String
  spoiledIds : List String
  contests : List (String × TallyContest)
  deriving DecidableEq, Repr

/-- scheduler.py:59-95 `schedule` / `safe_starmap`: `up` says whether the pool is running; if it was closed,
`starmap` raises `ValueError`, which is logged and turned into an empty list of results. -/
def schedule {α β : Type} (up : Bool) (task : α → β) (arguments : List α) : List β :=
  if up then arguments.map task else []

/-- `s.add(x)`. -/
def setAdd (s : List String) (x : String) : List String := if x ∈ s then s else s ++ [x]

/-- elgamal.py:280-293 `elgamal_add` of two ciphertexts, which cannot raise. -/
def ctMul (P : Params) (a b : Ciphertext) : Ciphertext := ⟨multP P a.pad b.pad, multP P a.data b.data⟩

/-- tally.py:361-388 `_build_tally_collection`. -/
def buildTallyCollection (E : Env) (m : InternalManifest) : List (String × TallyContest) :=
  m.contests.foldl (fun d c =>
    let ss := c.ballotSelections.foldl (fun d s =>
      dset d s.objectId ⟨s.objectId, s.sequenceOrder, s.cryptoHash E, ⟨1, 1⟩⟩) []
    dset d c.objectId ⟨c.objectId, c.sequenceOrder, c.cryptoHash E, ss⟩) []

/-- tally.py:188-214: a new tally. -/
def newTally (E : Env) (objectId : String) (m : InternalManifest) : Tally :=
  ⟨objectId, [], [], buildTallyCollection E m⟩

/-- tally.py:149-168 `_accumulate_selections`, for the dict entry `(key, selection_tally)`. -/
def accumulateOne (P : Params) (ss : List CSelection) (entry : String × TallySelection) :
    String × Option Ciphertext :=
  match ss.find? (fun s => entry.1 == s.objectId) with
  | none => (entry.1, none)
  | some s => (entry.1, some (ctMul P entry.2.ciphertext s.ciphertext))

/-- tally.py:142-145: the results are written back; a missing result stops the loop. -/
def applyResults : List (String × Option Ciphertext) → List (String × TallySelection) →
    Bool × List (String × TallySelection)
  | [], sels => (true, sels)
  | (_, none) :: _, sels => (false, sels)
  | (key, some c) :: rest, sels =>
    applyResults rest (sels.map (fun e => if e.1 == key then (e.1, { e.2 with ciphertext := c }) else e))

/-- tally.py:99-147 `accumulate_contest`.  `any(set.difference(...))` is true if some missing id is a non-empty
string. -/
def accumulateContest (P : Params) (up : Bool) (tc : TallyContest) (ss : List CSelection) : Bool × TallyContest :=
  if ss.length = 0 then (false, tc)
  else
    let selectionIds := (ss.filter (fun s => !s.isPlaceholder)).map (·.objectId)
    let missing := (dkeys tc.selections).filter (fun k => !decide (k ∈ selectionIds))
    if missing.any (fun k => k != "") then (false, tc)
    else
      let r := applyResults (schedule up (accumulateOne P ss) tc.selections) tc.selections
      (r.1, { tc with selections := r.2 })

/-- tally.py:336-349: the loop of `_add_cast` over the contests of the ballot. -/
def addCastLoop (P : Params) (up : Bool) : List CContest → List (String × TallyContest) →
    Bool × List (String × TallyContest)
  | [], tcs => (true, tcs)
  | c :: cs, tcs =>
    match dget tcs c.objectId with
    | none => (false, tcs)
    | some tc =>
      let r := accumulateContest P up tc c.ballotSelections
      let tcs' := dset tcs c.objectId r.2
      if r.1 = false then (false, tcs') else addCastLoop P up cs tcs'

/-- tally.py:328-351 `_add_cast`. -/
def addCast (P : Params) (up : Bool) (t : Tally) (b : SBallot) : Bool × Tally :=
  let r := addCastLoop P up b.contests t.contests
  if r.1 then (true, { t with contests := r.2, castIds := setAdd t.castIds b.objectId })
  else (false, { t with contests := r.2 })

/-- tally.py:353-359 `_add_spoiled`. -/
def addSpoiled (t : Tally) (b : SBallot) : Tally := { t with spoiledIds := setAdd t.spoiledIds b.objectId }

/-- tally.py:216-226 `__contains__` for a ballot. -/
def Tally.contains (t : Tally) (b : SBallot) : Bool :=
  decide (b.objectId ∈ t.castIds ∨ b.objectId ∈ t.spoiledIds)

/-- tally.py:228-257 `append`. -/
def Tally.append (E : Env) (m : InternalManifest) (ctx : Context) (up : Bool) (t : Tally) (b : SBallot)
    (validate : Bool) : R Bool × Tally :=
  if b.state = .unknown then (.ok false, t)
  else if t.contains b then (.ok false, t)
  else match ballotIsValidForElection E b.toCBallot m ctx validate with
    | .error e => (.error e, t)
    | .ok false => (.ok false, t)
    | .ok true =>
      match b.state with
      | .cast => let r := addCast E.P up t b; (.ok r.1, r.2)
      | .spoiled => (.ok true, addSpoiled t b)
      | .unknown => (.ok false, t)

/-- The nested dict of `batch_append`: selection id, then ballot id, to ciphertext. -/
abbrev BatchDict := List (String × List (String × Ciphertext))

/-- tally.py:279-288: the selections of one cast ballot are collected. -/
def collectBallot (b : SBallot) (d : BatchDict) : BatchDict :=
  b.contests.foldl (fun d c => c.ballotSelections.foldl (fun d s =>
    dset d s.objectId (dset ((dget d s.objectId).getD []) b.objectId s.ciphertext)) d) d

/-- tally.py:268-291: the first loop of `batch_append`.  `self.__contains__(ballot)` is applied to the
(key, ballot) tuple and is therefore always false.  Returns the collected selections, the tally (with spoiled
ballots added) and the exception, if any. -/
def batchLoop (E : Env) (m : InternalManifest) (ctx : Context) (validate : Bool) :
    List SBallot → Tally → BatchDict → R BatchDict × Tally
  | [], t, d => (.ok d, t)
  | b :: bs, t, d =>
    match ballotIsValidForElection E b.toCBallot m ctx validate with
    | .error e => (.error e, t)
    | .ok false => batchLoop E m ctx validate bs t d
    | .ok true =>
      match b.state with
      | .cast => batchLoop E m ctx validate bs t (collectBallot b d)
      | .spoiled => batchLoop E m ctx validate bs (addSpoiled t b) d
      | .unknown => batchLoop E m ctx validate bs t d

/-- tally.py:319-326 `_accumulate`: `elgamal_add` of the collected ciphertexts, never empty. -/
def batchSum (P : Params) : List (String × Ciphertext) → Ciphertext
  | [] => ⟨1, 1⟩
  | c :: cs => cs.foldl (fun r x => ctMul P r x.2) c.2

/-- tally.py:390-421 `_execute_accumulate`. -/
def executeAccumulate (P : Params) (up : Bool) (d : BatchDict) (tcs : List (String × TallyContest)) :
    List (String × TallyContest) :=
  let results := schedule up (fun e : String × List (String × Ciphertext) => (e.1, batchSum P e.2)) d
  tcs.map (fun tc => (tc.1, { tc.2 with selections := tc.2.selections.map (fun e =>
    match dget results e.1 with
    | none => e
    | some c => (e.1, { e.2 with ciphertext := ctMul P e.2.ciphertext c })) }))

/-- tally.py:295-299: the ids of the cast ballots of the batch are recorded. -/
def recordCast : List SBallot → List String → List String
  | [], s => s
  | b :: bs, s => recordCast bs (if b.state = .cast then setAdd s b.objectId else s)

/-- tally.py:259-302 `batch_append`.  The argument is iterated twice: `bs` are the ballots of the first pass and
`again` those of the second, the same for a list or a store, none for a one-shot iterator. -/
def Tally.batchAppendIter (E : Env) (m : InternalManifest) (ctx : Context) (up : Bool) (t : Tally)
    (bs again : List SBallot) (validate : Bool) : R Bool × Tally :=
  match batchLoop E m ctx validate bs t [] with
  | (.error e, t') => (.error e, t')
  | (.ok d, t') =>
    (.ok true, { t' with
      contests := executeAccumulate E.P up d t'.contests
      castIds := recordCast again t'.castIds })

/-- tally.py:259-302 `batch_append` of a list or a store. -/
def Tally.batchAppend (E : Env) (m : InternalManifest) (ctx : Context) (up : Bool) (t : Tally)
    (bs : List SBallot) (validate : Bool) : R Bool × Tally := t.batchAppendIter E m ctx up bs bs validate

/-- tally.py:424-441 `tally_ballot`. -/
def tallyBallot (E : Env) (m : InternalManifest) (ctx : Context) (up : Bool) (t : Tally) (b : SBallot) : R Bool × Tally :=
  if b.state = .unknown then (.ok false, t) else t.append E m ctx up b true

/-- tally.py:444-459 `tally_ballots`. -/
def tallyBallots (E : Env) (m : InternalManifest) (ctx : Context) (up : Bool) (store : Store SBallot) :
    R (Option Tally) :=
  match (newTally E "election-results" m).batchAppend E m ctx up store.all true with
  | (.error e, _) => .error e
  | (.ok true, t) => .ok (some t)
  | (.ok false, _) => .ok none

end EG
