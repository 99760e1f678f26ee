import Verif.Model.Instances
import Verif.Model.KeyCeremony

/-!
# logs.py and the messages of scheduler.py

The logger of the standard library writes a message to every handler whose level is not above the level of the
message (`Logger.callHandlers`); its own level is `DEBUG`.  Without any handler, messages from `WARNING` go to
`stderr` (`logging.lastResort`).  Left out: handlers of the root logger, the format of the lines, file rotation.
-/

namespace EG

/-- A handler, compared by identity: `id` is its number, `level` what `setLevel` got. -/
structure LogHandler where
  id : Nat
  level : Nat
  deriving DecidableEq, Repr

/-- logs.py:13-30 `ElectionGuardLog`: the handlers of the logger and the number in `__stream_handler`; `next` is the
number of the next handler that is made. -/
structure LogState where
  handlers : List LogHandler
  stream : Nat
  next : Nat
  deriving DecidableEq, Repr

/-- logs.py:21-30 `__init__`, on a logger without handlers: `INFO` is 20. -/
def LogState.initial : LogState := ⟨[⟨0, 20⟩], 0, 1⟩

/-- logs.py:59-63 `add_handler` with `Logger.addHandler`, which ignores a handler it has. -/
def LogState.add (s : LogState) (h : LogHandler) : LogState :=
  if s.handlers.any (fun x => x.id == h.id) then s else { s with handlers := s.handlers ++ [h] }

/-- logs.py:65-69 `remove_handler` with `Logger.removeHandler`, which ignores a handler it does not have. -/
def LogState.remove (s : LogState) (id : Nat) : LogState :=
  { s with handlers := s.handlers.filter (fun x => !(x.id == id)) }

/-- logs.py:108-116 `get_stream_handler` and 119-135 `get_file_handler`: a new handler. -/
def LogState.make (s : LogState) (level : Nat) : LogHandler × LogState :=
  (⟨s.next, level⟩, { s with next := s.next + 1 })

/-- logs.py:52-57 `set_stream_log_level`: `__stream_handler` keeps naming the first handler. -/
def LogState.setStreamLevel (s : LogState) (level : Nat) : LogState :=
  let (h, s) := (s.remove s.stream).make level
  s.add h

/-- eel_log_service.py:22-28 `EelLogService.__init__`: `DEBUG` is 10. -/
def LogState.eelLogService (s : LogState) : LogState :=
  let (h, s) := (s.setStreamLevel 10).make 10
  s.add h

/-- The calls that change the handlers: `set_stream_log_level`, adding a new handler, removing one, and constructing
`EelLogService`. -/
inductive LogOp
  | setStreamLevel (level : Nat)
  | addNew (level : Nat)
  | remove (id : Nat)
  | eel
  deriving DecidableEq, Repr

/-- logs.py:52-69, 141-152 and eel_log_service.py:22-28: one call. -/
def LogState.step (s : LogState) : LogOp → LogState
  | .setStreamLevel level => s.setStreamLevel level
  | .addNew level => (s.make level).2.add (s.make level).1
  | .remove id => s.remove id
  | .eel => s.eelLogService

/-- A sequence of calls. -/
def LogState.run (s : LogState) (ops : List LogOp) : LogState := ops.foldl LogState.step s

/-- logs.py:77-105: the handlers that write a message of this level. -/
def LogState.emit (s : LogState) (level : Nat) : List LogHandler :=
  if level < 10 then [] else s.handlers.filter (fun h => decide (h.level ≤ level))

/-- `logging.lastResort`: whether a message goes to `stderr`. -/
def LogState.stderr (s : LogState) (level : Nat) : Bool :=
  decide (10 ≤ level) && s.handlers.isEmpty && decide (30 ≤ level)

/-! ### Texts -/

/-- Python `", ".join(items)`. -/
def commaJoin : List (List Char) → List Char
  | [] => []
  | [x] => x
  | x :: xs => x ++ ", ".toList ++ commaJoin xs

/-- `repr` of a list. -/
def reprList (items : List (List Char)) : List Char := "[".toList ++ commaJoin items ++ "]".toList

/-- `repr` of a tuple with at least two members. -/
def reprTuple (items : List (List Char)) : List Char := "(".toList ++ commaJoin items ++ ")".toList

/-- `repr` of an element: it is a `str` of hexadecimal digits (big_integer.py:46-54), which needs no escapes. -/
def reprElem (n : Nat) : List Char := "'".toList ++ toHex n ++ "'".toList

/-- elgamal.py:30-35: the `repr` that `dataclass` gives `ElGamalKeyPair`. -/
def reprKeyPair (k : KeyPair) : List Char :=
  "ElGamalKeyPair(secret_key=".toList ++ reprElem k.secret ++ ", public_key=".toList ++ reprElem k.pub ++ ")".toList

/-- key_ceremony.py:60-82: the `repr` that `dataclass` gives `ElectionKeyPair`.  `other` writes ids, numbers and
the polynomial. -/
def reprElectionKeyPair (other : String ⊕ Int ⊕ Polynomial' → List Char) (k : ElectionKeyPair) : List Char :=
  "ElectionKeyPair(owner_id=".toList ++ other (.inl k.ownerId) ++ ", sequence_order=".toList ++
    other (.inr (.inl k.sequenceOrder)) ++ ", key_pair=".toList ++ reprKeyPair k.keyPair ++ ", polynomial=".toList ++
    other (.inr (.inr k.polynomial)) ++ ")".toList

/-- scheduler.py:84-95: the text of the warning, from the texts of the task, its arguments and the error. -/
def starmapText (task args err : List Char) : List Char :=
  "safe_starmap(".toList ++ task ++ ", ".toList ++ args ++ ") ".toList ++ err

/-- scheduler.py:59-95 `schedule` on object `r`: the messages, all at level `WARNING` (30).  `closed` and `failed`
are the texts about the exception; an exception that `schedule` itself raises is not logged. -/
def Proc.scheduleLog {α β : Type} (s : Proc) (r : Nat) (task : α → R β) (taskText : List Char) (repr : α → List Char)
    (closed : List Char) (failed : Err → List Char) (arguments : List α) : List (Nat × List Char) :=
  match s.objs[r]? with
  | none => []
  | some o =>
    match o.cls, o.pools with
    | .scheduler, some k =>
      match s.pools[k]? with
      | none => []
      | some p =>
        if p.running then
          match arguments.mapM task with
          | .ok _ => []
          | .error e => [(30, starmapText taskText (reprList (arguments.map repr)) (failed e))]
        else [(30, starmapText taskText (reprList (arguments.map repr)) closed)]
    | _, _ => []

/-- decryption.py:250-254: the arguments for the share of a contest, one tuple for each selection. -/
def reprShareArgs {σ : Type} (other : String ⊕ Int ⊕ Polynomial' → List Char) (selection : σ → List Char)
    (context : List Char) (k : ElectionKeyPair) (x : σ) : List Char :=
  reprTuple [reprElectionKeyPair other k, selection x, context]

/-- decryption.py:291-304: the arguments for the compensated share of a contest. -/
def reprCompensatedArgs {σ : Type} (present missing : List Char) (selection : σ → List Char) (context : List Char)
    (coordinate : Nat) (x : σ) : List Char :=
  reprTuple [reprElem coordinate, present, missing, selection x, context]

end EG
