import Verif.Model.ObjectBase

/-!
# electionguard_gui: how a page learns of changes (`DbWatcherService`)

Every change of a key ceremony or a decryption is followed by a document in the capped collection `db_deltas`
(`notify_changed`).  A page that wants to learn of changes has `watch_database` run in the background: it opens a tailable cursor,
skips the deltas that are there, sets an event and then reports one delta after the other until the event is cleared.  There is one
event for the whole process (a class attribute), however many pages watch.

The model has the deltas in the order of insertion (the first one, written by `mongo-init.js`, has no collection and no id: `none`)
and the watches of one process; what happens next is any interleaving of their turns with insertions by anybody, with pages that open
and pages that ask to stop.  A tailable cursor over an empty collection is dead from the start; the database may also kill a cursor
(a capped collection overwrites its oldest documents).  Left out: time (the blocking of 200 ms and the sleep of 0.8 s only decide who
goes next) and what the callback does.
-/

namespace EG

/-- A document of `db_deltas`: collection and id (db_watcher_service.py:30-33); `none` is the one of `mongo-init.js`. -/
abbrev Delta := Option (String × String)

/-- Where a watch is: skipping old deltas, in the loop, or over. -/
inductive WatchPhase where
  | skipping
  | looping
  | over
  deriving DecidableEq, Repr

/-- One run of `watch_database` (db_watcher_service.py:35-68): the id to watch for (`none` for all), the number of deltas that the
cursor has passed, and whether the cursor is alive. -/
structure Watch where
  target : Option String
  pos : Nat
  alive : Bool
  phase : WatchPhase
  deriving DecidableEq, Repr

/-- The deltas, the event `watching_database` (27), the watches by a number, and what was reported by which watch, in order. -/
structure WatchState where
  deltas : List Delta
  flag : Bool
  watches : List (Nat × Watch)
  reports : List (Nat × String × String)
  deriving DecidableEq, Repr

/-- What happens next. -/
inductive WatchEvent where
  | insert (collection id : String)
  | «open» (w : Nat) (target : Option String)
  | turn (w : Nat)
  | stop
  | kill (w : Nat)
  deriving DecidableEq, Repr

/-- db_watcher_service.py:61: `id_to_watch is None or id_to_watch == changed_id`. -/
def Watch.wants (w : Watch) (changedId : String) : Bool :=
  match w.target with
  | none => true
  | some t => t == changedId

/-- The next request of one watch.
* 46-47: `for _ in cursor: pass` passes a delta, or ends when there is none (or the cursor is dead);
* 49-53: then the event is cleared if it is set, and set;
* 54-63: a round of the loop: it ends if the event is not set or the cursor is dead; otherwise it takes the next delta and reports it
  if its id is wanted; a delta without the fields raises `KeyError`, which ends the watch, and the component clears the event
  (guardian_home_component.py:61-63);
* 65-69: without a next delta it sleeps. -/
def WatchState.turn (s : WatchState) (i : Nat) (w : Watch) : WatchState :=
  match w.phase with
  | .over => s
  | .skipping =>
    if w.alive && decide (w.pos < s.deltas.length) then { s with watches := dset s.watches i { w with pos := w.pos + 1 } }
    else
      let cleared := if s.flag then { s with flag := false } else s
      { cleared with flag := true, watches := dset cleared.watches i { w with phase := .looping } }
  | .looping =>
    if s.flag && w.alive then
      match s.deltas[w.pos]? with
      | none => s
      | some none => { s with flag := false, watches := dset s.watches i { w with pos := w.pos + 1, phase := .over } }
      | some (some (collection, id)) =>
        { s with
          watches := dset s.watches i { w with pos := w.pos + 1 }
          reports := if w.wants id then s.reports ++ [(i, collection, id)] else s.reports }
    else { s with watches := dset s.watches i { w with phase := .over } }

/-- One event.  `stop_watching` (71-72) clears the event. -/
def WatchState.step (s : WatchState) : WatchEvent → WatchState
  | .insert collection id => { s with deltas := s.deltas ++ [some (collection, id)] }
  | .open i target => match dget s.watches i with
    | some _ => s
    | none => { s with watches := dset s.watches i ⟨target, 0, decide (s.deltas ≠ []), .skipping⟩ }
  | .turn i => match dget s.watches i with
    | none => s
    | some w => s.turn i w
  | .stop => { s with flag := false }
  | .kill i => match dget s.watches i with
    | none => s
    | some w => { s with watches := dset s.watches i { w with alive := false } }

/-- All events. -/
def WatchState.steps (s : WatchState) (es : List WatchEvent) : WatchState := es.foldl WatchState.step s

/-- mongo-init.js:6-7: the collection with its first document; the event is not set. -/
def WatchState.init : WatchState := ⟨[none], false, [], []⟩

end EG
