import Verif.Model.GuiBallots

/-!
# electionguard_gui: the upload wizard (`scan_drives`, `parse_drive`, `upload_ballots`)

A drive is what is under its two directories, in the order in which `os.listdir` gives the files.  A file that cannot be opened or
decoded is a file whose contents cannot be parsed: both end the call in the same way.  The readers of the device file are parameters:
`location` is `from_file(EncryptionDevice, …).location` (`none` when it raises), `fields` says whether the text is a JSON object with
the fields that `append_ballot_upload` reads.
-/

namespace EG

/-- upload_ballots_component.py:138-139: the directories `artifacts/encrypted_ballots` and `artifacts/devices`, if they exist. -/
structure Drive where
  ballots : Option (List (String × List Char))
  devices : Option (List (String × List Char))
  deriving DecidableEq, Repr

/-- export_service.py:14: the letters that are tried. -/
def driveLetters : List Char := "DEFGHIJKLMNOPQRSTUVWXYZ".toList

/-- export_service.py:13-16 `get_removable_drives`; `plugged` says what is under a letter, if anything. -/
def removableDrives (plugged : Char → Option Drive) : List (Char × Drive) :=
  driveLetters.filterMap (fun c => (plugged c).map (fun d => (c, d)))

/-- upload_ballots_component.py:150-157: what `parse_drive` returns; the paths stand for what is read from them later. -/
structure DriveInfo where
  drive : Char
  ballots : Nat
  location : String
  deviceFileName : String
  deviceFile : List Char
  ballotFiles : List (String × List Char)
  deriving DecidableEq, Repr

/-- upload_ballots_component.py:137-157 `parse_drive`; `next` of an empty iterator raises. -/
def parseDrive (location : List Char → Option String) (drive : Char) (ballots devices : List (String × List Char)) : R DriveInfo :=
  match devices with
  | [] => .error .value
  | (name, text) :: _ => match location text with
    | none => .error .value
    | some l => .ok ⟨drive, ballots.length, l, name, text, ballots⟩

/-- upload_ballots_component.py:125-130: the drives that have both directories. -/
def candidateDrives (plugged : Char → Option Drive) : List (Char × List (String × List Char) × List (String × List Char)) :=
  (removableDrives plugged).filterMap (fun e => match e.2.ballots, e.2.devices with
    | some b, some d => some (e.1, b, d)
    | _, _ => none)

/-- upload_ballots_component.py:121-135 `scan_drives`: all candidates are parsed, the first is returned. -/
def scanDrives (location : List Char → Option String) (plugged : Char → Option Drive) : R (Option DriveInfo) := do
  let infos ← (candidateDrives plugged).mapM (fun e => parseDrive location e.1 e.2.1 e.2.2)
  return infos.head?

/-- upload_ballots_component.py:159-199 `upload_ballots`: the drives are scanned again.  After a failed scan `["result"]` raises, after a
scan without a drive the subscript of `None` does; both are answered with a failure. -/
def GuiDb.uploadWizard (parse : List Char → Option SBallot) (location : List Char → Option String) (fields : List Char → Bool)
    (plugged : Char → Option Drive) (db : GuiDb) (electionId newId : String) : Option (Nat × Nat) × GuiDb :=
  match scanDrives location plugged with
  | .error _ => (none, db)
  | .ok none => (none, db)
  | .ok (some info) => db.uploadBallots parse electionId newId (fields info.deviceFile) info.ballotFiles

end EG
