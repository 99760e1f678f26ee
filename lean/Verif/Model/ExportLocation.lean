import Verif.Model.Basic

/-!
# electionguard_gui: the places that are offered for an export, and the archive that is written

Paths are POSIX paths; on Windows more places are offered (export_service.py:7-9), which is left out.
-/

namespace EG

/-- Python `os.path.join(a, b)`. -/
def osPathJoin (a b : List Char) : List Char :=
  match b with
  | '/' :: _ => b
  | _ => match a.getLast? with
    | none => b
    | some '/' => a ++ b
    | some _ => a ++ '/' :: b

/-- directory_service.py:22-26 `_get_egui_mnt_dir`; `inDocker` is `os.path.exists(DOCKER_MOUNT_DIR)`. -/
def eguiMntDir (inDocker : Bool) (cwd : List Char) : List Char :=
  if inDocker then "/egui_mnt".toList else osPathJoin cwd "egui_mnt".toList

/-- directory_service.py:7-19 `get_export_dir`; the directory is made if it is not there. -/
def exportDir (inDocker : Bool) (cwd : List Char) : List Char := osPathJoin (eguiMntDir inDocker cwd) "export".toList

/-- export_service.py:5-10 `get_export_locations`. -/
def exportLocations (inDocker : Bool) (cwd : List Char) : List (List Char) := [exportDir inDocker cwd]

/-- export_election_record_component.py:42-49 `get_election_record_export_locations`. -/
def recordLocations (inDocker : Bool) (cwd : List Char) : List (List Char) :=
  (exportLocations inDocker cwd).map (fun l => osPathJoin l "publish-election.zip".toList)

/-- export_encryption_package_component.py:23-29 `get_encryption_package_export_locations`. -/
def packageLocations (inDocker : Bool) (cwd : List Char) : List (List Char) :=
  (exportLocations inDocker cwd).map (fun l => osPathJoin l "artifacts".toList)

/-- Python `os.path.splitext(p)[0]`: everything before the last dot of the file name, unless only dots come before it.  The two calls of `rfind` are splits of the
reversed text. -/
def splitextRoot (p : List Char) : List Char :=
  match (p.reverse.takeWhile (· != '/')).dropWhile (· != '.') with
  | [] => p
  | _ :: stem => if stem.any (· != '.') then (stem ++ p.reverse.dropWhile (· != '/')).reverse else p

/-- export_election_record_component.py:84-85: where `make_archive` writes the zip file. -/
def exportArchive (location : List Char) : List Char := splitextRoot location ++ ".zip".toList

end EG
