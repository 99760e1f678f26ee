import Verif.Spec.Cli
import Verif.Spec.GuiText
import Verif.Model.CliText

/-!
# The texts of the files of the commands
-/

namespace EG

/-- The text of a file. -/
def CliFile.toText : CliFile → List Char
  | .encrypted b => toRaw CBallot.toJson b
  | .submitted b => toRaw SBallot.toJson b
  | .device d => toRaw Device.toJson d
  | .key r => toRaw PrivateGuardianRecord.toJson r

/-- The texts of the files of a directory. -/
def Dir.toText (d : Dir) : TextDir := List.map (fun e => (e.1, e.2.toText)) d

/-- The texts of the files of an encryption package. -/
def EncryptionPackage.toTexts (constants : Constants) (p : EncryptionPackage) : PackageTexts where
  context := toRaw ContextFile.toJson ⟨p.context, p.extendedData, true, 1000000⟩
  constants := toRaw Constants.toJson constants
  manifest := toRaw Manifest.toJson p.manifest
  guardians := p.guardians.map (fun e => ("guardian_" ++ e.1 ++ ".json", toRaw GuardianRecord.toJson e.2))

/-- Elements and dicts of what is in a file. -/
def CliFile.Typed (P : Params) : CliFile → Prop
  | .encrypted b => b.Typed P
  | .submitted b => b.toCBallot.Typed P
  | .device _ => True
  | .key r => r.Typed P

/-- Whatever the text of a file is read as, the reader gets what was written, or the error for a file of another type. -/
structure CliFile.ReadBack (P : Params) (f : CliFile) : Prop where
  encrypted : fromRaw (CBallot.ofJson P) f.toText = f.asEncrypted
  submitted : fromRaw (SBallot.ofJson P) f.toText = f.asSubmitted
  key : fromRaw (PrivateGuardianRecord.ofJson P) f.toText = f.asKey

/-- The texts of an encryption package are read back. -/
structure EncryptionPackage.ReadBack (P : Params) (constants : Constants) (p : EncryptionPackage) : Prop where
  context : fromRaw (ContextFile.ofJson P) (p.toTexts constants).context = .ok ⟨p.context, p.extendedData, true, 1000000⟩
  manifest : fromRaw Manifest.ofJson (p.toTexts constants).manifest = .ok p.manifest
  guardians : readAll (GuardianRecord.ofJson P) (p.toTexts constants).guardians
    = .ok (p.guardians.map (fun e => ("guardian_" ++ e.1 ++ ".json", e.2)))
  constants : fromRaw Constants.ofJson (p.toTexts constants).constants = .ok constants

/-- The ballots that have a file, going by the names of the files. -/
def ballotsNamed (files : TextDir) (ballots : List PlaintextBallot) : List PlaintextBallot :=
  ballots.filter (fun b => decide (b.objectId ++ ".json" ∈ files.map (fun e => e.1)))

/-- The random numbers of the guardians' polynomials are in range. -/
def PolynomialsInRange (P : Params) (rands : Nat → List (Nat × Nat)) : Prop := ∀ i, ∀ r ∈ rands i, r.1 < P.q

end EG
