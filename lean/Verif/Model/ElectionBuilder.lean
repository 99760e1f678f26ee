import Verif.Model.Encrypt
import Verif.Model.DataStore

/-!
# electionguard_tools/helpers/election_builder.py

The setters change the builder and return it; here they return the changed builder.  The extended data of the context is not
part of `Context` and is returned beside it.
-/

namespace EG

/-- election_builder.py:17-41 `ElectionBuilder`. -/
structure ElectionBuilder where
  numberOfGuardians : Int
  quorum : Int
  manifest : Manifest
  internalManifest : InternalManifest
  electionKey : Option Nat := none
  commitmentHash : Option Nat := none
  extendedData : Option (List (String × String)) := none

/-- election_builder.py:43-44 `__post_init__`: the constructor makes the internal manifest, and raises if that raises. -/
def ElectionBuilder.new (E : Env) (n k : Int) (m : Manifest) : R ElectionBuilder := do
  let im ← mkInternalManifest E m
  return { numberOfGuardians := n, quorum := k, manifest := m, internalManifest := im }

/-- election_builder.py:46-55 `set_public_key`. -/
def ElectionBuilder.setPublicKey (b : ElectionBuilder) (key : Nat) : ElectionBuilder := { b with electionKey := some key }

/-- election_builder.py:57-64 `set_commitment_hash`. -/
def ElectionBuilder.setCommitmentHash (b : ElectionBuilder) (h : Nat) : ElectionBuilder :=
  { b with commitmentHash := some h }

/-- election_builder.py:66-75 `add_extended_data_field`. -/
def ElectionBuilder.addExtendedDataField (b : ElectionBuilder) (name value : String) : ElectionBuilder :=
  { b with extendedData := some (dset (b.extendedData.getD []) name value) }

/-- election_builder.py:77-100 `build`. -/
def ElectionBuilder.build (E : Env) (b : ElectionBuilder) :
    R (Option (InternalManifest × Context × Option (List (String × String)))) :=
  if !b.manifest.isValid then .ok none
  else match b.electionKey with
    | none => .ok none
    | some key => do
      let h ← getOptional b.commitmentHash
      return some (b.internalManifest, makeContext E b.numberOfGuardians b.quorum key h (b.manifest.cryptoHash E),
        b.extendedData)

/-- The calls that change a builder. -/
inductive BuilderOp
  | setPublicKey (key : Nat)
  | setCommitmentHash (h : Nat)
  | addExtendedDataField (name value : String)

/-- One call. -/
def ElectionBuilder.step (b : ElectionBuilder) : BuilderOp → ElectionBuilder
  | .setPublicKey key => b.setPublicKey key
  | .setCommitmentHash h => b.setCommitmentHash h
  | .addExtendedDataField n v => b.addExtendedDataField n v

end EG
