import Verif.Model.DecryptionMediator
import Verif.Spec.ToyElection
import Verif.Spec.Polynomial

/-!
# A small decryption for the concrete instances next to theorems

Three guardians `a`, `b` and `c` with quorum two: secret polynomials `5 + 2x`, `6 + 3x` and `4 + 7x` over the exponents
modulo 13.
-/

namespace EG

/-- The coefficients of the polynomial of a guardian. -/
def toyPoly (i : String) : List Nat :=
  if i = "a" then [5, 2] else if i = "b" then [6, 3] else if i = "c" then [4, 7] else []

/-- The key pair of a guardian. -/
def toyPair (i : String) (order : Int) : ElectionKeyPair :=
  ⟨i, order, ⟨(toyPoly i).headD 0, 16 ^ (toyPoly i).headD 0 % 157⟩,
    (toyPoly i).map (fun a => ⟨a, 16 ^ a % 157, ⟨0, 0, 0, 0⟩⟩)⟩

/-- The key pairs of the guardians. -/
def toyPairs : List ElectionKeyPair := [toyPair "a" 1, toyPair "b" 2, toyPair "c" 3]

/-- The joint key. -/
def toyKey : Nat := combinePublicKeys extraSmall (toyPairs.map (fun kp => kp.keyPair.pub))

/-- The context: three guardians, quorum two. -/
def toyDCtx : Context := makeContext toyEnv 3 2 toyKey 4 toyIM.manifestHash

/-- An encryption under the joint key. -/
def toyEnc (v r : Nat) : Ciphertext := (elgamalEncrypt extraSmall v r toyKey).getD ⟨0, 0⟩

/-- A tally with 2 votes for `sx`, 1 for `sy` and 3 for the selection `z` of contest `d`. -/
def toyDTally (z : String) : Tally := ⟨"t", [], [],
  [("c", ⟨"c", 1, 0, [("sx", ⟨"sx", 1, 0, toyEnc 2 3⟩), ("sy", ⟨"sy", 2, 0, toyEnc 1 4⟩)]⟩),
   ("d", ⟨"d", 2, 0, [(z, ⟨z, 1, 0, toyEnc 3 5⟩)]⟩)]⟩

/-- The share of a guardian. -/
def toyShare (t : Tally) (kp : ElectionKeyPair) : DecShare :=
  (computeTallyShare toyEnv true kp t toyDCtx (fun i j => i + 3 * j + 1)).getD ⟨"", "", 0, []⟩

/-- The compensated share of `av` for `ms`. -/
def toyComp (t : Tally) (av ms : ElectionKeyPair) : CompShare :=
  (computeCompTallyShare toyEnv true (polyAt (toyPoly ms.ownerId) av.sequenceOrder.toNat % 13) av.share ms.share t
    toyDCtx (fun i j => i + 3 * j + 1)).getD ⟨"", "", "", 0, []⟩

/-- The numbers in a plaintext tally. -/
def PlaintextTally.numbers (pt : PlaintextTally) : List (String × List (String × Nat)) :=
  pt.contests.map (fun e => (e.1, e.2.selections.map (fun x => (x.1, x.2.tally))))

/-- The numbers in the result of a decryption. -/
def resultNumbers (r : R (Option PlaintextTally)) : Option (List (String × List (String × Nat))) :=
  match r with
  | .ok (some pt) => some pt.numbers
  | _ => none

/-- A manifest that uses the selection id `sx` in both contests. -/
def sharedIdManifest : Manifest := { toyManifest with
  contests := [⟨"c", 1, "u", .one_of_m, 1, some 1, "first", [⟨"sx", 1, "x"⟩, ⟨"sy", 2, "y"⟩], none, none, none⟩,
    ⟨"d", 2, "w", .one_of_m, 1, some 1, "second", [⟨"sx", 1, "z"⟩], none, none, none⟩] }

end EG

namespace EG

/-- The calls for available guardians `av`, missing guardians `ms` and compensated shares of the given pairs. -/
def toyCalls (av ms : List ElectionKeyPair) (pairs : List (ElectionKeyPair × ElectionKeyPair)) : List DMOp :=
  av.map (fun kp => .announce kp.share (toyShare (toyDTally "sz") kp) none) ++
  ms.map (fun kp => .announceMissing kp.share) ++
  pairs.map (fun e => .receiveTallyComp (toyComp (toyDTally "sz") e.1 e.2))

/-- The numbers decrypted after some calls and the reconstruction. -/
def toyDecrypt (ops : List DMOp) : Option (List (String × List (String × Nat))) :=
  resultNumbers ((DM.run extraSmall (ops ++ [.reconstructTally (toyDTally "sz")])).plaintextTally toyEnv 12 toyDCtx
    (toyDTally "sz") toyManifest)

end EG
