import Verif.Model.BallotBox
import Verif.Model.Tally
import Verif.Spec.Toy

/-!
# A small election for the concrete instances next to theorems

Two districts, `u` with contest `c` (one seat, selections `sx` and `sy`) and `w` with contest `d` (one seat,
selection `sz`); ballot style `s` votes in `u` only, `t` in both.
-/

namespace EG

/-- The manifest of the toy election. -/
def toyManifest : Manifest where
  electionScopeId := "e"
  specVersion := "1"
  type := "general"
  startDate := "a"
  endDate := "b"
  geopoliticalUnits := [⟨"u", "unit", "county", none⟩, ⟨"w", "unit", "county", none⟩]
  parties := []
  candidates := [⟨"x", ⟨[]⟩, none, none, none⟩, ⟨"y", ⟨[]⟩, none, none, none⟩, ⟨"z", ⟨[]⟩, none, none, none⟩]
  contests := [⟨"c", 1, "u", .one_of_m, 1, some 1, "first", [⟨"sx", 1, "x"⟩, ⟨"sy", 2, "y"⟩], none, none, none⟩,
    ⟨"d", 2, "w", .one_of_m, 1, some 1, "second", [⟨"sz", 1, "z"⟩], none, none, none⟩]
  ballotStyles := [⟨"s", some ["u"], none, none⟩, ⟨"t", some ["u", "w"], none, none⟩]
  name := none
  contactInformation := none

/-- Its internal manifest. -/
def toyIM : InternalManifest :=
  match mkInternalManifest toyEnv toyManifest with
  | .ok m => m
  | .error _ => ⟨[], [], [], 0⟩

/-- Its context: secret key 5. -/
def toyCtx : Context := makeContext toyEnv 1 1 (16 ^ 5 % 157) 4 toyIM.manifestHash

/-- The text of the contest data. -/
def toyJson : ContestData → Bytes := fun _ => [1]

/-- A ballot that does not belong to the election. -/
def toyNoBallot : CBallot := ⟨"none", "none", 0, 0, [], 0, 0, 0, none⟩

/-- The encryption of a ballot of style `style` with votes for `sx`, `sy` and `sz`. -/
def toyEncrypt (id style : String) (x y z : Int) (nonce : Nat) : CBallot :=
  match encryptBallot toyEnv toyJson ⟨id, style, [⟨"c", [⟨"sx", x, false, none⟩, ⟨"sy", y, false, none⟩]⟩,
    ⟨"d", [⟨"sz", z, false, none⟩]⟩]⟩ toyIM toyCtx 3 nonce 17 with
  | .ok (some b) => b
  | _ => toyNoBallot

/-- The same ballot, submitted. -/
def toySubmit (id style : String) (x y z : Int) (nonce : Nat) (state : BallotBoxState) : SBallot :=
  submitBallot toyEnv (toyEncrypt id style x y z nonce) state

end EG
