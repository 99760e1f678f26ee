import Verif.Model.Hash
import Verif.Spec.Group

/-!
# A small environment for the concrete instances next to theorems
-/

namespace EG

/-- The test group 157/13/16 with a toy hash and a toy MAC of 32 bytes. -/
def toyEnv : Env where
  P := extraSmall
  sha := fun s => s.foldl (fun h c => (h * 31 + c.toNat) % 10007) 7
  hmac := fun k m => ((k ++ m).foldl (fun h c => h * 31 + c) 7) :: List.replicate 31 5

end EG
