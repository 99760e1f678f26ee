import Verif.Spec.Orchestrator
import Verif.Spec.DecryptionBallots

/-!
# Vocabulary for the tally ceremony
-/

namespace EG

/-- The coefficients of the guardians' polynomials. -/
def coefOf (rands : String → List (Nat × Nat)) (i : String) : List Nat := (rands i).map Prod.fst

/-- Guardians that take part in the tally ceremony, with their key pairs: each of them came out of the key
ceremony of `kps`, and nobody takes part twice. -/
structure Present (E : Env) (loads : Bytes → R (List Char)) (rands : String → List (Nat × Nat))
    (kps : List ElectionKeyPair) (avs : List (Guardian × ElectionKeyPair)) : Prop where
  equipped : ∀ x ∈ avs, x.2 ∈ kps ∧ x.1.Equipped E loads rands kps x.2
  once : (avs.map (fun x => x.2.ownerId)).Nodup

end EG
