import Verif.Spec.AuditQuorum

/-!
# Which ballots of a sample are cast and which are spoiled
-/

namespace EG

/-- The ballots to be cast: those for which the number drawn, from 0 to 100, is not below the rate. -/
def sampleCast {α : Type} (rate : Int) (drawn : Nat → Nat) (bs : List α) : List α :=
  (bs.zipIdx.filter (fun e => decide (rate ≤ ((drawn e.2 % 101 : Nat) : Int)))).map Prod.fst

/-- The ballots to be spoiled: the others. -/
def sampleSpoiled {α : Type} (rate : Int) (drawn : Nat → Nat) (bs : List α) : List α :=
  (bs.zipIdx.filter (fun e => decide (((drawn e.2 % 101 : Nat) : Int) < rate))).map Prod.fst

end EG
