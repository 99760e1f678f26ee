import Verif.Model.KeyCeremonyMediator
import Verif.Spec.Toy
import Mathlib.Data.List.Dedup

/-!
# Vocabulary for the key ceremony
-/

namespace EG

/-- The JSON parser reads back what `json.dumps` writes for a coordinate. -/
def ReadsCoordinate (loads : Bytes → R (List Char)) : Prop := ∀ n, loads (coordinateJson n) = .ok (toHex n)

/-- A parser that accepts exactly the text `json.dumps` writes. -/
def strictLoads (b : Bytes) : R (List Char) :=
  let text := ((b.drop 16).take (b.length - 18)).map (fun x => Char.ofNat x.toNat)
  if b = asciiBytes ("{\"coordinate\": \"".toList ++ text ++ "\"}".toList) then .ok text else .error .value

/-- Whether a call is a `reset`. -/
def KCMOp.isReset : KCMOp → Bool
  | .reset _ => true
  | _ => false

/-- The calls after the last `reset`. -/
def sinceReset (ops : List KCMOp) : List KCMOp := (ops.reverse.takeWhile (fun o => !o.isReset)).reverse

/-- The ceremony details in force after the calls. -/
def detailsAfter (details : CeremonyDetails) : List KCMOp → CeremonyDetails
  | [] => details
  | .reset d :: ops => detailsAfter d ops
  | _ :: ops => detailsAfter details ops

/-- The keys announced since the last reset, in order. -/
def announced (ops : List KCMOp) : List ElectionPublicKey :=
  (sinceReset ops).filterMap (fun o => match o with | .announce k => some k | _ => none)

/-- The key a guardian announced last. -/
def announcedKey (ops : List KCMOp) (id : String) : Option ElectionPublicKey :=
  (announced ops).reverse.find? (fun k => k.ownerId == id)

/-- The keys of the guardians that announced since the last reset, each guardian once, in the order of their first
announcements, with the key announced last. -/
def participants (ops : List KCMOp) : List ElectionPublicKey :=
  ((announced ops).map (·.ownerId)).reverse.dedup.reverse.filterMap (announcedKey ops)

/-- The backups sent since the last reset. -/
def sentBackups (ops : List KCMOp) : List Backup :=
  (sinceReset ops).flatMap (fun o => match o with | .receiveBackups bs => bs | _ => [])

/-- The verifications sent since the last reset, by guardians or as the outcome of a successful challenge judged by
the mediator `me`. -/
def sentVerifications (P : Params) (me : String) (ops : List KCMOp) : List Verification :=
  (sinceReset ops).flatMap (fun o => match o with
    | .receiveVerifications vs => vs
    | .verifyChallenge c => match verifyChallenge P me c with
      | .ok v => if v.verified then [v] else []
      | .error _ => []
    | _ => [])

/-- A sequence of calls says nothing about the pair `(o, d)`: no reset, no verification for the pair and no
challenge for it. -/
def Silent (o d : String) (ops : List KCMOp) : Prop :=
  ∀ op ∈ ops, match op with
    | .reset _ => False
    | .receiveVerifications vs => ∀ v ∈ vs, (v.ownerId, v.designatedId) ≠ (o, d)
    | .verifyChallenge c => (c.ownerId, c.designatedId) ≠ (o, d)
    | _ => True

end EG
