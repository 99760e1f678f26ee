import Verif.Model.ElGamal

/-!
# Random numbers and random key pairs

`secrets.randbelow(q)` is modelled by a list of draws, each below `q`; a loop that has used all of them is still
running, which is `none`.
-/

namespace EG

/-- group.py:262-268 `rand_q`. -/
def randQ : List Nat → Option (Nat × List Nat)
  | [] => none
  | d :: ds => some (d, ds)

/-- group.py:279-280: the loop of `rand_range_q`; `random` is the variable of that name. -/
def randRangeLoop (start random : Nat) (draws : List Nat) : Option (Nat × List Nat) :=
  if random < start then
    match draws with
    | [] => none
    | d :: ds => randRangeLoop start d ds
  else some (random, draws)

/-- group.py:271-281 `rand_range_q`. -/
def randRange (start : Nat) (draws : List Nat) : Option (Nat × List Nat) := randRangeLoop start 0 draws

/-- elgamal.py:174-180 `elgamal_keypair_random`. -/
def keypairRandom (P : Params) (draws : List Nat) : Option (R KeyPair × List Nat) :=
  (randRange 2 draws).map (fun r => (getOptional (keypairFromSecret P r.1), r.2))

end EG
