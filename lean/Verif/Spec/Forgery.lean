import Verif.Spec.RandomOracle
import Verif.Spec.ElGamal

/-!
# Somebody who asks for hashes and then shows proofs

A forger is any program that asks for the hashes of texts, one after the other, each text chosen with the answers so far in hand, and at
last shows something.  The hash function is a random function as in `Spec/RandomOracle.lean`.
-/

namespace EG

open Finset

/-- A program that asks for hashes and then shows an `α`. -/
inductive Asking (α : Type)
  | shows (a : α)
  | asks (t : Text) (next : Nat → Asking α)

/-- What it shows when the hash function is `s`. -/
def Asking.run {α : Type} (s : Text → Nat) : Asking α → α
  | .shows a => a
  | .asks t next => (next (s t)).run s

/-- It asks at most `n` times, whatever the answers. -/
def Asking.AtMost {α : Type} : Nat → Asking α → Prop
  | _, .shows _ => True
  | 0, .asks _ _ => False
  | n + 1, .asks _ next => ∀ v, (next v).AtMost n

/-- Everything it can show. -/
def Asking.CanShow {α : Type} (a : α) : Asking α → Prop
  | .shows b => a = b
  | .asks _ next => ∃ v, (next v).CanShow a

/-- Everybody who checks the proofs of these contests accepts them; with each contest the number of votes to give. -/
def AcceptedContests (E : Env) (K base : Nat) (limits : List Nat) (pubs : List PublishedContest) : Prop :=
  pubs.length = limits.length ∧ ∀ x ∈ pubs.zip limits,
    (∀ i ∈ x.1.items, i.2.isValid E i.1 K base = true) ∧
      x.1.limitProof.isValid E (ctProduct E.P (x.1.items.map Prod.fst)) K base = true ∧ x.1.limitProof.constant = x.2

/-- The contests hold votes 0 and 1 only, and as many as there are to give. -/
def HonestContests (P : Params) (K : Nat) (limits : List Nat) (pubs : List PublishedContest) : Prop :=
  ∀ x ∈ pubs.zip limits, (∀ i ∈ x.1.items, Encrypts P K 0 i.1 ∨ Encrypts P K 1 i.1) ∧
    Encrypts P K x.2 (ctProduct P (x.1.items.map Prod.fst))

/-- The text whose hash is the challenge of the proof of a share. -/
def shareText (base : Nat) (c : Ciphertext) (share : Nat) (pf : CPProof) : Text :=
  elemText [base, c.pad, c.data, pf.a, pf.b, share]

/-- All texts of this form. -/
def shareTexts (P : Params) (base : Nat) : Finset Text :=
  (range P.p ×ˢ range P.p ×ˢ range P.p ×ˢ range P.p ×ˢ range P.p).image
    (fun x => elemText [base, x.1, x.2.1, x.2.2.1, x.2.2.2.1, x.2.2.2.2])

/-- A share of a guardian that somebody shows: the secret of the guardian it is said to be of, the ciphertext, the share, the proof. -/
structure ShownShare where
  secret : Nat
  ciphertext : Ciphertext
  share : Nat
  proof : CPProof

end EG
