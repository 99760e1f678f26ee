import Verif.Props.Decryption
import Verif.Props.ZeroKnowledge
import Mathlib.FieldTheory.Finite.Basic

/-!
# C101: a guardian's share shows nothing beyond the result
-/

namespace EG

variable {E : Env}

/-- The share of one guardian, computed from the ciphertext, the published number and the shares of the others. -/
def knownShare (P : Params) (c : Ciphertext) (number : Nat) (others : List Nat) : Nat :=
  c.data * (P.g ^ number * others.prod) ^ (P.p - 2) % P.p

/-- C101: whatever shares the others gave and whatever number comes out, the share of a guardian is what everybody computes
from the number and the shares of the others. -/
theorem C101_known (hv : E.P.Valid) (maxE baseHash : Nat) (s : CtSelection) (suppress : Bool)
    (before after : List (String × (Nat × DecSelection))) (e : String × (Nat × DecSelection)) (pt : PTSelection)
    (he : e.2.2.share < E.P.p)
    (h : decryptSelectionWithShares E maxE s (before ++ e :: after) baseHash suppress = .ok (some pt)) :
    e.2.2.share = knownShare E.P s.ciphertext pt.tally ((before ++ after).map (fun e => e.2.2.share)) := by
  have hp : Fact E.P.p.Prime := ⟨hv.p_prime⟩
  unfold decryptSelectionWithShares at h
  split at h
  · cases h
  · simp only [divP, bind, Except.bind, pure, Except.pure] at h
    cases hi : invert (multPs E.P ((before ++ e :: after).map (fun e => e.2.2.share))) E.P.p with
    | error x => rw [hi] at h; cases h
    | ok inv =>
      rw [hi] at h
      simp only at h
      cases hd : dlog E.P maxE (multP E.P s.ciphertext.data inv) with
      | error x => rw [hd] at h; cases h
      | ok t =>
        rw [hd] at h
        simp only [Except.ok.injEq, Option.some.injEq] at h
        subst h
        have hg := (dlog_ok_iff hv.one_lt_p hd).2
        obtain ⟨hne, hinv⟩ := invert_cast hv.p_prime hi
        have hg' : (E.P.g : ZMod E.P.p) ^ t = s.ciphertext.data
            * ((multPs E.P ((before ++ e :: after).map (fun e => e.2.2.share)) : Nat) : ZMod E.P.p)⁻¹ := by
          rw [← hinv, ← multP_cast, ← hg, gPowP_cast]
        have hprod : ((multPs E.P ((before ++ e :: after).map (fun e => e.2.2.share)) : Nat) : ZMod E.P.p)
            = e.2.2.share * ((((before ++ after).map (fun e => e.2.2.share)).prod : Nat) : ZMod E.P.p) := by
          rw [multPs_cast, Nat.cast_list_prod]
          simp only [List.map_append, List.map_cons, List.prod_append, List.prod_cons]
          ring
        generalize hO : ((((before ++ after).map (fun e => e.2.2.share)).prod : Nat) : ZMod E.P.p) = O at hprod
        rw [hprod] at hne hg'
        have hs0 := left_ne_zero_of_mul hne
        have hO0 := right_ne_zero_of_mul hne
        have hgt : (E.P.g : ZMod E.P.p) ^ t ≠ 0 := by
          rw [← gPowP_cast]
          exact fun h0 => by
            have := (isValidResidue_iff hv _).1 (gPowP_residue hv t)
            rw [h0, zero_pow hv.q_pos.ne'] at this
            exact zero_ne_one this.2
        unfold knownShare
        rw [← castP_inj he (Nat.mod_lt _ hv.p_pos), ZMod.natCast_mod, Nat.cast_mul, Nat.cast_pow, Nat.cast_mul, hO,
          Nat.cast_pow]
        have hA : (E.P.g : ZMod E.P.p) ^ t * O ≠ 0 := mul_ne_zero hgt hO0
        have hf : ((E.P.g : ZMod E.P.p) ^ t * O) ^ (E.P.p - 2) = ((E.P.g : ZMod E.P.p) ^ t * O)⁻¹ := by
          have h1 := ZMod.pow_card_sub_one_eq_one hA
          have h2 : E.P.p - 1 = (E.P.p - 2) + 1 := by have := hv.p_prime.two_le; omega
          rw [h2, pow_succ] at h1
          exact eq_inv_of_mul_eq_one_left h1
        rw [hf, eq_mul_inv_iff_mul_eq₀ hA, hg']
        field_simp

/-- C101: with the proof too: whatever an observer of share and proof of an honest guardian tests, it is passed for as many
random numbers of the guardian as when share and proof are made, without the guardian's secret, from the public key, the
published number and the shares of the others. -/
theorem C101_simulated (hv : E.P.Valid) (maxE baseHash secret : Nat) (s : CtSelection) (suppress : Bool)
    (before after : List (String × (Nat × DecSelection))) (e : String × (Nat × DecSelection)) (pt : PTSelection)
    (hα : isValidResidue E.P s.ciphertext.pad = true)
    (he : e.2.2.share = s.ciphertext.partialDecrypt E.P secret)
    (h : decryptSelectionWithShares E maxE s (before ++ e :: after) baseHash suppress = .ok (some pt))
    (ch : Nat) (hch : ch < E.P.q) (test : Nat × CPProof → Bool) :
    outcomes E.P.q (fun n => (s.ciphertext.partialDecrypt E.P secret, proveShare E.P s.ciphertext secret n ch)) test =
      outcomes E.P.q (fun v =>
        let share := knownShare E.P s.ciphertext pt.tally ((before ++ after).map (fun e => e.2.2.share))
        (share, simulateShare E.P s.ciphertext (E.P.g ^ secret % E.P.p) share v ch)) test := by
  have hk := C101_known hv maxE baseHash s suppress before after e pt
    (by rw [he]; exact powP_lt hv.p_pos _ _) h
  simp only
  rw [← hk, he]
  exact C82_share_reveals_nothing hv secret s.ciphertext hα ch hch
    (fun pf => test (s.ciphertext.partialDecrypt E.P secret, pf))

/-- The vote 1 under the joint key of the secrets 3 and 5, nonce 4. -/
def toySharedVote : CtSelection := ⟨"s", ⟨16 ^ 4 % 157, 16 ^ (8 * 4 + 1) % 157⟩⟩

def toySharePart (owner : String) (secret : Nat) : String × (Nat × DecSelection) :=
  (owner, (16 ^ secret % 157, ⟨"s", owner, toySharedVote.ciphertext.partialDecrypt extraSmall secret, none, none⟩))

/-- Two guardians decrypt a vote for 1; the share of the second is what the first computes from the published 1; the same
computation for a published 0 gives another number. -/
example : (match decryptSelectionWithShares toyEnv 10 toySharedVote ([toySharePart "a" 3] ++ toySharePart "b" 5 :: []) 0 true with
      | .ok (some pt) => pt.tally == 1
      | _ => false) = true ∧
    (toySharePart "b" 5).2.2.share
      = knownShare extraSmall toySharedVote.ciphertext 1 [(toySharePart "a" 3).2.2.share] ∧
    (toySharePart "b" 5).2.2.share
      ≠ knownShare extraSmall toySharedVote.ciphertext 0 [(toySharePart "a" 3).2.2.share] := by
  decide +kernel

end EG
