import Verif.Props.ChaumPedersen
import Verif.Props.ElGamal
import Verif.Props.Validator
import Verif.Props.Tally

/-!
# C31: an accepted ballot respects the contest limit
-/

namespace EG

/-- Every ciphertext of two subgroup elements encrypts some value below `q`. -/
theorem exists_plaintext {P : Params} (hv : P.Valid) {K : Nat} (hK : isValidResidue P K = true) {c : Ciphertext}
    (h1 : isValidResidue P c.pad = true) (h2 : isValidResidue P c.data = true) :
    ∃ v, v < P.q ∧ Encrypts P K v c := by
  have : Fact P.q.Prime := ⟨hv.q_prime⟩
  obtain ⟨x, hx⟩ := residue_log hv h1
  obtain ⟨y, hy⟩ := residue_log hv h2
  obtain ⟨κ, hκ⟩ := residue_log hv hK
  refine ⟨((y : ZMod P.q) - κ * x).val, ZMod.val_lt _, x, (encryptsWith_iff_cast hv).2
    ⟨((isValidResidue_iff hv _).1 h1).1, ((isValidResidue_iff hv _).1 h2).1, hx, ?_⟩⟩
  rw [hy, hκ, ← pow_mul, ← pow_add, g_eq_iff hv]
  push_cast
  rw [ZMod.natCast_zmod_val]
  ring

/-- C31: there are two tables, fixed by the group and the public key and made before the hash function is chosen,
which give one challenge for every choice of ciphertext and commitments.  On every accepted ballot, in every contest
of its style whose proof states the number of seats, if no hash on the ballot equals the entry of the table, then
every selection (placeholders included) encrypts 0 or 1 and they add up to the number of seats.
Partial: the constant in the contest proof must be `number_elected`, which the code does not check
(`C31_constant_unchecked_fails`), and the statement is about the first contest with the id
(`C31_repeated_contest_fails`, `C31_foreign_contest_fails`); `(q-1)² < p` as in C06. -/
theorem C31_limit_partial (P : Params) (hv : P.Valid) (hpq : (P.q - 1) * (P.q - 1) < P.p) (K : Nat)
    (hK : isValidResidue P K = true) :
    ∃ (starD : Ciphertext → Nat × Nat × Nat × Nat → Nat) (starC : Ciphertext → Int → Nat → Nat → Nat),
    ∀ (E : Env) (m : InternalManifest) (ctx : Context) (b : CBallot), E.P = P → ctx.elgamalPublicKey = K →
    ballotIsValidForElection E b m ctx true = .ok true →
    ∀ (d : ContestWithPlaceholders), m.StyleHas b.styleId d →
      d.ballotSelections.length + d.placeholders.length < P.q →
    ∃ (c : CContest) (pf : ConstProof), b.contests.find? (fun c => c.objectId == d.objectId) = some c ∧
      c.proof = some pf ∧
      (pf.constant = d.numberElected →
        hashElems E (constHashArgs ctx.cryptoExtendedBaseHash c.ciphertextAccumulation pf.a pf.b)
          ≠ starC c.ciphertextAccumulation pf.constant pf.a pf.b →
        (∀ s ∈ c.ballotSelections, ∀ sp, s.proof = some sp →
          hashElems E (disjHashArgs ctx.cryptoExtendedBaseHash s.ciphertext sp.a0 sp.b0 sp.a1 sp.b1)
            ≠ starD s.ciphertext (sp.a0, sp.b0, sp.a1, sp.b1)) →
        ∃ votes : List Nat, List.Forall₂ (fun s v => v ≤ 1 ∧ Encrypts P K v s.ciphertext) c.ballotSelections votes ∧
          (votes.sum : Int) = d.numberElected) := by
  classical
  let goodD (c : Ciphertext) (comm : Nat × Nat × Nat × Nat) (star : Nat) : Prop :=
    ∀ (E : Env) (q : Nat) (pf : DisjProof), E.P = P → pf.commitments = comm → pf.isValid E c K q = true →
      hashElems E (disjHashArgs q c comm.1 comm.2.1 comm.2.2.1 comm.2.2.2) = star
  let goodC (c : Ciphertext) (L : Int) (a b : Nat) (star : Nat) : Prop :=
    ∀ (E : Env) (q : Nat) (pf : ConstProof), E.P = P → pf.a = a → pf.b = b → pf.constant = L →
      pf.isValid E c K q = true → hashElems E (constHashArgs q c a b) = star
  refine ⟨fun c comm => if h : ∃ star, goodD c comm star then Classical.choose h else 0,
    fun c L a b => if h : ∃ star, goodC c L a b star then Classical.choose h else 0, ?_⟩
  intro E m ctx b hE hctx hacc d hd hsmall
  obtain ⟨hstyle, henc⟩ := (C32_election E b m ctx true).1 hacc
  obtain ⟨c, hc, hmatch⟩ := ((C32_iff E b m).1.1 hstyle).2 d hd
  have hcm := List.mem_of_find?_eq_some hc
  obtain ⟨-, -, hall⟩ := (CBallot.isValidEncryption_iff E b _ _ _).1 (henc rfl)
  obtain ⟨hsel, hcon⟩ := hall c hcm
  obtain ⟨-, -, pf, hpf, hacc2, hval⟩ := (CContest.isValidEncryption_iff E c _ _ _).1 hcon
  rw [hctx] at hval
  refine ⟨c, pf, hc, hpf, fun hconst hunC hunD => ?_⟩
  -- every selection encrypts 0 or 1
  have hvote : ∀ s ∈ c.ballotSelections, ∃ v r, v ≤ 1 ∧ EncryptsWith P K r v s.ciphertext := by
    intro s hs
    obtain ⟨-, -, sp, hsp, hspv⟩ := (CSelection.isValidEncryption_iff E s _ _ _).1 (hsel s hs)
    rw [hctx] at hspv
    have hres := (DisjProof.isValid_iff (hE ▸ hv) sp s.ciphertext K _).1 hspv
    rw [hE] at hres
    obtain ⟨v, hvq, henv⟩ := exists_plaintext hv hK hres.1 hres.2.1
    by_cases h01 : v = 0 ∨ v = 1
    · obtain ⟨r, hr⟩ := henv
      exact ⟨v, r, by omega, hr⟩
    · exfalso
      have hex : ∃ star, goodD s.ciphertext (sp.a0, sp.b0, sp.a1, sp.b1) star :=
        C04_single_challenge P hv K v hK s.ciphertext henv (by rw [Nat.mod_eq_of_lt hvq]; omega)
          (by rw [Nat.mod_eq_of_lt hvq]; omega) _
      apply hunD s hs sp hsp
      beta_reduce
      rw [dif_pos hex]
      exact Classical.choose_spec hex E _ sp hE rfl hspv
  -- collect the votes
  have hlist : ∀ l : List CSelection, (∀ s ∈ l, ∃ v r, v ≤ 1 ∧ EncryptsWith P K r v s.ciphertext) →
      ∃ vs : List (Nat × Nat × Ciphertext), vs.map (·.2.2) = l.map (·.ciphertext) ∧
        (∀ x ∈ vs, EncryptsWith P K x.1 x.2.1 x.2.2) ∧ vs.length = l.length ∧ (vs.map (·.2.1)).sum ≤ l.length ∧
        List.Forall₂ (fun s v => v ≤ 1 ∧ Encrypts P K v s.ciphertext) l (vs.map (·.2.1)) := by
    intro l
    induction l with
    | nil => intro _; exact ⟨[], rfl, by simp, rfl, by simp, List.Forall₂.nil⟩
    | cons s l ih =>
      intro hl
      obtain ⟨v, r, hv1, hr⟩ := hl s List.mem_cons_self
      obtain ⟨vs, i1, i2, i3, i4, i5⟩ := ih (fun x hx => hl x (List.mem_cons_of_mem _ hx))
      refine ⟨(r, v, s.ciphertext) :: vs, by simp [i1], ?_, by simp [i3], ?_, ?_⟩
      · intro x hx
        rcases List.mem_cons.1 hx with rfl | hx
        · exact hr
        · exact i2 x hx
      · simp only [List.map_cons, List.sum_cons, List.length_cons]; omega
      · exact List.Forall₂.cons ⟨hv1, r, hr⟩ i5
  obtain ⟨vs, e1, e2, e3, e4, e5⟩ := hlist c.ballotSelections hvote
  refine ⟨vs.map (·.2.1), e5, ?_⟩
  have hvs : vs ≠ [] := by
    rintro rfl
    have : c.ballotSelections = [] := List.length_eq_zero_iff.1 e3.symm
    rw [accumulateSelections, this] at hacc2
    cases hacc2
  obtain ⟨c', hc', hsum⟩ := C02_homomorphic hv K vs hvs e2
  rw [accumulateSelections, hE, ← e1, hc'] at hacc2
  cases hacc2
  have hres := (ConstProof.isValid_iff (hE ▸ hv) pf c.ciphertextAccumulation K _).1 hval
  rw [hE] at hres
  obtain ⟨-, -, -, -, -, -, -, ⟨hL0, -⟩, hLq, -⟩ := hres
  by_contra hne
  have hex : ∃ star, goodC c.ciphertextAccumulation pf.constant pf.a pf.b star := by
    refine C06_single_challenge_partial P hv hpq K _ pf.constant hK _ ⟨_, hsum⟩ ?_ pf.a pf.b
    have h1 : (vs.map (·.2.1)).sum < P.q := by
      have := hmatch.count
      omega
    rw [Nat.mod_eq_of_lt h1, Nat.mod_eq_of_lt (by omega)]
    intro h
    apply hne
    rw [h, ← hconst]
    omega
  apply hunC
  beta_reduce
  rw [dif_pos hex]
  exact Classical.choose_spec hex E _ pf hE rfl rfl rfl hval

/-- A client's forged contest `c`: both candidates are voted for, and the contest proof is made for the
constant 2. -/
def toyOverContest (n : Nat) : Option CContest :=
  let key := toyCtx.elgamalPublicKey
  let h := toyCtx.cryptoExtendedBaseHash
  match toyIM.contests with
  | [] => none
  | d :: _ =>
    let sel (sd : SelectionDescription) (r : Nat) (v : Nat) : Option CSelection :=
      match elgamalEncrypt extraSmall v r key with
      | none => none
      | some ct => (makeSelection toyEnv sd.objectId sd.sequenceOrder (sd.cryptoHash toyEnv) ct key h (r + n) v false
          (some r)).toOption
    match (d.ballotSelections ++ d.placeholders).zip [(2, 1), (3, 1), (4, 0)] |>.mapM (fun x => sel x.1 x.2.1 x.2.2) with
    | none => none
    | some ss => (makeContest toyEnv d.objectId d.sequenceOrder (d.cryptoHash toyEnv) ss key h 5 2 none none).toOption

/-- The forged ballot of style `s`. -/
def toyOverBallot : CBallot :=
  makeBallot toyEnv "b" "s" toyIM.manifestHash (some 3) (toyOverContest 2).toList none (some 17) none 17

private theorem toyOver_accepted : ballotIsValidForElection toyEnv toyOverBallot toyIM toyCtx true = .ok true := by
  decide +kernel

private theorem toyOver_votes : (toyOverBallot.contests.map (fun c => c.ballotSelections.map (fun s =>
    (s.objectId, (s.ciphertext.decrypt extraSmall 10 5).toOption)))) =
      [[("sx", some 1), ("sy", some 1), ("c-3-placeholder", some 0)]] := by decide +kernel

private theorem toyOver_limit : toyIM.contests.map (fun d => (d.objectId, d.numberElected)) = [("c", 1), ("d", 1)] := by
  decide +kernel

/-- C31 fails when the constant of the contest proof is not the number of seats: a ballot with two votes in a contest
with one seat is accepted, all of its proofs being true. -/
theorem C31_constant_unchecked_fails : ∃ (E : Env) (m : InternalManifest) (ctx : Context) (b : CBallot) (a : Nat),
    E.P.Valid ∧ ctx.elgamalPublicKey = E.P.g ^ a % E.P.p ∧
    m.contests.map (fun d => (d.objectId, d.numberElected)) = [("c", 1), ("d", 1)] ∧
    ballotIsValidForElection E b m ctx true = .ok true ∧
    b.contests.map (fun c => c.ballotSelections.map (fun s => (s.objectId, (s.ciphertext.decrypt E.P 10 a).toOption)))
      = [[("sx", some 1), ("sy", some 1), ("c-3-placeholder", some 0)]] :=
  ⟨toyEnv, toyIM, toyCtx, toyOverBallot, 5, extraSmall_valid, by decide +kernel, toyOver_limit, toyOver_accepted,
    toyOver_votes⟩

/-- C31 fails for a contest that is voted twice: the ballot is accepted and has two votes for the same candidate in a
contest with one seat. -/
theorem C31_repeated_contest_fails : ∃ (E : Env) (m : InternalManifest) (ctx : Context) (b : CBallot) (a : Nat),
    E.P.Valid ∧ ctx.elgamalPublicKey = E.P.g ^ a % E.P.p ∧
    m.contests.map (fun d => (d.objectId, d.numberElected)) = [("c", 1), ("d", 1)] ∧
    ballotIsValidForElection E b m ctx true = .ok true ∧
    b.contests.map (fun c => (c.objectId, c.ballotSelections.map (fun s => (s.ciphertext.decrypt E.P 10 a).toOption)))
      = [("c", [some 1, some 0, some 0]), ("c", [some 1, some 0, some 0])] :=
  ⟨toyEnv, toyIM, toyCtx, toyRepeated.toCBallot, 5, extraSmall_valid, by decide +kernel, toyOver_limit,
    by decide +kernel, by decide +kernel⟩

/-- C31 fails for a contest outside the style: the ballot is accepted. -/
theorem C31_foreign_contest_fails : ∃ (E : Env) (m : InternalManifest) (ctx : Context) (b : CBallot),
    E.P.Valid ∧ ballotIsValidForElection E b m ctx true = .ok true ∧
    b.contests.map (fun c => c.objectId) = ["c", "zz"] ∧ m.contests.map (fun d => d.objectId) = ["c", "d"] :=
  ⟨toyEnv, toyIM, toyCtx, toyForeign.toCBallot, extraSmall_valid, by decide +kernel, by decide +kernel,
    by decide +kernel⟩

end EG
