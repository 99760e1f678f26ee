import Verif.Spec.ElGamal
import Verif.Spec.Toy
import Verif.Spec.ZeroKnowledge
import Verif.Lemmas.ChaumPedersen
import Mathlib.Tactic.Ring

/-!
# C82: the proofs reveal nothing

Honest-verifier zero knowledge: for a given challenge, the proofs that the code makes with all its random numbers are the proofs that a
simulator makes without the secret, each as often.  That the hash serves as the challenge, and that the derived numbers are random, are
outside of the model.
-/

namespace EG

variable {P : Params}

/-! ### helpers -/

theorem outcomes_eq {α : Type} {q : Nat} {f f' : Nat → α} (i j : Nat → Nat)
    (hi : ∀ n < q, i n < q) (hj : ∀ n < q, j n < q) (hji : ∀ n < q, j (i n) = n) (hij : ∀ n < q, i (j n) = n)
    (hf : ∀ n < q, f n = f' (i n)) (test : α → Bool) : outcomes q f test = outcomes q f' test := by
  refine Finset.card_nbij' i j ?_ ?_ ?_ ?_
  · intro n hn
    have hn' : n < q ∧ test (f n) = true := by simpa using hn
    have := hf n hn'.1
    simpa [← this] using ⟨hi n hn'.1, hn'.2⟩
  · intro n hn
    have hn' : n < q ∧ test (f' n) = true := by simpa using hn
    have := hf (j n) (hj n hn'.1)
    rw [hij n hn'.1] at this
    simpa [this] using ⟨hj n hn'.1, hn'.2⟩
  · intro n hn
    have hn' : n < q ∧ test (f n) = true := by simpa using hn
    exact hji n hn'.1
  · intro n hn
    have hn' : n < q ∧ test (f' n) = true := by simpa using hn
    exact hij n hn'.1

theorem outcomes3_eq {α : Type} {lo q : Nat} {f f' : Nat → Nat → Nat → α} (i j : Nat × Nat × Nat → Nat × Nat × Nat)
    (hi : ∀ a b c, lo ≤ a → a < q → b < q → c < q →
      (lo ≤ (i (a, b, c)).1 ∧ (i (a, b, c)).1 < q) ∧ (i (a, b, c)).2.1 < q ∧ (i (a, b, c)).2.2 < q)
    (hj : ∀ a b c, lo ≤ a → a < q → b < q → c < q →
      (lo ≤ (j (a, b, c)).1 ∧ (j (a, b, c)).1 < q) ∧ (j (a, b, c)).2.1 < q ∧ (j (a, b, c)).2.2 < q)
    (hji : ∀ a b c, lo ≤ a → a < q → b < q → c < q → j (i (a, b, c)) = (a, b, c))
    (hij : ∀ a b c, lo ≤ a → a < q → b < q → c < q → i (j (a, b, c)) = (a, b, c))
    (hf : ∀ a b c, lo ≤ a → a < q → b < q → c < q →
      f a b c = f' (i (a, b, c)).1 (i (a, b, c)).2.1 (i (a, b, c)).2.2) (test : α → Bool) :
    outcomes3 lo q f test = outcomes3 lo q f' test := by
  refine Finset.card_nbij' i j ?_ ?_ ?_ ?_
  · rintro ⟨a, b, c⟩ hn
    have hn' : ((lo ≤ a ∧ a < q) ∧ b < q ∧ c < q) ∧ test (f a b c) = true := by simpa using hn
    obtain ⟨⟨⟨h0, h1⟩, h2, h3⟩, h4⟩ := hn'
    have := hf a b c h0 h1 h2 h3
    simpa [← this] using ⟨hi a b c h0 h1 h2 h3, h4⟩
  · rintro ⟨a, b, c⟩ hn
    have hn' : ((lo ≤ a ∧ a < q) ∧ b < q ∧ c < q) ∧ test (f' a b c) = true := by simpa using hn
    obtain ⟨⟨⟨h0, h1⟩, h2, h3⟩, h4⟩ := hn'
    obtain ⟨⟨g0, g1⟩, g2, g3⟩ := hj a b c h0 h1 h2 h3
    have := hf _ _ _ g0 g1 g2 g3
    simp only [Prod.mk.eta, hij a b c h0 h1 h2 h3] at this
    simpa [this] using ⟨⟨⟨g0, g1⟩, g2, g3⟩, h4⟩
  · rintro ⟨a, b, c⟩ hn
    have hn' : ((lo ≤ a ∧ a < q) ∧ b < q ∧ c < q) ∧ test (f a b c) = true := by simpa using hn
    obtain ⟨⟨⟨h0, h1⟩, h2, h3⟩, h4⟩ := hn'
    exact hji a b c h0 h1 h2 h3
  · rintro ⟨a, b, c⟩ hn
    have hn' : ((lo ≤ a ∧ a < q) ∧ b < q ∧ c < q) ∧ test (f' a b c) = true := by simpa using hn
    obtain ⟨⟨⟨h0, h1⟩, h2, h3⟩, h4⟩ := hn'
    exact hij a b c h0 h1 h2 h3

/-- `q - a` is `-a`. -/
theorem cast_q_sub {q a : Nat} (h : a ≤ q) : ((q - a : Nat) : ZMod q) = -(a : ZMod q) := by
  rw [Nat.cast_sub h]; simp

/-- Numbers below `q` that agree in `ZMod q` are equal. -/
theorem eq_of_castQ {q a b : Nat} (ha : a < q) (hb : b < q) (h : (a : ZMod q) = (b : ZMod q)) : a = b :=
  (castP_inj ha hb).1 h

/-- Two numbers mod `p` are equal if they are powers of `g` with exponents equal mod `q`. -/
theorem mod_eq_of_exp (hv : P.Valid) {x y a b : Nat} (hx : (x : ZMod P.p) = (P.g : ZMod P.p) ^ a)
    (hy : (y : ZMod P.p) = (P.g : ZMod P.p) ^ b) (h : (a : ZMod P.q) = (b : ZMod P.q)) : x % P.p = y % P.p := by
  have : (x : ZMod P.p) = (y : ZMod P.p) := by rw [hx, hy]; exact (g_eq_iff hv a b).2 h
  exact (ZMod.natCast_eq_natCast_iff' x y P.p).1 this

/-- `aMinusBQ` adds the negative. -/
theorem aMinusBQ_eq {q : Nat} (P : Params) (hPq : P.q = q) (hq : 0 < q) {a b : Nat} (hb : b < q) :
    aMinusBQ P a b = (a + (q - b)) % q := by
  subst hPq
  refine eq_of_castQ (aMinusBQ_lt hq _ _) (Nat.mod_lt _ hq) ?_
  rw [aMinusBQ_cast hq, ZMod.natCast_mod, Nat.cast_add, cast_q_sub hb.le]; ring

theorem multP_pow (hp : 1 < P.p) (a b : Nat) : multP P (a % P.p) (b % P.p) = a * b % P.p := by
  rw [← Nat.mod_eq_of_lt (multP_lt hp (a % P.p) (b % P.p))]
  refine (ZMod.natCast_eq_natCast_iff' _ _ P.p).1 ?_
  rw [multP_cast]; push_cast [ZMod.natCast_mod]; ring

/-! ### the provers of the code -/

/-- `make_disjunctive_chaum_pedersen` for plaintext 0 is `proveZero` with three derived numbers and the hash as the challenge. -/
theorem C82_zero_prover (E : Env) (hv : E.P.Valid) (c : Ciphertext) (r K q seed : Nat) :
    ∃ pf, makeDisj E c r K q seed 0 = .ok pf ∧
      pf = proveZero E.P r K (nonce E seed disjHeader 0) (nonce E seed disjHeader 1) (nonce E seed disjHeader 2) pf.c ∧
      pf.c = hashElems E (disjHashArgs q c pf.a0 pf.b0 pf.a1 pf.b1) := by
  refine ⟨makeDisjZero E c r K q seed, by simp [makeDisj], ?_, rfl⟩
  have h := nonce_lt (E := E) hv.q_pos seed disjHeader 0
  simp only [makeDisjZero, proveZero, aMinusBQ_eq E.P rfl hv.q_pos h, aPlusBCQ, gPowP, powP, multP_pow hv.one_lt_p]

/-- `make_disjunctive_chaum_pedersen` for plaintext 1 raises when the first derived number is 0, and is `proveOne` otherwise. -/
theorem C82_one_prover (E : Env) (hv : E.P.Valid) (c : Ciphertext) (r K q seed : Nat) :
    (nonce E seed disjHeader 0 = 0 ∧ makeDisj E c r K q seed 1 = .error .overflow) ∨
    (0 < nonce E seed disjHeader 0 ∧ ∃ pf, makeDisj E c r K q seed 1 = .ok pf ∧
      pf = proveOne E.P r K (nonce E seed disjHeader 0) (nonce E seed disjHeader 1) (nonce E seed disjHeader 2) pf.c ∧
      pf.c = hashElems E (disjHashArgs q c pf.a0 pf.b0 pf.a1 pf.b1)) := by
  have h := nonce_lt (E := E) hv.q_pos seed disjHeader 0
  rcases Nat.eq_zero_or_pos (nonce E seed disjHeader 0) with h0 | h0
  · left
    refine ⟨h0, ?_⟩
    simp [makeDisj, makeDisjOne, negateQ, mkQ, h0, bind, Except.bind]
  · right
    refine ⟨h0, ?_⟩
    have hn : negateQ E.P (nonce E seed disjHeader 0) = .ok (E.P.q - nonce E seed disjHeader 0) := by
      unfold negateQ mkQ
      rw [if_pos (by constructor <;> omega)]
      congr 1
      omega
    refine ⟨_, by simp only [makeDisj, makeDisjOne, hn, bind, Except.bind, pure, Except.pure]; rfl, ?_, rfl⟩
    simp only [proveOne, aPlusBCQ, gPowP, powP, multP_pow hv.one_lt_p, addQ, addQs]
    simp

theorem C82_const_prover (E : Env) (c : Ciphertext) (L : Int) (r K seed q : Nat) :
    let pf := makeConst E c L r K seed q
    pf = proveConst E.P L r K (nonce E seed constHeader 0) pf.c ∧ pf.c = hashElems E (constHashArgs q c pf.a pf.b) :=
  ⟨rfl, rfl⟩

theorem C82_share_prover (E : Env) (c : Ciphertext) (s m seed q : Nat) :
    let pf := makeCP E c s m seed q
    pf = proveShare E.P c s (nonce E seed constHeader 0) pf.c ∧ pf.c = hashElems E (cpHashArgs q c pf.a pf.b m) :=
  ⟨rfl, rfl⟩

theorem C82_key_prover (E : Env) (kp : KeyPair) (n : Nat) :
    let pf := makeSchnorr E kp n
    pf = proveKey E.P kp n pf.c ∧ pf.c = hashElems E [.elem pf.k, .elem pf.h] := ⟨rfl, rfl⟩

/-! ### what the proofs reveal -/

/-- The two rows of exponents. -/
theorem exp_row (hv : P.Valid) {K r m κ : Nat} {c : Ciphertext} (hK : (K : ZMod P.p) = (P.g : ZMod P.p) ^ κ)
    (hc : EncryptsWith P K r m c) :
    (c.pad : ZMod P.p) = (P.g : ZMod P.p) ^ r ∧ (c.data : ZMod P.p) = (P.g : ZMod P.p) ^ (m + κ * r) := by
  obtain ⟨_, _, h3, h4⟩ := (encryptsWith_iff_cast hv).1 hc
  refine ⟨h3, ?_⟩
  rw [h4, hK, pow_add, pow_mul]

theorem proveZero_eq (hv : P.Valid) {K r : Nat} {c : Ciphertext} (hK : isValidResidue P K = true)
    (hc : EncryptsWith P K r 0 c) {n0 n1 n2 ch : Nat} (h0 : n0 < P.q) :
    proveZero P r K n0 n1 n2 ch =
      simulateDisj P c K ((ch + (P.q - n0)) % P.q) ((n2 + (ch + (P.q - n0)) % P.q * r) % P.q) ((n1 + n0 * r) % P.q) ch := by
  obtain ⟨κ, hκ⟩ := residue_log hv hK
  obtain ⟨hp, hd⟩ := exp_row hv hκ hc
  have hq := hv.q_pos
  have hc1 : (ch + (P.q - (ch + (P.q - n0)) % P.q)) % P.q = n0 := by
    refine eq_of_castQ (Nat.mod_lt _ hq) h0 ?_
    rw [ZMod.natCast_mod, Nat.cast_add, cast_q_sub (Nat.mod_lt _ hq).le, ZMod.natCast_mod, Nat.cast_add, cast_q_sub h0.le]
    ring
  simp only [proveZero, simulateDisj, hc1]
  have hle := (Nat.mod_lt (ch + (P.q - n0)) hq).le
  have key : ∀ a b : Nat, (a : ZMod P.q) = (b : ZMod P.q) → (P.g : ZMod P.p) ^ a = (P.g : ZMod P.p) ^ b :=
    fun a b h => (g_eq_iff hv a b).2 h
  congr 1
  · refine (ZMod.natCast_eq_natCast_iff' _ _ P.p).1 ?_
    push_cast
    rw [hp, ← pow_mul, ← pow_add]
    apply key
    push_cast [cast_q_sub hle, ZMod.natCast_mod]
    ring
  · refine (ZMod.natCast_eq_natCast_iff' _ _ P.p).1 ?_
    push_cast
    rw [hκ, hd, ← pow_mul, ← pow_mul, ← pow_mul, ← pow_add]
    apply key
    push_cast [cast_q_sub hle, ZMod.natCast_mod]
    ring
  · refine (ZMod.natCast_eq_natCast_iff' _ _ P.p).1 ?_
    push_cast
    rw [hp, ← pow_mul, ← pow_add]
    apply key
    push_cast [cast_q_sub h0.le, ZMod.natCast_mod]
    ring
  · refine (ZMod.natCast_eq_natCast_iff' _ _ P.p).1 ?_
    push_cast
    rw [hκ, hd, ← pow_mul, ← pow_mul, ← pow_mul, ← pow_add, ← pow_add, ← pow_add]
    apply key
    push_cast [cast_q_sub h0.le, ZMod.natCast_mod]
    ring

theorem proveOne_eq (hv : P.Valid) {K r : Nat} {c : Ciphertext} (hK : isValidResidue P K = true)
    (hc : EncryptsWith P K r 1 c) {n0 n1 n2 ch : Nat} (hpos : 1 ≤ n0) (h0 : n0 < P.q) :
    proveOne P r K n0 n1 n2 ch =
      simulateDisj P c K (P.q - n0) ((n1 + (P.q - n0) * r) % P.q) ((n2 + (ch + n0) % P.q * r) % P.q) ch := by
  obtain ⟨κ, hκ⟩ := residue_log hv hK
  obtain ⟨hp, hd⟩ := exp_row hv hκ hc
  have hq := hv.q_pos
  have hc1 : ch + (P.q - (P.q - n0)) = ch + n0 := by omega
  simp only [proveOne, simulateDisj, hc1]
  have hle := (Nat.mod_lt (ch + n0) hq).le
  have key : ∀ a b : Nat, (a : ZMod P.q) = (b : ZMod P.q) → (P.g : ZMod P.p) ^ a = (P.g : ZMod P.p) ^ b :=
    fun a b h => (g_eq_iff hv a b).2 h
  have hsub : P.q - (P.q - n0) = n0 := by omega
  rw [hsub]
  congr 1
  · refine (ZMod.natCast_eq_natCast_iff' _ _ P.p).1 ?_
    push_cast
    rw [hp, ← pow_mul, ← pow_add]
    apply key
    push_cast [cast_q_sub h0.le, ZMod.natCast_mod]
    ring
  · refine (ZMod.natCast_eq_natCast_iff' _ _ P.p).1 ?_
    push_cast
    rw [hκ, hd, ← pow_mul, ← pow_mul, ← pow_mul, ← pow_add, ← pow_add]
    apply key
    push_cast [cast_q_sub h0.le, ZMod.natCast_mod]
    ring
  · refine (ZMod.natCast_eq_natCast_iff' _ _ P.p).1 ?_
    push_cast
    rw [hp, ← pow_mul, ← pow_add]
    apply key
    push_cast [cast_q_sub hle, ZMod.natCast_mod]
    ring
  · refine (ZMod.natCast_eq_natCast_iff' _ _ P.p).1 ?_
    push_cast
    rw [hκ, hd, ← pow_mul, ← pow_mul, ← pow_mul, ← pow_add, ← pow_add]
    apply key
    push_cast [cast_q_sub hle, ZMod.natCast_mod]
    ring

/-- **C82.**  The proof that accompanies an encryption of 0 reveals nothing: whatever a reader of the proof tests, the proof passes the
test for as many of the prover's random numbers as a proof that was made without nonce and without plaintext. -/
theorem C82_zero_reveals_nothing (hv : P.Valid) (K r : Nat) (c : Ciphertext) (hK : isValidResidue P K = true)
    (hc : EncryptsWith P K r 0 c) (ch : Nat) (test : DisjProof → Bool) :
    outcomes3 0 P.q (fun n0 n1 n2 => proveZero P r K n0 n1 n2 ch) test =
      outcomes3 0 P.q (fun c0 v0 v1 => simulateDisj P c K c0 v0 v1 ch) test := by
  have hq := hv.q_pos
  have lt : ∀ a, a % P.q < P.q := fun a => Nat.mod_lt _ hq
  refine outcomes3_eq
    (fun n => ((ch + (P.q - n.1)) % P.q, (n.2.2 + (ch + (P.q - n.1)) % P.q * r) % P.q, (n.2.1 + n.1 * r) % P.q))
    (fun x => ((ch + (P.q - x.1)) % P.q,
      (x.2.2 + (P.q - (ch + (P.q - x.1)) % P.q) * r) % P.q, (x.2.1 + (P.q - x.1) * r) % P.q))
    (fun a b c _ _ _ _ => ⟨⟨Nat.zero_le _, lt _⟩, lt _, lt _⟩)
    (fun a b c _ _ _ _ => ⟨⟨Nat.zero_le _, lt _⟩, lt _, lt _⟩) ?_ ?_
    (fun a b c _ h1 _ _ => proveZero_eq hv hK hc h1) test
  · intro a b c _ ha hb hc'
    have e1 : (ch + (P.q - (ch + (P.q - a)) % P.q)) % P.q = a := by
      refine eq_of_castQ (lt _) ha ?_
      push_cast [ZMod.natCast_mod, cast_q_sub (lt _).le, cast_q_sub ha.le]
      ring
    simp only [e1, Prod.mk.injEq]
    refine ⟨trivial, eq_of_castQ (lt _) hb ?_, eq_of_castQ (lt _) hc' ?_⟩
    · push_cast [ZMod.natCast_mod, cast_q_sub ha.le]; ring
    · push_cast [ZMod.natCast_mod, cast_q_sub (lt _).le, cast_q_sub ha.le]; ring
  · intro a b c _ ha hb hc'
    have e1 : (ch + (P.q - (ch + (P.q - a)) % P.q)) % P.q = a := by
      refine eq_of_castQ (lt _) ha ?_
      push_cast [ZMod.natCast_mod, cast_q_sub (lt _).le, cast_q_sub ha.le]
      ring
    simp only [e1, Prod.mk.injEq]
    refine ⟨trivial, eq_of_castQ (lt _) hb ?_, eq_of_castQ (lt _) hc' ?_⟩
    · push_cast [ZMod.natCast_mod, cast_q_sub ha.le]; ring
    · push_cast [ZMod.natCast_mod, cast_q_sub (lt _).le, cast_q_sub ha.le]; ring

/-- **C82.**  The same for an encryption of 1, among the random numbers for which the code does not raise.  The simulated proofs then
are those whose first half of the challenge is not 0. -/
theorem C82_one_reveals_nothing_partial (hv : P.Valid) (K r : Nat) (c : Ciphertext) (hK : isValidResidue P K = true)
    (hc : EncryptsWith P K r 1 c) (ch : Nat) (test : DisjProof → Bool) :
    outcomes3 1 P.q (fun n0 n1 n2 => proveOne P r K n0 n1 n2 ch) test =
      outcomes3 1 P.q (fun c0 v0 v1 => simulateDisj P c K c0 v0 v1 ch) test := by
  have hq := hv.q_pos
  have lt : ∀ a, a % P.q < P.q := fun a => Nat.mod_lt _ hq
  refine outcomes3_eq
    (fun n => (P.q - n.1, (n.2.1 + (P.q - n.1) * r) % P.q, (n.2.2 + (ch + n.1) % P.q * r) % P.q))
    (fun x => (P.q - x.1, (x.2.1 + (P.q - x.1) * r) % P.q,
      (x.2.2 + (P.q - (ch + (P.q - x.1)) % P.q) * r) % P.q))
    (fun a b c h1 h2 _ _ => ⟨by simp only; omega, lt _, lt _⟩)
    (fun a b c h1 h2 _ _ => ⟨by simp only; omega, lt _, lt _⟩) ?_ ?_
    (fun a b c h0 h1 _ _ => proveOne_eq hv hK hc h0 h1) test
  · intro a b c h1 ha hb hc'
    have e1 : P.q - (P.q - a) = a := by omega
    simp only [e1, Prod.mk.injEq]
    refine ⟨trivial, eq_of_castQ (lt _) hb ?_, eq_of_castQ (lt _) hc' ?_⟩
    · push_cast [ZMod.natCast_mod, cast_q_sub ha.le]; ring
    · push_cast [ZMod.natCast_mod, cast_q_sub (lt _).le]; ring
  · intro a b c h1 ha hb hc'
    have e1 : P.q - (P.q - a) = a := by omega
    simp only [e1, Prod.mk.injEq]
    refine ⟨trivial, eq_of_castQ (lt _) hb ?_, eq_of_castQ (lt _) hc' ?_⟩
    · push_cast [ZMod.natCast_mod, cast_q_sub ha.le]; ring
    · push_cast [ZMod.natCast_mod, cast_q_sub (lt _).le, cast_q_sub ha.le]; ring

/-- The shift by a number, and back. -/
theorem shift_outcomes {α : Type} {q : Nat} (hq : 0 < q) (w : Nat) {f f' : Nat → α}
    (hf : ∀ n < q, f n = f' ((n + w) % q)) (test : α → Bool) : outcomes q f test = outcomes q f' test := by
  have lt : ∀ a, a % q < q := fun a => Nat.mod_lt _ hq
  refine outcomes_eq (fun n => (n + w) % q) (fun n => (n + (q - w % q)) % q) (fun _ _ => lt _) (fun _ _ => lt _) ?_ ?_ hf test
  · intro n hn
    refine eq_of_castQ (lt _) hn ?_
    push_cast [ZMod.natCast_mod, cast_q_sub (lt w).le]; ring
  · intro n hn
    refine eq_of_castQ (lt _) hn ?_
    push_cast [ZMod.natCast_mod, cast_q_sub (lt w).le]; ring

/-- **C82.**  The proof that a contest holds as many votes as seats reveals nothing about the nonce. -/
theorem C82_const_reveals_nothing (hv : P.Valid) (K r L : Nat) (c : Ciphertext) (hK : isValidResidue P K = true)
    (hc : EncryptsWith P K r L c) (ch : Nat) (hch : ch < P.q) (test : ConstProof → Bool) :
    outcomes P.q (fun n => proveConst P L r K n ch) test =
      outcomes P.q (fun v => simulateConst P L c K v ch) test := by
  refine shift_outcomes hv.q_pos (ch * r) (fun n _ => ?_) test
  obtain ⟨κ, hκ⟩ := residue_log hv hK
  obtain ⟨hp, hd⟩ := exp_row hv hκ hc
  have key : ∀ a b : Nat, (a : ZMod P.q) = (b : ZMod P.q) → (P.g : ZMod P.p) ^ a = (P.g : ZMod P.p) ^ b :=
    fun a b h => (g_eq_iff hv a b).2 h
  simp only [proveConst, simulateConst]
  congr 1
  · refine (ZMod.natCast_eq_natCast_iff' _ _ P.p).1 ?_
    push_cast
    rw [hp, ← pow_mul, ← pow_add]
    apply key
    push_cast [cast_q_sub hch.le, ZMod.natCast_mod]
    ring
  · refine (ZMod.natCast_eq_natCast_iff' _ _ P.p).1 ?_
    push_cast
    rw [hκ, hd, ← pow_mul, ← pow_mul, ← pow_mul, ← pow_add, ← pow_add]
    apply key
    push_cast [cast_q_sub hch.le, ZMod.natCast_mod]
    simp only [Int.toNat_natCast]
    ring

/-- **C82.**  The proof that comes with a guardian's share of a decryption reveals nothing about the secret beyond key and share. -/
theorem C82_share_reveals_nothing (hv : P.Valid) (s : Nat) (c : Ciphertext) (hα : isValidResidue P c.pad = true)
    (ch : Nat) (hch : ch < P.q) (test : CPProof → Bool) :
    outcomes P.q (fun n => proveShare P c s n ch) test =
      outcomes P.q (fun v => simulateShare P c (P.g ^ s % P.p) (c.partialDecrypt P s) v ch) test := by
  refine shift_outcomes hv.q_pos (ch * s) (fun n _ => ?_) test
  obtain ⟨κ, hκ⟩ := residue_log hv hα
  have key : ∀ a b : Nat, (a : ZMod P.q) = (b : ZMod P.q) → (P.g : ZMod P.p) ^ a = (P.g : ZMod P.p) ^ b :=
    fun a b h => (g_eq_iff hv a b).2 h
  simp only [proveShare, simulateShare, Ciphertext.partialDecrypt, powP]
  congr 1
  · refine (ZMod.natCast_eq_natCast_iff' _ _ P.p).1 ?_
    push_cast [ZMod.natCast_mod]
    rw [← pow_mul, ← pow_add]
    apply key
    push_cast [cast_q_sub hch.le, ZMod.natCast_mod]
    ring
  · refine (ZMod.natCast_eq_natCast_iff' _ _ P.p).1 ?_
    push_cast [ZMod.natCast_mod]
    rw [hκ, ← pow_mul, ← pow_mul, ← pow_mul, ← pow_mul, ← pow_add]
    apply key
    push_cast [cast_q_sub hch.le, ZMod.natCast_mod]
    ring

/-- **C82.**  The proof that comes with a guardian's commitment reveals nothing about the secret coefficient beyond the commitment. -/
theorem C82_key_reveals_nothing (hv : P.Valid) (kp : KeyPair) (hk : kp.pub = P.g ^ kp.secret % P.p) (ch : Nat) (hch : ch < P.q)
    (test : SchnorrProof → Bool) :
    outcomes P.q (fun n => proveKey P kp n ch) test = outcomes P.q (fun u => simulateKey P kp.pub u ch) test := by
  refine shift_outcomes hv.q_pos (kp.secret * ch) (fun n _ => ?_) test
  have key : ∀ a b : Nat, (a : ZMod P.q) = (b : ZMod P.q) → (P.g : ZMod P.p) ^ a = (P.g : ZMod P.p) ^ b :=
    fun a b h => (g_eq_iff hv a b).2 h
  simp only [proveKey, simulateKey]
  congr 1
  refine (ZMod.natCast_eq_natCast_iff' _ _ P.p).1 ?_
  push_cast [hk, ZMod.natCast_mod]
  rw [← pow_mul, ← pow_add]
  apply key
  push_cast [cast_q_sub hch.le, ZMod.natCast_mod]
  ring

/-! ### what the simulators make -/

theorem pow_q_sub_mul {x : ZMod P.p} (hx : x ^ P.q = 1) {n : Nat} (h : n ≤ P.q) (y : ZMod P.p) :
    y * x ^ (P.q - n) * x ^ n = y := by
  rw [mul_assoc, ← pow_add, Nat.sub_add_cancel h, hx, mul_one]

theorem mod_residue (hv : P.Valid) {x : Nat} (h : (x : ZMod P.p) ^ P.q = 1) : isValidResidue P (x % P.p) = true :=
  (isValidResidue_iff hv _).2 ⟨Nat.mod_lt _ hv.p_pos, by rw [ZMod.natCast_mod]; exact h⟩

/-- **C82.**  A simulated proof is accepted whenever the challenge is the hash of its commitments, whatever the ciphertext holds. -/
theorem C82_simulated_accepted (E : Env) (hv : E.P.Valid) (c : Ciphertext) (K q c0 v0 v1 ch : Nat)
    (hK : isValidResidue E.P K = true) (h1 : isValidResidue E.P c.pad = true) (h2 : isValidResidue E.P c.data = true)
    (h3 : c0 < E.P.q) (h4 : v0 < E.P.q) (h5 : v1 < E.P.q) (h6 : ch < E.P.q)
    (hash : hashElems E (disjHashArgs q c (simulateDisj E.P c K c0 v0 v1 ch).a0 (simulateDisj E.P c K c0 v0 v1 ch).b0
      (simulateDisj E.P c K c0 v0 v1 ch).a1 (simulateDisj E.P c K c0 v0 v1 ch).b1) = ch) :
    (simulateDisj E.P c K c0 v0 v1 ch).isValid E c K q = true := by
  have hq := hv.q_pos
  have hK' := ((isValidResidue_iff hv _).1 hK).2
  have hp' := ((isValidResidue_iff hv _).1 h1).2
  have hd' := ((isValidResidue_iff hv _).1 h2).2
  have hg := g_cast_pow hv
  have one : ∀ {x : ZMod E.P.p} (n : Nat), x ^ E.P.q = 1 → (x ^ n) ^ E.P.q = 1 := by
    intro x n hx; rw [← pow_mul, mul_comm, pow_mul, hx, one_pow]
  have hlt : (ch + (E.P.q - c0)) % E.P.q < E.P.q := Nat.mod_lt _ hq
  rw [DisjProof.isValid_iff hv]
  refine ⟨h1, h2, mod_residue hv ?_, mod_residue hv ?_, mod_residue hv ?_, mod_residue hv ?_, h3, hlt, h4, h5, ?_, hash.symm,
    ?_, ?_, ?_, ?_⟩
  · push_cast; rw [mul_pow, one _ hg, one _ hp', mul_one]
  · push_cast; rw [mul_pow, one _ hK', one _ hd', mul_one]
  · push_cast; rw [mul_pow, one _ hg, one _ hp', mul_one]
  · push_cast; rw [mul_pow, mul_pow, one _ hg, one _ hK', one _ hd', mul_one, mul_one]
  · refine eq_of_castQ (addQ_lt hq _ _) h6 ?_
    rw [addQ_cast]
    simp only [simulateDisj]
    push_cast [ZMod.natCast_mod, cast_q_sub h3.le]; ring
  all_goals
    simp only [simulateDisj]
    push_cast [ZMod.natCast_mod]
    rw [pow_q_sub_mul ‹_› (by omega)]

/-- The same for the proof of a sum of votes. -/
theorem C82_simulated_const_accepted_partial (E : Env) (hv : E.P.Valid) (hpq : (E.P.q - 1) * (E.P.q - 1) < E.P.p) (c : Ciphertext)
    (K q L v ch : Nat) (hK : isValidResidue E.P K = true) (h1 : isValidResidue E.P c.pad = true)
    (h2 : isValidResidue E.P c.data = true) (h4 : v < E.P.q) (h6 : ch < E.P.q) (hL : L < 1000000000) (hLq : L < E.P.q)
    (hash : hashElems E (constHashArgs q c (simulateConst E.P L c K v ch).a (simulateConst E.P L c K v ch).b) = ch) :
    (simulateConst E.P L c K v ch).isValid E c K q = true := by
  have hK' := ((isValidResidue_iff hv _).1 hK).2
  have hp' := ((isValidResidue_iff hv _).1 h1).2
  have hd' := ((isValidResidue_iff hv _).1 h2).2
  have hg := g_cast_pow hv
  have one : ∀ {x : ZMod E.P.p} (n : Nat), x ^ E.P.q = 1 → (x ^ n) ^ E.P.q = 1 := by
    intro x n hx; rw [← pow_mul, mul_comm, pow_mul, hx, one_pow]
  have hcL : ch * L < E.P.p := lt_of_le_of_lt (Nat.mul_le_mul (by omega) (by omega)) hpq
  rw [ConstProof.isValid_iff hv]
  refine ⟨h1, h2, mod_residue hv ?_, mod_residue hv ?_, h6, h4, hash.symm, ⟨?_, ?_⟩, ?_, ?_, ?_⟩
  · push_cast; rw [mul_pow, one _ hg, one _ hp', mul_one]
  · push_cast; rw [mul_pow, mul_pow, one _ hg, one _ hK', one _ hd', mul_one, mul_one]
  · simp [simulateConst]
  · simp only [simulateConst]; omega
  · simp only [simulateConst]; omega
  · simp only [simulateConst]
    push_cast [ZMod.natCast_mod]
    rw [pow_q_sub_mul hp' (by omega)]
  · simp only [simulateConst, Int.toNat_natCast]
    rw [Nat.mod_eq_of_lt hcL]
    push_cast [ZMod.natCast_mod]
    rw [pow_q_sub_mul hd' (by omega)]

/-- The same for the proof of a share, whatever the share is. -/
theorem C82_simulated_share_accepted (E : Env) (hv : E.P.Valid) (c : Ciphertext) (K m q v ch : Nat)
    (hK : isValidResidue E.P K = true) (hm : isValidResidue E.P m = true) (h1 : isValidResidue E.P c.pad = true)
    (h2 : isValidResidue E.P c.data = true) (h4 : v < E.P.q) (h6 : ch < E.P.q) (hq : q < E.P.q)
    (hash : hashElems E (cpHashArgs q c (simulateShare E.P c K m v ch).a (simulateShare E.P c K m v ch).b m) = ch) :
    (simulateShare E.P c K m v ch).isValid E c K m q = true := by
  have hK' := ((isValidResidue_iff hv _).1 hK).2
  have hm' := ((isValidResidue_iff hv _).1 hm).2
  have hp' := ((isValidResidue_iff hv _).1 h1).2
  have hg := g_cast_pow hv
  have one : ∀ {x : ZMod E.P.p} (n : Nat), x ^ E.P.q = 1 → (x ^ n) ^ E.P.q = 1 := by
    intro x n hx; rw [← pow_mul, mul_comm, pow_mul, hx, one_pow]
  rw [CPProof.isValid_iff hv]
  refine ⟨h1, h2, hK, hm, mod_residue hv ?_, mod_residue hv ?_, h6, h4, hq, hash.symm, ?_, ?_⟩
  · push_cast; rw [mul_pow, one _ hg, one _ hK', mul_one]
  · push_cast; rw [mul_pow, one _ hp', one _ hm', mul_one]
  all_goals
    simp only [simulateShare]
    push_cast [ZMod.natCast_mod]
    rw [pow_q_sub_mul ‹_› (by omega)]

/-- The same for the proof of a key. -/
theorem C82_simulated_key_accepted (E : Env) (hv : E.P.Valid) (K u ch : Nat) (hK : isValidResidue E.P K = true) (h4 : u < E.P.q)
    (h6 : ch < E.P.q) (hash : hashElems E [.elem K, .elem (simulateKey E.P K u ch).h] = ch) :
    (simulateKey E.P K u ch).isValid E = true := by
  have hK' := ((isValidResidue_iff hv _).1 hK).2
  rw [SchnorrProof.isValid_iff hv]
  refine ⟨hK, Nat.mod_lt _ hv.p_pos, h4, hash, ?_⟩
  simp only [simulateKey]
  push_cast [ZMod.natCast_mod]
  rw [pow_q_sub_mul hK' (by omega)]

/-! ### the number that is missing -/

/-- A proof of the code whose first half of the challenge is 0 tells that the ciphertext encrypts 0: the prover for 1 raises instead of
returning such a proof. -/
theorem C82_zero_half_reveals_fails (E : Env) (hv : E.P.Valid) (c : Ciphertext) (r K q seed : Nat) (m : Int) (pf : DisjProof)
    (h : makeDisj E c r K q seed m = .ok pf) (h0 : pf.c0 = 0) : m = 0 := by
  by_contra hne
  have hm1 : m = 1 := by
    unfold makeDisj at h
    split at h
    · cases h
    · omega
  subst hm1
  rcases C82_one_prover E hv c r K q seed with ⟨_, he⟩ | ⟨_, pf', hok, hpf, _⟩
  · rw [he] at h; cases h
  · rw [hok] at h
    injection h with h
    subst h
    have := nonce_lt (E := E) hv.q_pos seed disjHeader 0
    rw [hpf] at h0
    simp only [proveOne] at h0
    omega

/-- Such proofs are made: the prover for 0 makes one when the derived number equals the challenge. -/
theorem C82_zero_half_happens :
    (makeDisj { toyEnv with sha := fun _ => 7 } ⟨16 ^ 5 % 157, (16 ^ 3 % 157) ^ 5 % 157⟩ 5 (16 ^ 3 % 157) 9 4 0).map
      (fun pf => (pf.c0, pf.isValid { toyEnv with sha := fun _ => 7 } ⟨16 ^ 5 % 157, (16 ^ 3 % 157) ^ 5 % 157⟩ (16 ^ 3 % 157) 9))
      = .ok (0, true) := by decide +kernel

/-- The two theorems meet real cases: of the 13³ runs of the prover for an encryption of 0, and of the simulated proofs, equally many
have an odd first response. -/
example : 0 < outcomes3 0 13 (fun n0 n1 n2 => proveZero ⟨157, 13, 16⟩ 5 (16 ^ 3 % 157) n0 n1 n2 8) (fun pf => pf.v0 % 2 == 1) ∧
    outcomes3 0 13 (fun n0 n1 n2 => proveZero extraSmall 5 (16 ^ 3 % 157) n0 n1 n2 8) (fun pf => pf.v0 % 2 == 1) =
      outcomes3 0 13 (fun c0 v0 v1 => simulateDisj extraSmall ⟨16 ^ 5 % 157, 16 ^ 0 * (16 ^ 3 % 157) ^ 5 % 157⟩ (16 ^ 3 % 157) c0 v0 v1 8)
        (fun pf => pf.v0 % 2 == 1) :=
  ⟨Finset.card_pos.2 ⟨(0, 0, 0), by decide +kernel⟩,
    C82_zero_reveals_nothing extraSmall_valid _ 5 _ (by decide +kernel) ⟨rfl, rfl⟩ 8 _⟩

example : outcomes3 1 13 (fun n0 n1 n2 => proveOne extraSmall 5 (16 ^ 3 % 157) n0 n1 n2 8) (fun pf => pf.b1 == 16) =
      outcomes3 1 13 (fun c0 v0 v1 => simulateDisj extraSmall ⟨16 ^ 5 % 157, 16 ^ 1 * (16 ^ 3 % 157) ^ 5 % 157⟩ (16 ^ 3 % 157) c0 v0 v1 8)
        (fun pf => pf.b1 == 16) :=
  C82_one_reveals_nothing_partial extraSmall_valid _ 5 _ (by decide +kernel) ⟨rfl, rfl⟩ 8 _

example : outcomes 13 (fun n => proveConst extraSmall 2 5 (16 ^ 3 % 157) n 8) (fun pf => pf.v == 6) = 1 ∧
    outcomes 13 (fun v => simulateConst extraSmall 2 ⟨16 ^ 5 % 157, 16 ^ 2 * (16 ^ 3 % 157) ^ 5 % 157⟩ (16 ^ 3 % 157) v 8)
      (fun pf => pf.v == 6) = 1 := by
  refine ⟨by decide +kernel, ?_⟩
  exact (C82_const_reveals_nothing extraSmall_valid (16 ^ 3 % 157) 5 2 _ (by decide +kernel) ⟨rfl, rfl⟩ 8 (by decide)
    (fun pf => pf.v == 6)).symm.trans (by decide +kernel)

example : outcomes 13 (fun n => proveShare extraSmall ⟨16 ^ 5 % 157, 1⟩ 4 n 8) (fun pf => pf.b == 16 ^ 2 % 157) =
    outcomes 13 (fun v => simulateShare extraSmall ⟨16 ^ 5 % 157, 1⟩ (16 ^ 4 % 157) (16 ^ 20 % 157) v 8) (fun pf => pf.b == 16 ^ 2 % 157) := by
  have h := C82_share_reveals_nothing extraSmall_valid 4 ⟨16 ^ 5 % 157, 1⟩ (by decide +kernel) 8 (by decide)
    (fun pf => pf.b == 16 ^ 2 % 157)
  have e : (Ciphertext.partialDecrypt extraSmall ⟨16 ^ 5 % 157, 1⟩ 4) = 16 ^ 20 % 157 := by decide +kernel
  rw [e] at h
  exact h

example : outcomes 13 (fun n => proveKey extraSmall ⟨4, 16 ^ 4 % 157⟩ n 8) (fun pf => pf.u == 3) =
    outcomes 13 (fun u => simulateKey extraSmall (16 ^ 4 % 157) u 8) (fun pf => pf.u == 3) :=
  C82_key_reveals_nothing extraSmall_valid ⟨4, 16 ^ 4 % 157⟩ rfl 8 (by decide) _

end EG
