import Verif.Props.Constants
import Verif.Props.DiscreteLog
import Verif.Props.WholeElection
import Verif.Props.Cli

/-!
# C92: the constants that the library ships

Several theorems have conditions on the sizes of the group (C05, C06, C10, C11, C26, C65, C68, C74), which small groups do not meet.
Here they are checked for the constants that `get_constants` selects, so that for the standard constants nothing but the primality of
the 4096-bit `p` is assumed, and for the test constants nothing at all.
-/

namespace EG

/-- Powers of guardian numbers of at most `b` bits. -/
theorem pow_lt_of_bits {n b i p : Nat} (hn : n < 2 ^ b) (hp : 2 ^ (b * i) ≤ p) (h1 : 1 < p) : n ^ i < p := by
  rcases Nat.eq_zero_or_pos i with rfl | hi
  · simpa using h1
  · calc n ^ i < (2 ^ b) ^ i := Nat.pow_lt_pow_left hn hi.ne'
      _ = 2 ^ (b * i) := (pow_mul 2 b i).symm
      _ ≤ p := hp

theorem standard_p_large : 2 ^ 4095 ≤ standardConstants.params.p := by decide +kernel

/-- C92 The sizes of the standard constants: what C05, C06, C26, C47 and C65 ask for, and powers of the numbers of up to 255 guardians
up to a quorum of 512. -/
theorem C92_standard_sizes :
    (standardConstants.params.q - 1) * (standardConstants.params.q - 1) < standardConstants.params.p ∧
    dlogSystemMax < standardConstants.params.q ∧ standardConstants.params.q ≤ 256 ^ 246 ∧
    ∀ n ≤ 255, n < standardConstants.params.q ∧ ∀ i < 512, n ^ i < standardConstants.params.p := by
  refine ⟨by decide +kernel, by decide +kernel, by decide +kernel, fun n hn => ⟨?_, fun i hi => ?_⟩⟩
  · exact lt_of_le_of_lt hn (by decide +kernel)
  · have h8 : n < 2 ^ 8 := by omega
    refine pow_lt_of_bits (b := 8) h8 (le_trans (Nat.pow_le_pow_right (by omega) (by omega)) standard_p_large) ?_
    exact lt_of_lt_of_le (by decide +kernel) standard_p_large

/-- C92 The sizes of the test constants: they have the first property, but not the second. -/
theorem C92_test_sizes :
    (largeTestConstants.params.q - 1) * (largeTestConstants.params.q - 1) < largeTestConstants.params.p ∧
    largeTestConstants.params.q < dlogSystemMax ∧ largeTestConstants.params.q ≤ 256 ^ 246 ∧
    ∀ n ≤ 16, n < largeTestConstants.params.q ∧ ∀ i < 16, n ^ i < largeTestConstants.params.p := by
  refine ⟨by decide +kernel, by decide +kernel, by decide +kernel, fun n hn => ⟨?_, fun i hi => ?_⟩⟩
  · exact lt_of_le_of_lt hn (by decide +kernel)
  · refine lt_of_le_of_lt (Nat.pow_le_pow_left hn i) (lt_of_le_of_lt (Nat.pow_le_pow_right (by omega) (Nat.le_of_lt_succ hi)) ?_)
    decide +kernel

variable {E : Env}

/-- What the theorems below assume of the constants: they are the standard ones and `p` is prime, or they are the test ones. -/
def Shipped (P : Params) : Prop :=
  (P = standardConstants.params ∧ standardConstants.p.Prime) ∨ P = largeTestConstants.params

theorem Shipped.valid {P : Params} (h : Shipped P) : P.Valid := by
  rcases h with ⟨rfl, hp⟩ | rfl
  · exact C61_standard_valid hp
  · exact C61_large_test_valid

theorem Shipped.square {P : Params} (h : Shipped P) : (P.q - 1) * (P.q - 1) < P.p := by
  rcases h with ⟨rfl, -⟩ | rfl
  · exact C92_standard_sizes.1
  · exact C92_test_sizes.1

theorem Shipped.width {P : Params} (h : Shipped P) : P.q ≤ 256 ^ 246 := by
  rcases h with ⟨rfl, -⟩ | rfl
  · exact C92_standard_sizes.2.2.1
  · exact C92_test_sizes.2.2.1

theorem Shipped.q_large {P : Params} (h : Shipped P) : 65521 ≤ P.q := by
  rcases h with ⟨rfl, -⟩ | rfl
  · decide +kernel
  · decide +kernel

/-- C92 Whatever the environment variable selects, the constants are shipped ones (if the standard `p` is prime). -/
theorem C92_selected (hp : standardConstants.p.Prime) (opt : Option String) (c : Constants) (h : getConstants opt = .ok c) :
    Shipped c.params := by
  unfold getConstants at h
  split at h
  · cases h; exact .inl ⟨rfl, hp⟩
  · cases h; exact .inl ⟨rfl, hp⟩
  · cases h; exact .inr rfl
  · cases h

/-- C92 (C05 at shipped constants) The proof that a ciphertext encrypts a constant is accepted, for every key of the group, every
constant up to 65520, every nonce and every seed. -/
theorem C92_constant_complete (hs : Shipped E.P) (K r L seed q : Nat) (c : Ciphertext) (hK : isValidResidue E.P K = true)
    (hL : L < 65521) (hc : EncryptsWith E.P K r L c) : (makeConst E c L r K seed q).isValid E c K q = true :=
  C05_completeness_partial E hs.valid hs.square K r L seed q c hK (by omega) (lt_of_lt_of_le hL hs.q_large) hc

/-- C92 (C06 at shipped constants) Two accepted proofs with the same commitments and different challenges: the ciphertext encrypts the
constant. -/
theorem C92_constant_sound (E' : Env) (hE : E.P = E'.P) (hs : Shipped E.P) (K q q' : Nat) (hK : isValidResidue E.P K = true)
    (c : Ciphertext) (pf pf' : ConstProof) (h : pf.isValid E c K q = true) (h' : pf'.isValid E' c K q' = true)
    (ha : pf.a = pf'.a) (hb : pf.b = pf'.b) (hL : pf.constant = pf'.constant) (hne : pf.c ≠ pf'.c) :
    Encrypts E.P K pf.constant.toNat c :=
  C06_special_soundness_partial E E' hE hs.valid hs.square K q q' hK c pf pf' h h' ha hb hL hne

/-- C92 (C10 at the standard constants) Every honest share of a team of up to 255 guardians with a quorum of up to 512 is accepted. -/
theorem C92_share_accepted (hp : standardConstants.p.Prime) (hE : E.P = standardConstants.params) (rands : List (Nat × Nat))
    (hq : rands.length ≤ 512) (x : Nat) (hx : x ≤ 255) :
    ∃ y, computeCoordinate E.P x (generatePolynomial E rands) = .ok y ∧
      verifyCoordinate E.P y x (getCommitments (generatePolynomial E rands)) = .ok true := by
  have hv : E.P.Valid := (show Shipped E.P from .inl ⟨hE, hp⟩).valid
  obtain ⟨hxq, hpow⟩ := C92_standard_sizes.2.2.2 x hx
  rw [← hE] at hxq
  refine ⟨_, C10_coordinate_value E hv rands x hxq, C10_honest_share_accepted_partial E hv rands x _ (fun i hi => ?_)
    (C10_coordinate_value E hv rands x hxq)⟩
  rw [hE]
  exact hpow i (by omega)

/-- C92 (C11 at the standard constants) The only coordinate that is accepted is the value of the committed polynomial. -/
theorem C92_share_iff (hp : standardConstants.p.Prime) (hE : E.P = standardConstants.params) (rands : List (Nat × Nat))
    (hq : rands.length ≤ 512) (x : Nat) (hx : x ≤ 255) (y : Nat) (hy : y < E.P.q) :
    verifyCoordinate E.P y x (getCommitments (generatePolynomial E rands)) = .ok true ↔
      y = polyAt (rands.map Prod.fst) x % E.P.q := by
  have hv : E.P.Valid := (show Shipped E.P from .inl ⟨hE, hp⟩).valid
  obtain ⟨hxq, -⟩ := C92_standard_sizes.2.2.2 x hx
  rw [← hE] at hxq
  obtain ⟨y', h1, h2⟩ := C92_share_accepted hp hE rands hq x hx
  rw [C10_coordinate_value E hv rands x hxq] at h1
  cases h1
  refine ⟨fun h => C11_accepted_unique hv x _ _ _ hy (Nat.mod_lt _ hv.q_pos) h h2, fun h => ?_⟩
  rw [h]; exact h2

/-- Commitments to zeros and one more. -/
theorem commitmentLoop_zeros {P : Params} (hp : 1 < P.p) (x k : Nat) :
    ∀ n i, commitmentLoop P x (List.replicate n 1 ++ [k]) i 1 = powP P k (powP P x (i + n)) := by
  intro n
  induction n with
  | zero => intro i; simp [commitmentLoop, multP, multPs, powP, Nat.mod_eq_of_lt hp]
  | succ n ih =>
    intro i
    have h1 : multP P 1 (powP P 1 (powP P x i)) = 1 := by simp [multP, multPs, powP, Nat.mod_eq_of_lt hp]
    rw [List.replicate_succ, List.cons_append]
    simp only [commitmentLoop]
    rw [h1, ih (i + 1)]
    congr 2
    omega

/-- C92 (negative) With the test constants the honest share of guardian 17 is rejected in a team with quorum 17. -/
theorem C92_test_share_fails : ∃ (E : Env) (rands : List (Nat × Nat)) (x y : Nat), E.P = largeTestConstants.params ∧
    rands.length = 17 ∧ x = 17 ∧ computeCoordinate E.P x (generatePolynomial E rands) = .ok y ∧
    verifyCoordinate E.P y x (getCommitments (generatePolynomial E rands)) = .ok false := by
  let E : Env := { toyEnv with P := largeTestConstants.params }
  have hv : E.P.Valid := C61_large_test_valid
  have hx : 17 < E.P.q := by decide +kernel
  refine ⟨E, List.replicate 16 (0, 1) ++ [(1, 1)], 17, polyAt ((List.replicate 16 (0, 1) ++ [(1, 1)]).map Prod.fst) 17 % E.P.q, rfl, rfl,
    rfl, C10_coordinate_value E hv _ 17 hx, ?_⟩
  have hc : ((List.replicate 16 (0, 1) ++ [((1 : Nat), (1 : Nat))]).map Prod.fst).map (fun a => E.P.g ^ a % E.P.p)
      = List.replicate 16 1 ++ [E.P.g] := by
    rw [List.map_append, List.map_append, List.map_replicate, List.map_replicate]
    simp only [List.map_cons, List.map_nil, pow_zero, pow_one, Nat.mod_eq_of_lt hv.one_lt_p, Nat.mod_eq_of_lt hv.g_lt]
  simp only [verifyCoordinate, mkQ_nat hx, bind, Except.bind, pure, Except.pure, commitments_generate]
  rw [hc, commitmentLoop_zeros hv.one_lt_p, Except.ok.injEq, beq_eq_false_iff_ne]
  intro h
  have h' : gPowP E.P (polyAt ((List.replicate 16 (0, 1) ++ [((1 : Nat), (1 : Nat))]).map Prod.fst) 17 % E.P.q)
      = gPowP E.P (powP E.P 17 (0 + 16)) := h
  rw [← castP_inj (gPowP_lt hv.p_pos _) (gPowP_lt hv.p_pos _), gPowP_cast, gPowP_cast, g_eq_iff hv,
    ZMod.natCast_eq_natCast_iff'] at h'
  revert h'
  decide +kernel

/-- C92 (C26 at the standard constants) After any history of calls on the logarithm: what is returned is the exponent and no other
number below `q` is; and the logarithm of `g^m` is found for every `m` up to the limit in force. -/
theorem C92_logarithm (hp : standardConstants.p.Prime) (ops : List DLogOp) :
    (∀ x m, (dlogStep standardConstants.params (dlogRun standardConstants.params {} ops) (.log x)).1 = some (.ok m) →
      standardConstants.params.g ^ m % standardConstants.params.p = x ∧ m < standardConstants.params.q ∧
      ∀ j < standardConstants.params.q, standardConstants.params.g ^ j % standardConstants.params.p = x → j = m) ∧
    (∀ m ≤ (dlogRun standardConstants.params {} ops).maxExponent,
      (dlogRun standardConstants.params {} ops).maxExponent ≤ dlogSystemMax → (dlogRun standardConstants.params {} ops).lazy = true →
      (dlogStep standardConstants.params (dlogRun standardConstants.params {} ops)
        (.log (standardConstants.params.g ^ m % standardConstants.params.p))).1 = some (.ok m)) :=
  ⟨fun x m h => C26_never_wrong_partial (C61_standard_valid hp) C92_standard_sizes.2.1 ops x m h,
    fun m hm hs hl => C26_found_partial (C61_standard_valid hp) C92_standard_sizes.2.1 ops m hm hs hl⟩

/-- C92 (C68 at the standard constants) A whole election with up to 255 guardians, any quorum among them and up to a hundred million
counted ballots.  The conditions that are left are about the manifest and the ballots, and that HMAC gives 32 bytes and
the JSON reader reads what the writer wrote. -/
theorem C92_whole_election (hp : standardConstants.p.Prime) (hE : E.P = standardConstants.params) (hlen : HmacLen E)
    (loads : Bytes → R (List Char)) (hl : ReadsCoordinate loads) (n quorum : Nat)
    (hquorum : 0 < quorum) (hmany : quorum ≤ n) (hn : n ≤ 255)
    (rands : Nat → List (Nat × Nat)) (hr : ∀ i < n, (rands i).length = quorum) (nonces : String → Nat → Nat) (me : String)
    (json : ContestData → Bytes) (m : Manifest) (im : InternalManifest) (he : ElectionReady E m im) :
    ∃ gs0 gs kcm jk b ctx, createGuardians E ⟨n, quorum⟩ rands = .ok gs0 ∧ gs0.length = n ∧
      performFullCeremony E loads nonces gs0 (KCM.init me ⟨n, quorum⟩) = .ok (gs, kcm) ∧
      kcm.publishJointKey E = some jk ∧ ElectionBuilder.new E n quorum m = .ok b ∧
      ((b.setPublicKey jk.jointPublicKey).setCommitmentHash jk.commitmentHash).build E = .ok (some (im, ctx, none)) ∧
      ∀ vs : List VotedBallot, (∀ v ∈ vs, v.Encrypted E json im ctx ∧ ∃ d, im.StyleHas v.plain.styleId d) →
        (counted vs).length ≤ 100000000 →
        ∃ store t bs, store = runBox E im ctx [] (vs.map (fun v => ⟨v.enc, v.state⟩)) ∧
          tallyBallots E im ctx true store = .ok (some t) ∧ (getBallots store (some .spoiled)).map (fun e => e.2) = bs ∧
          ∀ present : List Guardian, (∀ g ∈ present, g ∈ gs) → (present.map Guardian.id).Nodup → quorum ≤ present.length →
            ∀ sd : TallySeeds, ∃ dm pt pts,
              performCompensatedSetup E loads sd ctx t bs present (gs.map Guardian.shareKey) DM.init = .ok dm ∧
              dm.plaintextTally E dlogSystemMax ctx t m = .ok (some pt) ∧ pt.IsResult im vs ∧
              dm.plaintextBallots E dlogSystemMax ctx bs m = .ok (some pts) ∧
              List.Forall₂ (fun v (e : String × PlaintextTally) => e.1 = v.plain.objectId ∧ e.2.IsVote im v)
                (spoiledVotes vs) pts := by
  have hs : Shipped E.P := .inl ⟨hE, hp⟩
  obtain ⟨hnq, hpow⟩ := C92_standard_sizes.2.2.2 n hn
  rw [← hE] at hnq hpow
  obtain ⟨gs0, gs, kcm, jk, b, ctx, h1, h2, h3, -, h4, h5, h6, h7⟩ := C68_whole_election_partial hs.valid hs.square hlen loads hl hs.width
    n quorum hquorum hnq (fun i hi => hpow i (by omega)) rands hr nonces me dlogSystemMax (by decide) json m im he
  refine ⟨gs0, gs, kcm, jk, b, ctx, h1, h2, h3, h4, h5, h6, fun vs hvs hmax => ?_⟩
  have hq : dlogSystemMax < E.P.q := by rw [hE]; exact C92_standard_sizes.2.1
  obtain ⟨store, t, bs, hst, ht, -, hbs, h8⟩ := h7 vs hvs (lt_of_le_of_lt hmax hq) hmax
  exact ⟨store, t, bs, hst, ht, hbs, fun present hin hnd hqp sd => (h8 present hin hnd sd).1 hqp⟩

/-- C92 (C74 at the standard constants) What `eg e2e` publishes is right. -/
theorem C92_e2e_sound (hp : standardConstants.p.Prime) (hE : E.P = standardConstants.params) (hlen : HmacLen E)
    (loads : Bytes → R (List Char)) (hl : ReadsCoordinate loads) (json : ContestData → Bytes)
    (rnd : E2eRandom) (n quorum : Nat) (hquorum : 0 < quorum) (hn : n ≤ 255) (hq : quorum ≤ 512)
    (hr : ∀ i < n, (rnd.polynomials i).length = quorum)
    (m : Manifest) (im : InternalManifest) (he : ElectionReady E m im) (ballots : List PlaintextBallot)
    (hrnd : rnd.ballots.length = ballots.length) (hstyle : ∀ b ∈ ballots, ∃ d, im.StyleHas b.styleId d)
    (spoilId url : Option String) (hmax : (castIn spoilId ballots).length ≤ 100000000) (r : E2eResult)
    (h : e2eRun E loads json dlogSystemMax rnd n quorum m ballots spoilId url = .ok r) :
    (ballots.map (fun b => b.objectId)).Nodup ∧ quorum ≤ n ∧ m.Named ∧
      r.results.Right im (castIn spoilId ballots) (spoiledIn spoilId ballots) ∧ r.results.Printed m r.printed := by
  have hs : Shipped E.P := .inl ⟨hE, hp⟩
  obtain ⟨hnq, hpow⟩ := C92_standard_sizes.2.2.2 n hn
  rw [← hE] at hnq hpow
  have hlim : dlogSystemMax < E.P.q := by rw [hE]; exact C92_standard_sizes.2.1
  obtain ⟨a, b, c, d, e, -⟩ := C74_e2e_sound_partial hs.valid hs.square hlen loads hl hs.width json dlogSystemMax (by decide) rnd n quorum
    hquorum hnq (fun i hi => hpow i (by omega)) hr m im he ballots hrnd hstyle spoilId url (lt_of_le_of_lt hmax hlim) hmax r h
  exact ⟨a, b, c, d, e⟩

/-- The test constants, a key and an encryption of three: the conditions are met. -/
example : Shipped largeTestConstants.params ∧ isValidResidue largeTestConstants.params largeTestConstants.params.g = true ∧
    EncryptsWith largeTestConstants.params largeTestConstants.params.g 5 3
      ⟨largeTestConstants.params.g ^ 5 % largeTestConstants.params.p, largeTestConstants.params.g ^ 3 * largeTestConstants.params.g ^ 5
        % largeTestConstants.params.p⟩ :=
  ⟨.inr rfl, by decide +kernel, rfl, by decide +kernel⟩

end EG
