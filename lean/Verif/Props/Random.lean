import Mathlib.Data.Fintype.Pi
import Mathlib.Data.Fintype.Card
import Verif.Model.Random
import Verif.Model.KeyCeremony
import Verif.Props.Polynomial

/-!
# C95: random numbers and random keys
-/

namespace EG

theorem randRangeLoop_some (start random : Nat) (ds : List Nat) (h : random < start) (v : Nat) (rest : List Nat) :
    randRangeLoop start random ds = some (v, rest) ↔
      ∃ pre, ds = pre ++ v :: rest ∧ (∀ d ∈ pre, d < start) ∧ start ≤ v := by
  induction ds generalizing random with
  | nil => unfold randRangeLoop; simp [h]
  | cons d ds ih =>
    unfold randRangeLoop
    rw [if_pos h]
    by_cases hd : d < start
    · simp only [ih d hd]
      constructor
      · rintro ⟨pre, rfl, hp, hv⟩
        exact ⟨d :: pre, rfl, by simpa [hd] using hp, hv⟩
      · rintro ⟨pre, he, hp, hv⟩
        cases pre with
        | nil => simp only [List.nil_append, List.cons.injEq] at he; omega
        | cons x pre =>
          simp only [List.cons_append, List.cons.injEq] at he
          exact ⟨pre, he.2, fun y hy => hp y (by simp [hy]), hv⟩
    · unfold randRangeLoop
      simp only [hd, if_false, Option.some.injEq, Prod.mk.injEq]
      constructor
      · rintro ⟨rfl, rfl⟩
        exact ⟨[], rfl, by simp, by omega⟩
      · rintro ⟨pre, he, hp, hv⟩
        cases pre with
        | nil => simpa using he
        | cons x pre =>
          simp only [List.cons_append, List.cons.injEq] at he
          have := hp x (by simp)
          omega

/-- C95: from a positive start, `rand_range_q` returns the first draw that is not below it. -/
theorem C95_range (start : Nat) (hs : 0 < start) (ds : List Nat) (v : Nat) (rest : List Nat) :
    randRange start ds = some (v, rest) ↔
      ∃ pre, ds = pre ++ v :: rest ∧ (∀ d ∈ pre, d < start) ∧ start ≤ v :=
  randRangeLoop_some start 0 ds hs v rest

/-- C95: it is still running exactly when all draws so far are below the start. -/
theorem C95_range_running (start : Nat) (hs : 0 < start) (ds : List Nat) :
    randRange start ds = none ↔ ∀ d ∈ ds, d < start := by
  have key : ∀ random, random < start → (randRangeLoop start random ds = none ↔ ∀ d ∈ ds, d < start) := by
    induction ds with
    | nil => intro random h; unfold randRangeLoop; simp [h]
    | cons d ds ih =>
      intro random h
      unfold randRangeLoop
      rw [if_pos h]
      by_cases hd : d < start
      · simp only [ih d hd]; simp [hd]
      · unfold randRangeLoop; simp [hd]
  exact key 0 hs

/-- C95: from a start that is not below `q` it never returns. -/
theorem C95_range_never (q start : Nat) (hq : 0 < q) (hs : q ≤ start) (ds : List Nat) (hd : ∀ d ∈ ds, d < q) :
    randRange start ds = none :=
  (C95_range_running start (by omega) ds).2 (fun d h => by have := hd d h; omega)

example : randRange 2 [0, 1, 7, 3] = some (7, [3]) := by decide
example : randRange 2 [0, 1, 1] = none := by decide

/-- C95 fails for the start 0: the result is always 0 and nothing is drawn. -/
theorem C95_start_zero_fails (ds : List Nat) : randRange 0 ds = some (0, ds) := by
  unfold randRange randRangeLoop; simp

/-- The value that a sequence of `n` draws below `q` gives. -/
def drawn (start : Nat) {n q : Nat} (f : Fin n → Fin q) : Option Nat :=
  (randRange start (List.ofFn (fun i => (f i : Nat)))).map (·.1)

theorem drawn_iff (start : Nat) (hs : 0 < start) {n q : Nat} (f : Fin n → Fin q) (v : Nat) :
    drawn start f = some v ↔ ∃ i : Fin n, (f i : Nat) = v ∧ start ≤ v ∧ ∀ j < i, (f j : Nat) < start := by
  unfold drawn
  rw [Option.map_eq_some_iff]
  constructor
  · rintro ⟨⟨w, rest⟩, hr, hw⟩
    simp only at hw
    subst hw
    obtain ⟨pre, he, hp, hv⟩ := (C95_range start hs _ _ _).1 hr
    have hlen : pre.length < n := by
      have := congrArg List.length he
      simp only [List.length_ofFn, List.length_append, List.length_cons] at this
      omega
    refine ⟨⟨pre.length, hlen⟩, ?_, hv, ?_⟩
    · have := congrArg (fun l => l[pre.length]?) he
      simpa [List.getElem?_ofFn, hlen] using this
    · intro j hj
      have hj' : (j : Nat) < pre.length := hj
      have := congrArg (fun l => l[(j : Nat)]?) he
      simp only [List.getElem?_ofFn, j.isLt, dite_true, List.getElem?_append_left hj'] at this
      exact hp _ (List.mem_of_getElem? this.symm)
  · rintro ⟨i, hi, hv, hj⟩
    refine ⟨(v, (List.ofFn (fun i => (f i : Nat))).drop (i + 1)), ?_, rfl⟩
    rw [C95_range start hs]
    refine ⟨(List.ofFn (fun i => (f i : Nat))).take i, ?_, ?_, hv⟩
    · have hl : (i : Nat) < (List.ofFn (fun i => (f i : Nat))).length := by simp
      have hg : (List.ofFn (fun i => (f i : Nat)))[(i : Nat)] = v := by simpa using hi
      conv_lhs => rw [← List.take_append_drop i (List.ofFn (fun i => (f i : Nat))), List.drop_eq_getElem_cons hl, hg]
    · intro d hd
      obtain ⟨k, hk, rfl⟩ := List.mem_iff_getElem.1 hd
      simp only [List.length_take, List.length_ofFn] at hk
      simp only [List.getElem_take, List.getElem_ofFn]
      exact hj ⟨k, by omega⟩ (by show k < (i : Nat); omega)

/-- C95: the result is uniform: among all sequences of `n` draws below `q`, as many give one number of the range as
any other. -/
theorem C95_uniform (start n q : Nat) (hs : 0 < start) (v w : Fin q) (hv : start ≤ v) (hw : start ≤ w) :
    (Finset.univ.filter (fun f : Fin n → Fin q => drawn start f = some (v : Nat))).card
      = (Finset.univ.filter (fun f : Fin n → Fin q => drawn start f = some (w : Nat))).card := by
  have key : ∀ (v w : Fin q), start ≤ v → start ≤ w → ∀ f : Fin n → Fin q, drawn start f = some (v : Nat) →
      drawn start (fun i => Equiv.swap v w (f i)) = some (w : Nat) := by
    intro v w hv hw f hf
    rw [drawn_iff start hs] at hf ⊢
    obtain ⟨i, hi, -, hj⟩ := hf
    refine ⟨i, ?_, hw, ?_⟩
    · have : f i = v := Fin.ext hi
      rw [this, Equiv.swap_apply_left]
    · intro j hji
      have hlt := hj j hji
      have h1 : f j ≠ v := fun h => by rw [h] at hlt; omega
      have h2 : f j ≠ w := fun h => by rw [h] at hlt; omega
      rw [Equiv.swap_apply_of_ne_of_ne h1 h2]
      exact hlt
  refine Finset.card_bij' (fun f _ => fun i => Equiv.swap v w (f i)) (fun f _ => fun i => Equiv.swap w v (f i)) ?_ ?_ ?_ ?_
  · intro f hf
    simp only [Finset.mem_filter, Finset.mem_univ, true_and] at hf ⊢
    exact key v w hv hw f hf
  · intro f hf
    simp only [Finset.mem_filter, Finset.mem_univ, true_and] at hf ⊢
    exact key w v hw hv f hf
  · intro f _
    funext i
    simp [Equiv.swap_comm w v]
  · intro f _
    funext i
    simp [Equiv.swap_comm w v]

example : (Finset.univ.filter (fun f : Fin 2 → Fin 5 => drawn 2 f = some 3)).card = 7 := by decide

theorem g_mod_inj {P : Params} (hv : P.Valid) {s t : Nat} (hs : s < P.q) (ht : t < P.q)
    (h : P.g ^ s % P.p = P.g ^ t % P.p) : s = t := by
  have h' : ((P.g ^ s : Nat) : ZMod P.p) = ((P.g ^ t : Nat) : ZMod P.p) := (ZMod.natCast_eq_natCast_iff' _ _ _).2 h
  push_cast at h'
  have := (g_pow_inj hv).1 h'
  rw [ZMod.natCast_eq_natCast_iff', Nat.mod_eq_of_lt hs, Nat.mod_eq_of_lt ht] at this
  exact this

/-- C95: a random key pair has a secret in `[2, q)`, the first draw in that range, and the public key that belongs to
it, an element of the group other than 1 and `g`; no draw makes it fail, and every such secret can be drawn. -/
theorem C95_keypair (P : Params) (hv : P.Valid) (ds : List Nat) (hd : ∀ d ∈ ds, d < P.q) :
    (∀ r rest, keypairRandom P ds = some (r, rest) → ∃ kp, r = .ok kp ∧ 2 ≤ kp.secret ∧ kp.secret < P.q ∧
      kp.pub = P.g ^ kp.secret % P.p ∧ isValidResidue P kp.pub = true ∧ kp.pub ≠ 1 ∧ kp.pub ≠ P.g ∧
      ∃ pre, ds = pre ++ kp.secret :: rest ∧ ∀ d ∈ pre, d < 2) ∧
    (∀ s, 2 ≤ s → s < P.q → keypairRandom P [s] = some (.ok ⟨s, P.g ^ s % P.p⟩, [])) := by
  constructor
  · intro r rest h
    unfold keypairRandom at h
    rw [Option.map_eq_some_iff] at h
    obtain ⟨⟨s, rest'⟩, hr, he⟩ := h
    simp only [Prod.mk.injEq] at he
    obtain ⟨rfl, rfl⟩ := he
    obtain ⟨pre, hds, hpre, hs⟩ := (C95_range 2 (by decide) ds s rest').1 hr
    have hsq : s < P.q := hd s (by rw [hds]; simp)
    refine ⟨⟨s, gPowP P s⟩, ?_, hs, hsq, rfl, ?_, ?_, ?_, pre, hds, hpre⟩
    · have : ¬ s < 2 := by omega
      simp [keypairFromSecret, this, getOptional]
    · exact gPowP_residue hv s
    · intro h
      have h0 : P.g ^ s % P.p = P.g ^ 0 % P.p := by
        rw [pow_zero, Nat.mod_eq_of_lt hv.p_prime.one_lt]; exact h
      have := g_mod_inj hv hsq hv.q_pos h0
      omega
    · intro h
      have h1 : P.g ^ s % P.p = P.g ^ 1 % P.p := by
        rw [pow_one, Nat.mod_eq_of_lt hv.g_lt]; exact h
      have := g_mod_inj hv hsq hv.q_prime.one_lt h1
      omega
  · intro s hs hsq
    have : ¬ s ≤ 1 := by omega
    simp [keypairRandom, randRange, randRangeLoop, this, keypairFromSecret, getOptional, gPowP, powP]

example : keypairRandom extraSmall [1, 0, 5, 4] = some (.ok ⟨5, 16 ^ 5 % 157⟩, [4]) := by decide

theorem nonce_polyAt (q n x : Nat) (rands : List Nat) (j : Nat) :
    ((polyAt ((rands.zipIdx j).map (fun ri => (n + ri.2) % q)) x : Nat) : ZMod q)
      = n * (polyAt (List.replicate rands.length 1) x : Nat) + (polyAt ((rands.zipIdx j).map (·.2)) x : Nat) := by
  induction rands generalizing j with
  | nil => simp [polyAt]
  | cons r rs ih =>
    simp only [List.zipIdx_cons, List.map_cons, polyAt, List.length_cons, List.replicate_succ, Nat.cast_add, Nat.cast_mul,
      ih, ZMod.natCast_mod]
    push_cast
    ring

/-- C13 fails for polynomials generated from a nonce (for tests only, says the code): a single coordinate determines
the secret, whatever the quorum.  The coordinate is the one of any guardian whose sequence order `x` has
`1 + x + x² + … ≠ 0` modulo `q`. -/
theorem C13_nonce_fails (E : Env) (hv : E.P.Valid) (n n' : Nat) (hn : n < E.P.q) (hn' : n' < E.P.q) (rands rands' : List Nat)
    (hlen : rands.length = rands'.length) (x : Nat) (hx : x < E.P.q)
    (hsum : polyAt (List.replicate rands.length 1) x % E.P.q ≠ 0)
    (h : computeCoordinate E.P x (generatePolynomialNonce E n rands)
      = computeCoordinate E.P x (generatePolynomialNonce E n' rands')) : n = n' := by
  have : Fact E.P.q.Prime := ⟨hv.q_prime⟩
  rw [C10_nonce_polynomial E hv, C10_nonce_polynomial E hv, C10_coordinate_value E hv _ x hx,
    C10_coordinate_value E hv _ x hx, Except.ok.injEq, ← ZMod.natCast_eq_natCast_iff'] at h
  simp only [List.map_map, Function.comp_def] at h
  rw [nonce_polyAt, nonce_polyAt] at h
  have hidx : ∀ (l l' : List Nat) (j : Nat), l.length = l'.length → (l.zipIdx j).map (·.2) = (l'.zipIdx j).map (·.2) := by
    intro l
    induction l with
    | nil => intro l' j h; cases l' <;> simp_all
    | cons a l ih => intro l' j h; cases l' with
      | nil => simp at h
      | cons b l' => simp only [List.zipIdx_cons, List.map_cons]; rw [ih l' (j + 1) (by simpa using h)]
  rw [hidx rands rands' 0 hlen, ← hlen] at h
  have h2 := mul_right_cancel₀ (b := ((polyAt (List.replicate rands.length 1) x : Nat) : ZMod E.P.q))
    (by rw [Ne, ZMod.natCast_eq_zero_iff]; exact fun hd => hsum (Nat.mod_eq_zero_of_dvd hd)) (add_right_cancel h)
  rwa [ZMod.natCast_eq_natCast_iff', Nat.mod_eq_of_lt hn, Nat.mod_eq_of_lt hn'] at h2

-- with quorum 3 the coordinate of guardian 1 is `3·nonce + 3`
example : (List.range 13).map (fun n => computeCoordinate extraSmall 1 (generatePolynomialNonce ⟨extraSmall, fun _ => 0, fun _ _ => []⟩ n [1, 1, 1]))
    = (List.range 13).map (fun n => .ok ((3 * n + 3) % 13)) := by decide +kernel

example : polyAt (List.replicate 3 1) 1 % extraSmall.q ≠ 0 := by decide

/-- C95 fails for guardians: their key pair comes from `rand_q`, so a secret of 0 or 1, which the library refuses
elsewhere, is accepted; the public key is then 1 or `g`. -/
theorem C95_guardian_key_fails (E : Env) (hv : E.P.Valid) (id : String) (order : Int) (r : Nat) (rest : List (Nat × Nat)) :
    keypairFromSecret E.P 0 = none ∧ keypairFromSecret E.P 1 = none ∧
    (∃ kp, generateElectionKeyPair E id order ((0, r) :: rest) = .ok kp ∧ kp.keyPair.secret = 0 ∧ kp.keyPair.pub = 1) ∧
    (∃ kp, generateElectionKeyPair E id order ((1, r) :: rest) = .ok kp ∧ kp.keyPair.secret = 1 ∧
      kp.keyPair.pub = E.P.g) := by
  refine ⟨rfl, rfl, ⟨_, rfl, rfl, ?_⟩, ⟨_, rfl, rfl, ?_⟩⟩
  · simp [mkCoefficient, gPowP, powP, Nat.mod_eq_of_lt hv.p_prime.one_lt]
  · simp [mkCoefficient, gPowP, powP, Nat.mod_eq_of_lt hv.g_lt]

end EG
