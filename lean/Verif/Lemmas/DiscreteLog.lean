import Verif.Model.DiscreteLog
import Verif.Lemmas.Group

/-!
# Helper lemmas: discrete logarithm cache
-/

namespace EG

variable {P : Params}

theorem gPowP_zero (hp : 1 < P.p) : gPowP P 0 = 1 := by
  simp [gPowP, powP, Nat.mod_eq_of_lt hp]

theorem gPowP_succ (hp : 1 < P.p) (e : Nat) : multP P P.g (gPowP P e) = gPowP P (e + 1) := by
  rw [← castP_inj (multP_lt hp _ _) (gPowP_lt (by omega) _), multP_cast, gPowP_cast, gPowP_cast,
    pow_succ, mul_comm]

theorem gPowP_inj_lt (hv : P.Valid) {a b : Nat} (ha : a < P.q) (hb : b < P.q) :
    gPowP P a = gPowP P b ↔ a = b := by
  constructor
  · intro h
    rw [← castP_inj (gPowP_lt hv.p_pos _) (gPowP_lt hv.p_pos _), gPowP_cast, gPowP_cast,
      g_pow_inj hv, castP_inj ha hb] at h
    exact h
  · rintro rfl; rfl

/-! ### the pure function -/

theorem dlogFrom_ok (hp : 1 < P.p) {x m : Nat} :
    ∀ {fuel e : Nat}, e ≤ m → m ≤ e + fuel → gPowP P m = x →
      (∀ j, e ≤ j → j < m → gPowP P j ≠ x) → dlogFrom P x fuel e (gPowP P e) = .ok m := by
  intro fuel
  induction fuel with
  | zero =>
    intro e h1 h2 h3 h4
    have : e = m := by omega
    subst this
    unfold dlogFrom; rw [if_pos h3]
  | succ f ih =>
    intro e h1 h2 h3 h4
    unfold dlogFrom
    by_cases hx : gPowP P e = x
    · have : e = m := by
        by_contra hne
        exact h4 e (le_refl _) (by omega) hx
      subst this; rw [if_pos hx]
    · rw [if_neg hx, gPowP_succ hp]
      apply ih
      · rcases Nat.lt_or_ge e m with h | h
        · omega
        · have : e = m := by omega
          subst this; exact absurd h3 hx
      · omega
      · exact h3
      · intro j hj hjm; exact h4 j (by omega) hjm

theorem dlogFrom_error (hp : 1 < P.p) {x : Nat} :
    ∀ {fuel e : Nat}, (∀ j, e ≤ j → j ≤ e + fuel → gPowP P j ≠ x) →
      dlogFrom P x fuel e (gPowP P e) = .error .dlogExponent := by
  intro fuel
  induction fuel with
  | zero =>
    intro e h
    unfold dlogFrom; rw [if_neg (h e (le_refl _) (by omega))]
  | succ f ih =>
    intro e h
    unfold dlogFrom
    rw [if_neg (h e (le_refl _) (by omega)), gPowP_succ hp]
    apply ih
    intro j hj hjm; exact h j (by omega) (by omega)

/-- `dlog` of `g^m` is `m`. -/
theorem dlog_gPow (hv : P.Valid) {maxE m : Nat} (hm : m ≤ maxE) (hmq : m < P.q) :
    dlog P maxE (gPowP P m) = .ok m := by
  unfold dlog
  rw [← gPowP_zero hv.one_lt_p]
  apply dlogFrom_ok hv.one_lt_p (by omega) (by omega) rfl
  intro j _ hj h
  rw [gPowP_inj_lt hv (by omega) hmq] at h
  omega

theorem dlog_error (hp : 1 < P.p) {maxE x : Nat} (h : ∀ j ≤ maxE, gPowP P j ≠ x) :
    dlog P maxE x = .error .dlogExponent := by
  unfold dlog
  rw [← gPowP_zero hp]
  apply dlogFrom_error hp
  intro j _ hj; exact h j (by omega)

theorem dlog_ok_iff (hp : 1 < P.p) {maxE x m : Nat} (h : dlog P maxE x = .ok m) :
    m ≤ maxE ∧ gPowP P m = x := by
  by_cases hex : ∃ j ≤ maxE, gPowP P j = x
  · have : ∃ j, j ≤ maxE ∧ gPowP P j = x := hex
    classical
    have hs := Nat.find_spec this
    have hmin : ∀ j, j < Nat.find this → gPowP P j ≠ x := by
      intro j hj hx
      exact Nat.find_min this hj ⟨by omega, hx⟩
    have h2 : dlog P maxE x = .ok (Nat.find this) := by
      unfold dlog
      rw [← gPowP_zero hp]
      apply dlogFrom_ok hp (by omega) (by omega) hs.2
      intro j _ hj; exact hmin j hj
    rw [h2] at h
    cases h
    exact hs
  · have h2 := dlog_error (P := P) hp (maxE := maxE) (x := x)
      (fun j hj hx => hex ⟨j, hj, hx⟩)
    rw [h2] at h; cases h

theorem dlog_error_kind (hp : 1 < P.p) {maxE x : Nat} {err : Err}
    (h : dlog P maxE x = .error err) : err = .dlogExponent := by
  by_cases hex : ∃ j ≤ maxE, gPowP P j = x
  · exfalso
    classical
    have hs := Nat.find_spec hex
    have h2 : dlog P maxE x = .ok (Nat.find hex) := by
      unfold dlog
      rw [← gPowP_zero hp]
      apply dlogFrom_ok hp (by omega) (by omega) hs.2
      intro j _ hj hx
      exact Nat.find_min hex hj ⟨by omega, hx⟩
    rw [h2] at h; cases h
  · rw [dlog_error hp (fun j hj hx => hex ⟨j, hj, hx⟩)] at h
    cases h; rfl

/-! ### the cache -/

/-- The cache with the exponents `0..n`. -/
def canon (P : Params) (n : Nat) : DCache := (List.range (n + 1)).map (fun e => (gPowP P e, e))

theorem canon_zero (hp : 1 < P.p) : canon P 0 = dlogInitial := by
  simp [canon, dlogInitial, gPowP_zero hp]

theorem canon_succ (n : Nat) : canon P (n + 1) = canon P n ++ [(gPowP P (n + 1), n + 1)] := by
  unfold canon
  rw [List.range_succ (n := n + 1), List.map_append]; rfl

theorem canon_getLast (n : Nat) : (canon P n).getLast? = some (gPowP P n, n) := by
  unfold canon
  rw [List.range_succ, List.map_append]; simp

theorem dGet_append_of_none {c d : DCache} {k : Nat} (h : dGet c k = none) :
    dGet (c ++ d) k = dGet d k := by
  unfold dGet at *
  rw [List.find?_append]
  have : c.find? (fun e => e.1 == k) = none := by
    cases hh : c.find? (fun e => e.1 == k) with
    | none => rfl
    | some v => rw [hh] at h; simp at h
  rw [this]; simp

theorem dGet_append_of_some {c d : DCache} {k v : Nat} (h : dGet c k = some v) :
    dGet (c ++ d) k = some v := by
  unfold dGet at *
  rw [List.find?_append]
  cases hh : c.find? (fun e => e.1 == k) with
  | none => rw [hh] at h; simp at h
  | some w => rw [hh] at h; simpa using h

theorem dSet_of_none {c : DCache} {k v : Nat} (h : dGet c k = none) : dSet c k v = c ++ [(k, v)] := by
  induction c with
  | nil => rfl
  | cons e c ih =>
    unfold dGet at h
    simp only [List.find?_cons] at h
    by_cases hk : (e.1 == k) = true
    · rw [hk] at h; simp at h
    · simp only [Bool.not_eq_true] at hk
      rw [hk] at h
      simp only [dSet, hk]
      rw [ih h]; rfl

theorem canon_get (hv : P.Valid) {n m : Nat} (hm : m ≤ n) (hn : n < P.q) :
    dGet (canon P n) (gPowP P m) = some m := by
  induction n with
  | zero =>
    have : m = 0 := by omega
    subst this
    simp [canon, dGet]
  | succ n ih =>
    rw [canon_succ]
    by_cases h : m ≤ n
    · exact dGet_append_of_some (ih h (by omega))
    · have hm' : m = n + 1 := by omega
      subst hm'
      rw [dGet_append_of_none]
      · simp [dGet]
      · unfold dGet
        rw [Option.map_eq_none_iff, List.find?_eq_none]
        intro e he
        simp only [canon, List.mem_map, List.mem_range] at he
        obtain ⟨j, hj, rfl⟩ := he
        simp only [beq_iff_eq]
        rw [gPowP_inj_lt hv (by omega) hn]
        omega

theorem canon_get_some {n x e : Nat} (h : dGet (canon P n) x = some e) :
    e ≤ n ∧ gPowP P e = x := by
  unfold dGet at h
  rw [Option.map_eq_some_iff] at h
  obtain ⟨⟨k, v⟩, h1, rfl⟩ := h
  have h2 := List.mem_of_find?_eq_some h1
  have h3 := List.find?_some h1
  simp only [canon, List.mem_map, List.mem_range] at h2
  obtain ⟨j, hj, hh⟩ := h2
  cases hh
  simp only [beq_iff_eq] at h3
  exact ⟨by omega, h3⟩

theorem canon_get_none (hv : P.Valid) {n x : Nat} (hn : n < P.q)
    (h : dGet (canon P n) x = none) : ∀ j ≤ n, gPowP P j ≠ x := by
  intro j hj hx
  rw [← hx, canon_get hv hj hn] at h
  cases h

theorem canon_set (hv : P.Valid) {n : Nat} (hn : n + 1 < P.q) :
    dSet (canon P n) (gPowP P (n + 1)) (n + 1) = canon P (n + 1) := by
  rw [canon_succ, dSet_of_none]
  cases h : dGet (canon P n) (gPowP P (n + 1)) with
  | none => rfl
  | some e =>
    obtain ⟨h1, h2⟩ := canon_get_some h
    rw [gPowP_inj_lt hv (by omega) hn] at h2
    omega

theorem fillLoop_canon (hv : P.Valid) {x : Nat} :
    ∀ {fuel n : Nat}, n + fuel < P.q →
      ∃ n', n ≤ n' ∧ n' ≤ n + fuel ∧ (fillLoop P x fuel (canon P n) (gPowP P n) n).2 = canon P n' ∧
        ((∃ m, n ≤ m ∧ m ≤ n + fuel ∧ gPowP P m = x) →
          (fillLoop P x fuel (canon P n) (gPowP P n) n).1 = .ok () ∧ gPowP P n' = x) ∧
        ((∀ m, n ≤ m → m ≤ n + fuel → gPowP P m ≠ x) →
          (fillLoop P x fuel (canon P n) (gPowP P n) n).1 = .error .dlogExponent ∧
            n' = n + fuel) := by
  intro fuel
  induction fuel with
  | zero =>
    intro n hn
    refine ⟨n, le_refl _, by omega, ?_, ?_, ?_⟩
    · unfold fillLoop; split <;> rfl
    · rintro ⟨m, h1, h2, h3⟩
      have : m = n := by omega
      subst this
      unfold fillLoop; rw [if_pos h3.symm]; exact ⟨rfl, h3⟩
    · intro h
      unfold fillLoop
      rw [if_neg (fun hx => h n (le_refl _) (by omega) hx.symm)]
      exact ⟨rfl, by omega⟩
  | succ f ih =>
    intro n hn
    by_cases hx : x = gPowP P n
    · refine ⟨n, le_refl _, by omega, ?_, ?_, ?_⟩
      · unfold fillLoop; rw [if_pos hx]
      · intro _; unfold fillLoop; rw [if_pos hx]; exact ⟨rfl, hx.symm⟩
      · intro h; exact absurd hx.symm (h n (le_refl _) (by omega))
    · have hstep : fillLoop P x (f + 1) (canon P n) (gPowP P n) n
          = fillLoop P x f (canon P (n + 1)) (gPowP P (n + 1)) (n + 1) := by
        conv_lhs => unfold fillLoop
        rw [if_neg hx]
        simp only [gPowP_succ hv.one_lt_p, canon_set hv (by omega : n + 1 < P.q)]
      obtain ⟨n', h1, h2, h3, h4, h5⟩ := ih (n := n + 1) (by omega)
      rw [hstep]
      refine ⟨n', by omega, by omega, h3, ?_, ?_⟩
      · rintro ⟨m, g1, g2, g3⟩
        apply h4
        refine ⟨m, ?_, by omega, g3⟩
        by_contra hlt
        have : m = n := by omega
        subst this; exact hx g3.symm
      · intro h
        obtain ⟨e1, e2⟩ := h5 (fun m g1 g2 => h m (by omega) (by omega))
        exact ⟨e1, by omega⟩

theorem precomputeLoop_canon (hv : P.Valid) :
    ∀ {fuel n : Nat}, n + fuel < P.q →
      precomputeLoop P fuel (canon P n) (gPowP P n) n = canon P (n + fuel) := by
  intro fuel
  induction fuel with
  | zero => intro n _; rfl
  | succ f ih =>
    intro n hn
    unfold precomputeLoop
    simp only [gPowP_succ hv.one_lt_p, canon_set hv (by omega : n + 1 < P.q)]
    rw [ih (by omega)]
    congr 1; omega

/-- What `compute_discrete_log` does on a cache that holds exactly the exponents `0..n`. -/
theorem computeDlog_canon (hv : P.Valid) (hq : dlogSystemMax < P.q) {n : Nat}
    (hn : n ≤ dlogSystemMax) (x maxE : Nat) (lazy : Bool) :
    ∃ n', n ≤ n' ∧ n' ≤ max n maxE ∧ n' ≤ dlogSystemMax ∧
      (computeDlog P x (canon P n) maxE lazy).2 = canon P n' ∧
      (∀ m, (computeDlog P x (canon P n) maxE lazy).1 = .ok m →
        m ≤ dlogSystemMax ∧ m ≤ max n maxE ∧ gPowP P m = x) ∧
      (∀ m ≤ n, gPowP P m = x → (computeDlog P x (canon P n) maxE lazy).1 = .ok m) ∧
      (∀ m ≤ maxE, maxE ≤ dlogSystemMax → lazy = true → gPowP P m = x →
        (computeDlog P x (canon P n) maxE lazy).1 = .ok m) ∧
      (∀ err, (computeDlog P x (canon P n) maxE lazy).1 = .error err →
        (lazy = true ∧ err = .dlogExponent) ∨ (lazy = false ∧ err = .dlogNotFound)) := by
  have hnq : n < P.q := by omega
  cases hg : dGet (canon P n) x with
  | some e =>
    obtain ⟨h1, h2⟩ := canon_get_some hg
    have hc : computeDlog P x (canon P n) maxE lazy = (.ok e, canon P n) := by
      unfold computeDlog; rw [hg]
    rw [hc]
    have key : ∀ m, m < P.q → gPowP P m = x → m = e := by
      intro m hm hx
      rw [← h2, gPowP_inj_lt hv hm (by omega)] at hx; exact hx
    refine ⟨n, le_refl _, by omega, hn, rfl, ?_, ?_, ?_, ?_⟩
    · rintro m hm; cases hm; exact ⟨by omega, by omega, h2⟩
    · intro m hm hx; rw [key m (by omega) hx]
    · intro m hm hms _ hx; rw [key m (by omega) hx]
    · intro err h; cases h
  | none =>
    have hne := canon_get_none hv hnq hg
    cases lazy with
    | false =>
      have hc : computeDlog P x (canon P n) maxE false = (.error .dlogNotFound, canon P n) := by
        unfold computeDlog; rw [hg]; rfl
      rw [hc]
      refine ⟨n, le_refl _, by omega, hn, rfl, ?_, ?_, ?_, ?_⟩
      · rintro m hm; cases hm
      · intro m hm hx; exact absurd hx (hne m hm)
      · intro m _ _ h; cases h
      · intro err h; cases h; exact Or.inr ⟨rfl, rfl⟩
    | true =>
      by_cases hmax : maxE > dlogSystemMax
      · have hc : computeDlog P x (canon P n) maxE true = (.error .dlogExponent, canon P n) := by
          unfold computeDlog fillCache; rw [hg, if_pos hmax]; rfl
        rw [hc]
        refine ⟨n, le_refl _, by omega, hn, rfl, ?_, ?_, ?_, ?_⟩
        · rintro m hm; cases hm
        · intro m hm hx; exact absurd hx (hne m hm)
        · intro m _ h; omega
        · intro err h; cases h; exact Or.inl ⟨rfl, rfl⟩
      · by_cases hlt : n > maxE
        · have hc : computeDlog P x (canon P n) maxE true = (.error .dlogExponent, canon P n) := by
            unfold computeDlog fillCache; rw [hg, if_neg hmax, canon_getLast]
            simp only [if_pos hlt]; rfl
          rw [hc]
          refine ⟨n, le_refl _, by omega, hn, rfl, ?_, ?_, ?_, ?_⟩
          · rintro m hm; cases hm
          · intro m hm hx; exact absurd hx (hne m hm)
          · intro m hm _ _ hx; exact absurd hx (hne m (by omega))
          · intro err h; cases h; exact Or.inl ⟨rfl, rfl⟩
        · have hfc : fillCache P x (canon P n) maxE
              = fillLoop P x (maxE - n) (canon P n) (gPowP P n) n := by
            unfold fillCache; rw [if_neg hmax, canon_getLast]; simp only [if_neg hlt]
          obtain ⟨n', h1, h2, h3, h4, h5⟩ :=
            fillLoop_canon hv (x := x) (fuel := maxE - n) (n := n) (by omega)
          by_cases hex : ∃ m, n ≤ m ∧ m ≤ n + (maxE - n) ∧ gPowP P m = x
          · obtain ⟨e1, e2⟩ := h4 hex
            have hc : computeDlog P x (canon P n) maxE true = (.ok n', canon P n') := by
              unfold computeDlog
              rw [hg, hfc, show fillLoop P x (maxE - n) (canon P n) (gPowP P n) n
                = (.ok (), canon P n') from Prod.ext e1 h3]
              simp only [Bool.not_true, Bool.false_eq_true, if_false]
              rw [← e2, canon_get hv (le_refl _) (by omega)]
            rw [hc]
            have key : ∀ m, m < P.q → gPowP P m = x → m = n' := by
              intro m hm hx
              rw [← e2, gPowP_inj_lt hv hm (by omega)] at hx; exact hx
            refine ⟨n', by omega, by omega, by omega, rfl, ?_, ?_, ?_, ?_⟩
            · rintro m hm; cases hm; exact ⟨by omega, by omega, e2⟩
            · intro m hm hx; rw [key m (by omega) hx]
            · intro m hm hms _ hx; rw [key m (by omega) hx]
            · intro err h; cases h
          · have hex' : ∀ m, n ≤ m → m ≤ n + (maxE - n) → gPowP P m ≠ x :=
              fun m g1 g2 g3 => hex ⟨m, g1, g2, g3⟩
            obtain ⟨e1, e2⟩ := h5 hex'
            have hc : computeDlog P x (canon P n) maxE true = (.error .dlogExponent, canon P n') := by
              unfold computeDlog
              rw [hg, hfc, show fillLoop P x (maxE - n) (canon P n) (gPowP P n) n
                = (.error .dlogExponent, canon P n') from Prod.ext e1 h3]
              simp only [Bool.not_true, Bool.false_eq_true, if_false]
            rw [hc]
            refine ⟨n', by omega, by omega, by omega, rfl, ?_, ?_, ?_, ?_⟩
            · rintro m hm; cases hm
            · intro m hm hx; exact absurd hx (hne m hm)
            · intro m hm hms _ hx
              rcases Nat.lt_or_ge m n with h | h
              · exact absurd hx (hne m (by omega))
              · exact absurd hx (hex' m h (by omega))
            · intro err h; cases h; exact Or.inl ⟨rfl, rfl⟩

theorem precompute_canon (hv : P.Valid) (hq : dlogSystemMax < P.q) {n : Nat}
    (hn : n ≤ dlogSystemMax) (e : Nat) :
    ∃ n', n ≤ n' ∧ n' ≤ max n e ∧ n' ≤ dlogSystemMax ∧ (precompute P e (canon P n)).2 = canon P n' := by
  unfold precompute
  split
  · exact ⟨n, le_refl _, by omega, hn, rfl⟩
  · rw [canon_getLast]
    simp only
    split
    · exact ⟨n, le_refl _, by omega, hn, rfl⟩
    · refine ⟨e, by omega, by omega, by omega, ?_⟩
      rw [precomputeLoop_canon hv (by omega), show n + (e - n) = e by omega]

end EG
