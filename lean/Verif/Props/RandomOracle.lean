import Verif.Props.BallotPrivacy
import Verif.Props.Hash
import Verif.Spec.RandomOracle
import Mathlib.Algebra.Order.BigOperators.Group.Finset

/-!
# C105: ballots with hashed challenges, for a random hash function
-/

namespace EG

open Finset

variable {P : Params}

/-! ### Lists of draws -/

theorem sum_consAll {α β : Type} [DecidableEq α] [AddCommMonoid β] (A : Finset α) (L : Finset (List α)) (F : List α → β) :
    ∑ l ∈ consAll A L, F l = ∑ a ∈ A, ∑ l ∈ L, F (a :: l) := by
  unfold consAll
  rw [sum_image, sum_product]
  rintro ⟨a, l⟩ _ ⟨b, m⟩ _ h
  simp only [List.cons.injEq] at h
  exact Prod.ext h.1 h.2

theorem mem_consAll {α : Type} [DecidableEq α] {A : Finset α} {L : Finset (List α)} {l : List α} :
    l ∈ consAll A L ↔ ∃ a ∈ A, ∃ m ∈ L, l = a :: m := by
  unfold consAll
  simp only [mem_image, mem_product, Prod.exists]
  constructor
  · rintro ⟨a, m, ⟨h1, h2⟩, rfl⟩; exact ⟨a, h1, m, h2, rfl⟩
  · rintro ⟨a, h1, m, h2, rfl⟩; exact ⟨a, m, ⟨h1, h2⟩, rfl⟩

theorem card_consAll {α : Type} [DecidableEq α] (A : Finset α) (L : Finset (List α)) :
    (consAll A L).card = A.card * L.card := by
  rw [card_eq_sum_ones, sum_consAll]
  simp

theorem mem_valueLists {M k : Nat} {vs : List Nat} (h : vs ∈ valueLists M k) : vs.length = k := by
  induction k generalizing vs with
  | zero => simp only [valueLists, mem_singleton] at h; rw [h]; rfl
  | succ k ih =>
    obtain ⟨a, _, m, hm, rfl⟩ := mem_consAll.1 h
    rw [List.length_cons, ih hm]

theorem card_valueLists (M k : Nat) : (valueLists M k).card = M ^ k := by
  induction k with
  | zero => rfl
  | succ k ih => rw [valueLists, card_consAll, card_range, ih, pow_succ, Nat.mul_comm]

/-! ### Random functions -/

theorem mem_oracles {f : Text → Nat} {T : Finset Text} {M : Nat} {s : Text → Nat} :
    s ∈ oracles f T M ↔ (∀ t ∈ T, s t < M) ∧ ∀ t, t ∉ T → s t = f t := by
  classical
  unfold oracles
  simp only [mem_image]
  constructor
  · rintro ⟨h, hh, rfl⟩
    rw [Finset.mem_pi] at hh
    refine ⟨fun t ht => ?_, fun t ht => ?_⟩
    · simp only [dif_pos ht]; exact mem_range.1 (hh t ht)
    · simp only [dif_neg ht]
  · rintro ⟨h1, h2⟩
    refine ⟨fun t _ => s t, ?_, ?_⟩
    · rw [Finset.mem_pi]; exact fun t ht => mem_range.2 (h1 t ht)
    · funext t
      by_cases ht : t ∈ T
      · rw [dif_pos ht]
      · rw [dif_neg ht, h2 t ht]

/-- There are `M` to the power of the number of texts such functions. -/
theorem card_oracles (f : Text → Nat) (T : Finset Text) (M : Nat) : (oracles f T M).card = M ^ T.card := by
  classical
  unfold oracles
  rw [card_image_of_injOn, card_pi, prod_const, card_range]
  intro h _ h' _ he
  funext t ht
  have := congrFun he t
  simpa only [dif_pos ht] using this

theorem update_mem_oracles {f : Text → Nat} {T : Finset Text} {M : Nat} {s : Text → Nat} (hs : s ∈ oracles f T M) {t : Text}
    (ht : t ∈ T) {v : Nat} (hv : v < M) : Function.update s t v ∈ oracles f T M := by
  obtain ⟨h1, h2⟩ := mem_oracles.1 hs
  refine mem_oracles.2 ⟨fun u hu => ?_, fun u hu => ?_⟩
  · by_cases h : u = t
    · subst h; rw [Function.update_self]; exact hv
    · rw [Function.update_of_ne h]; exact h1 u hu
  · have h : u ≠ t := fun h => hu (h ▸ ht)
    rw [Function.update_of_ne h]; exact h2 u hu

/-- A random function whose value at one text is drawn anew is a random function. -/
theorem redraw (f : Text → Nat) (T : Finset Text) (M : Nat) (t : Text) (ht : t ∈ T) (H : (Text → Nat) → Int) :
    ∑ s ∈ oracles f T M, ∑ v ∈ range M, H (Function.update s t v) = M * ∑ s ∈ oracles f T M, H s := by
  rw [← sum_product' (f := fun s v => H (Function.update s t v))]
  have : (M : Int) * ∑ s ∈ oracles f T M, H s = ∑ x ∈ oracles f T M ×ˢ range M, H x.1 := by
    rw [sum_product]
    simp only [sum_const, card_range, nsmul_eq_mul]
    rw [mul_sum]
  rw [this]
  refine sum_nbij' (fun x => (Function.update x.1 t x.2, x.1 t)) (fun x => (Function.update x.1 t x.2, x.1 t)) ?_ ?_ ?_ ?_ ?_
  · rintro ⟨s, v⟩ h
    simp only [mem_product, mem_range] at h ⊢
    exact ⟨update_mem_oracles h.1 ht h.2, (mem_oracles.1 h.1).1 t ht⟩
  · rintro ⟨s, v⟩ h
    simp only [mem_product, mem_range] at h ⊢
    exact ⟨update_mem_oracles h.1 ht h.2, (mem_oracles.1 h.1).1 t ht⟩
  · rintro ⟨s, v⟩ _; simp
  · rintro ⟨s, v⟩ _; simp
  · rintro ⟨s, v⟩ _; rfl

/-- The values of a random function at different texts are independent of everything: they can be drawn first and the function be given
these values. -/
theorem redraw_all (f : Text → Nat) (T : Finset Text) (M : Nat) (ts : List Text) (hn : ts.Nodup) (hT : ∀ t ∈ ts, t ∈ T)
    (G : (Text → Nat) → List Nat → Int) :
    (M : Int) ^ ts.length * ∑ s ∈ oracles f T M, G s (ts.map s)
      = ∑ vs ∈ valueLists M ts.length, ∑ s ∈ oracles f T M, G (program s ts vs) vs := by
  induction ts generalizing G with
  | nil => simp [valueLists, program]
  | cons t ts ih =>
    rw [List.nodup_cons] at hn
    have hi := ih hn.2 (fun u hu => hT u (List.mem_cons_of_mem _ hu))
      (fun s l => ∑ v ∈ range M, G (Function.update s t v) (v :: l))
    rw [List.length_cons, valueLists, sum_consAll, sum_comm]
    have hr : ∀ vs ∈ valueLists M ts.length, ∑ v ∈ range M, ∑ s ∈ oracles f T M, G (program s (t :: ts) (v :: vs)) (v :: vs)
        = ∑ s ∈ oracles f T M, ∑ v ∈ range M, G (Function.update (program s ts vs) t v) (v :: vs) := by
      intro vs _
      rw [sum_comm]
      rfl
    rw [sum_congr rfl hr, ← hi, pow_succ, mul_assoc]
    congr 1
    have hH := redraw f T M t (hT t (List.mem_cons_self ..)) (fun s => G s (s t :: ts.map s))
    simp only [List.map_cons]
    rw [← hH]
    refine sum_congr rfl fun s _ => sum_congr rfl fun v _ => ?_
    rw [Function.update_self]
    congr 2
    refine List.map_congr_left fun u hu => ?_
    rw [Function.update_of_ne]
    rintro rfl
    exact hn.1 hu

/-! ### Published ballots as sums over draws -/

theorem voteCipher_eq (hv : P.Valid) (K v r : Nat) (hr : r ≠ 0) : elgamalEncrypt P v r K = some (voteCipher P K v r) := by
  unfold elgamalEncrypt voteCipher
  rw [if_neg hr]
  simp only [gPowP, powP, multP_pow hv.one_lt_p]

/-- No half of a challenge for zero is 0. -/
def keepItems (items : List (Ciphertext × DisjProof)) : Prop := ∀ i ∈ items, i.2.c0 ≠ 0

/-- No half of a challenge for zero is 0 in any contest. -/
def keepBallot (pubs : List PublishedContest) : Prop := ∀ c ∈ pubs, keepItems c.items

open Classical in
theorem proofCoins_eq (v r K ch : Nat) :
    proofCoins P v ch = (((if v = 0 then range P.q else Ico 1 P.q) ×ˢ range P.q ×ˢ range P.q).filter
      fun n => (proveVote P v r K n ch).c0 ≠ 0) := by
  ext n
  unfold proofCoins proveVote
  by_cases h : v = 0
  · simp only [h, if_true, mem_filter, proveZero]
  · simp only [h, if_false, mem_filter, mem_product, mem_range, mem_Ico, proveOne]
    omega

open Classical in
theorem itemSum_draws (hv : P.Valid) (R : Finset Nat) (hR : ∀ r ∈ R, r ≠ 0) (K : Nat) (votes chs : List Nat)
    (hl : votes.length = chs.length) (F : List (Ciphertext × DisjProof) → Nat → Int) :
    itemSum P R K (votes.zip chs) F = ∑ ds ∈ itemDraws P R votes,
      if keepItems (publishItems P K votes chs ds) then F (publishItems P K votes chs ds) (ds.map Prod.fst).sum else 0 := by
  induction votes generalizing chs F with
  | nil =>
    cases chs with
    | nil => simp [itemSum, itemDraws, publishItems, keepItems]
    | cons => simp at hl
  | cons v vs ih =>
    cases chs with
    | nil => simp at hl
    | cons ch chs =>
      rw [List.zip_cons_cons, itemSum, itemDraws, sum_consAll, voteDraws, sum_product]
      refine sum_congr rfl fun r hr => ?_
      rw [voteCipher_eq hv K v r (hR r hr)]
      simp only
      rw [proofCoins_eq v r K ch, sum_filter]
      refine sum_congr rfl fun n _ => ?_
      rw [ih chs (by simpa using hl)]
      by_cases h0 : (proveVote P v r K n ch).c0 = 0
      · rw [if_neg (by simp [h0])]
        symm
        refine sum_eq_zero fun ds _ => if_neg ?_
        intro hk
        exact hk _ (by rw [publishItems]; exact List.mem_cons_self ..) h0
      · rw [if_pos h0]
        refine sum_congr rfl fun ds _ => ?_
        have : keepItems (publishItems P K (v :: vs) (ch :: chs) ((r, n) :: ds)) ↔ keepItems (publishItems P K vs chs ds) := by
          rw [publishItems]
          unfold keepItems
          rw [List.forall_mem_cons]
          exact ⟨fun h => h.2, fun h => ⟨h0, h⟩⟩
        simp only [this, List.map_cons, List.sum_cons]
        rfl

open Classical in
theorem contestShown_draws (hv : P.Valid) (R : Finset Nat) (hR : ∀ r ∈ R, r ≠ 0) (K : Nat) (votes : List Nat) (plan : ContestPlan)
    (hl : votes.length = plan.challenges.length) (F : PublishedContest → Int) :
    contestShown P R K votes plan F = ∑ d ∈ itemDraws P R votes ×ˢ range P.q,
      if keepItems (publishContest P K votes plan d).items then F (publishContest P K votes plan d) else 0 := by
  unfold contestShown
  rw [itemSum_draws hv R hR K votes _ hl, sum_product]
  refine sum_congr rfl fun ds _ => ?_
  by_cases h : keepItems (publishItems P K votes plan.challenges ds)
  · rw [if_pos h]
    exact sum_congr rfl fun n _ => (if_pos h).symm
  · rw [if_neg h]
    exact (sum_eq_zero fun n _ => if_neg h).symm

open Classical in
theorem ballotShown_draws (hv : P.Valid) (R : Finset Nat) (hR : ∀ r ∈ R, r ≠ 0) (K : Nat) (ballot : List (List Nat × ContestPlan))
    (hl : ∀ c ∈ ballot, c.1.length = c.2.challenges.length) (F : List PublishedContest → Int) :
    ballotShown P R K ballot F = ∑ d ∈ ballotDraws P R (ballot.map Prod.fst),
      if keepBallot (publishBallot P K ballot d) then F (publishBallot P K ballot d) else 0 := by
  induction ballot generalizing F with
  | nil => simp [ballotShown, ballotDraws, publishBallot, keepBallot]
  | cons c cs ih =>
    obtain ⟨votes, plan⟩ := c
    rw [ballotShown, contestShown_draws hv R hR K votes plan (hl _ (List.mem_cons_self ..)), List.map_cons, ballotDraws,
      sum_consAll]
    refine sum_congr rfl fun d _ => ?_
    rw [ih (fun c hc => hl c (List.mem_cons_of_mem _ hc))]
    have key : ∀ ds, keepBallot (publishBallot P K ((votes, plan) :: cs) (d :: ds)) ↔
        keepItems (publishContest P K votes plan d).items ∧ keepBallot (publishBallot P K cs ds) := by
      intro ds
      rw [publishBallot]
      unfold keepBallot
      rw [List.forall_mem_cons]
    by_cases h : keepItems (publishContest P K votes plan d).items
    · rw [if_pos h]
      refine sum_congr rfl fun ds _ => ?_
      simp only [key, h, true_and]
      rfl
    · rw [if_neg h]
      refine (sum_eq_zero fun ds _ => if_neg ?_).symm
      rw [key]
      exact fun hh => h hh.1

/-! ### Challenges and texts -/

theorem planBy_fst (q : Nat) (b : List (List Nat)) (vs : List Nat) : (planBy q b vs).map Prod.fst = b := by
  induction b generalizing vs with
  | nil => rfl
  | cons votes b ih => rw [planBy, List.map_cons, ih]

theorem planBy_lengths (q : Nat) (b : List (List Nat)) (vs : List Nat) (hl : vs.length = proofsOf b) :
    ∀ c ∈ planBy q b vs, c.1.length = c.2.challenges.length := by
  induction b generalizing vs with
  | nil => intro c hc; cases hc
  | cons votes b ih =>
    have hp : proofsOf (votes :: b) = votes.length + 1 + proofsOf b := rfl
    rw [planBy, List.forall_mem_cons]
    refine ⟨?_, ih _ ?_⟩
    · simp only [List.length_map, List.length_take]; omega
    · rw [List.length_drop]; omega

theorem publishItems_texts (base K : Nat) (votes chs chs' : List Nat) (ds : List (Nat × Nat × Nat × Nat))
    (hl : chs.length = chs'.length) :
    (publishItems P K votes chs ds).map (fun i => disjText base i.1 i.2)
        = (publishItems P K votes chs' ds).map (fun i => disjText base i.1 i.2) ∧
      (publishItems P K votes chs ds).map Prod.fst = (publishItems P K votes chs' ds).map Prod.fst := by
  induction votes generalizing chs chs' ds with
  | nil => simp [publishItems]
  | cons v vs ih =>
    cases chs with
    | nil =>
      have : chs' = [] := List.length_eq_zero_iff.1 hl.symm
      subst this; exact ⟨rfl, rfl⟩
    | cons ch chs =>
      cases chs' with
      | nil => simp at hl
      | cons ch' chs' =>
        cases ds with
        | nil => simp [publishItems]
        | cons d ds =>
          obtain ⟨h1, h2⟩ := ih chs chs' ds (by simpa using hl)
          simp only [publishItems, List.map_cons, h1, h2, and_true, List.cons.injEq]
          unfold disjText proveVote
          split <;> rfl

theorem publishBallot_texts (base K : Nat) (b : List (List Nat)) (vs ws : List Nat) (hv : vs.length = proofsOf b)
    (hw : ws.length = proofsOf b) (d : List (List (Nat × Nat × Nat × Nat) × Nat)) :
    textsOf P base (publishBallot P K (planBy P.q b vs) d) = textsOf P base (publishBallot P K (planBy P.q b ws) d) := by
  induction b generalizing vs ws d with
  | nil => rfl
  | cons votes b ih =>
    have hp : proofsOf (votes :: b) = votes.length + 1 + proofsOf b := rfl
    cases d with
    | nil => rfl
    | cons d ds =>
      rw [planBy, planBy, publishBallot, publishBallot]
      unfold textsOf
      rw [List.flatMap_cons, List.flatMap_cons]
      have h1 := publishItems_texts (P := P) base K votes ((vs.take votes.length).map (· % P.q))
        ((ws.take votes.length).map (· % P.q)) d.1 (by simp only [List.length_map, List.length_take]; omega)
      have h2 := ih (vs.drop (votes.length + 1)) (ws.drop (votes.length + 1)) (by rw [List.length_drop]; omega)
        (by rw [List.length_drop]; omega) ds
      unfold textsOf at h2
      rw [h2]
      congr 1
      unfold publishContest
      rw [h1.1, h1.2]
      rfl

theorem commitTexts_eq (base K : Nat) (b : List (List Nat)) (vs : List Nat) (hv : vs.length = proofsOf b)
    (d : List (List (Nat × Nat × Nat × Nat) × Nat)) :
    textsOf P base (publishBallot P K (planBy P.q b vs) d) = commitTexts P base K b d :=
  publishBallot_texts base K b vs _ hv (List.length_replicate ..) d

theorem publishItems_length (K : Nat) (R : Finset Nat) (votes chs : List Nat) (hl : votes.length = chs.length)
    (ds : List (Nat × Nat × Nat × Nat)) (hd : ds ∈ itemDraws P R votes) :
    (publishItems P K votes chs ds).length = votes.length ∧
      (publishItems P K votes chs ds).map (fun i => i.2.c) = chs := by
  induction votes generalizing chs ds with
  | nil =>
    have : chs = [] := List.length_eq_zero_iff.1 hl.symm
    subst this
    exact ⟨rfl, rfl⟩
  | cons v vs ih =>
    obtain ⟨a, _, m, hm, rfl⟩ := mem_consAll.1 hd
    cases chs with
    | nil => simp at hl
    | cons ch chs =>
      obtain ⟨h1, h2⟩ := ih chs (by simpa using hl) m hm
      simp only [publishItems, List.length_cons, List.map_cons, h1, h2, true_and, List.cons.injEq, and_true]
      unfold proveVote
      split <;> rfl

theorem publishBallot_challenges (base K : Nat) (R : Finset Nat) (b : List (List Nat)) (vs : List Nat)
    (hv : vs.length = proofsOf b) (d : List (List (Nat × Nat × Nat × Nat) × Nat)) (hd : d ∈ ballotDraws P R b) :
    challengesOf (publishBallot P K (planBy P.q b vs) d) = vs.map (· % P.q) ∧
      (textsOf P base (publishBallot P K (planBy P.q b vs) d)).length = proofsOf b := by
  induction b generalizing vs d with
  | nil =>
    have : vs = [] := List.length_eq_zero_iff.1 hv
    subst this
    exact ⟨rfl, rfl⟩
  | cons votes b ih =>
    have hp : proofsOf (votes :: b) = votes.length + 1 + proofsOf b := rfl
    obtain ⟨a, ha, m, hm, rfl⟩ := mem_consAll.1 hd
    obtain ⟨i1, i2⟩ := ih (vs.drop (votes.length + 1)) (by rw [List.length_drop]; omega) m hm
    obtain ⟨h1, h2⟩ := publishItems_length (P := P) K R votes ((vs.take votes.length).map (· % P.q))
      (by simp only [List.length_map, List.length_take]; omega) a.1 (mem_product.1 ha).1
    rw [planBy, publishBallot]
    unfold challengesOf textsOf at *
    rw [List.flatMap_cons, List.flatMap_cons, i1, List.length_append, i2]
    refine ⟨?_, ?_⟩
    · unfold publishContest
      simp only [h2]
      have hlt : votes.length < vs.length := by omega
      show List.map _ _ ++ [vs.getD votes.length 0 % P.q] ++ _ = _
      conv_rhs => rw [← List.take_append_drop votes.length vs, List.map_append, List.drop_eq_getElem_cons hlt, List.map_cons]
      simp [List.getD_eq_getElem?_getD, List.getElem?_eq_getElem hlt]
    · show (List.map _ _ ++ [_]).length + _ = _
      rw [List.length_append, List.length_map]
      show (publishItems P K votes _ a.1).length + 1 + _ = _
      rw [h1, hp]

/-! ### The texts are among those of the random function -/

theorem publishItems_lt (hp : 0 < P.p) (K : Nat) (votes chs : List Nat) (ds : List (Nat × Nat × Nat × Nat)) :
    ∀ i ∈ publishItems P K votes chs ds, i.1.pad < P.p ∧ i.1.data < P.p ∧ i.2.a0 < P.p ∧ i.2.b0 < P.p ∧ i.2.a1 < P.p ∧
      i.2.b1 < P.p := by
  induction votes generalizing chs ds with
  | nil => intro i hi; simp [publishItems] at hi
  | cons v vs ih =>
    cases chs with
    | nil => intro i hi; simp [publishItems] at hi
    | cons ch chs =>
      cases ds with
      | nil => intro i hi; simp [publishItems] at hi
      | cons d ds =>
        rw [publishItems, List.forall_mem_cons]
        refine ⟨?_, ih chs ds⟩
        unfold voteCipher proveVote
        split <;> exact ⟨Nat.mod_lt _ hp, Nat.mod_lt _ hp, Nat.mod_lt _ hp, Nat.mod_lt _ hp, Nat.mod_lt _ hp, Nat.mod_lt _ hp⟩

theorem publishBallot_texts_mem (hp : 0 < P.p) (base K : Nat) (b : List (List Nat × ContestPlan))
    (d : List (List (Nat × Nat × Nat × Nat) × Nat)) :
    ∀ t ∈ textsOf P base (publishBallot P K b d), t ∈ challengeTexts P base := by
  induction b generalizing d with
  | nil => intro t ht; simp [publishBallot, textsOf] at ht
  | cons c b ih =>
    obtain ⟨votes, plan⟩ := c
    cases d with
    | nil => intro t ht; simp [publishBallot, textsOf] at ht
    | cons d ds =>
      intro t ht
      rw [publishBallot] at ht
      unfold textsOf at ht ih
      rw [List.flatMap_cons, List.mem_append, List.mem_append, List.mem_map, List.mem_singleton] at ht
      unfold challengeTexts
      rcases ht with (⟨i, hi, rfl⟩ | rfl) | ht
      · obtain ⟨h1, h2, h3, h4, h5, h6⟩ := publishItems_lt hp K votes plan.challenges d.1 i hi
        refine mem_union_left _ (mem_image.2 ⟨(i.1.pad, i.1.data, i.2.a0, i.2.b0, i.2.a1, i.2.b1), ?_, rfl⟩)
        simp only [mem_product, mem_range]
        exact ⟨h1, h2, h3, h4, h5, h6⟩
      · refine mem_union_right _ (mem_image.2 ⟨(_, _, _, _), ?_, rfl⟩)
        simp only [mem_product, mem_range]
        exact ⟨Nat.mod_lt _ hp, Nat.mod_lt _ hp, Nat.mod_lt _ hp, Nat.mod_lt _ hp⟩
      · exact ih ds t ht

/-! ### How far the two games are apart -/

open Classical in
/-- The draws for which two texts of the ballot are the same. -/
noncomputable def sameTexts (P : Params) (base K : Nat) (R : Finset Nat) (b : List (List Nat)) : Nat :=
  ((ballotDraws P R b).filter fun d => ¬ (commitTexts P base K b d).Nodup).card

open Classical in
/-- The draws for which the half of a challenge for zero is 0. -/
noncomputable def zeroHalves (P : Params) (K : Nat) (R : Finset Nat) (b : List (List Nat)) (vs : List Nat) : Nat :=
  ((ballotDraws P R b).filter fun d => ¬ keepBallot (publishBallot P K (planBy P.q b vs) d)).card

open Classical in
theorem games_apart (hv : P.Valid) (base K : Nat) (R : Finset Nat) (hR : ∀ r ∈ R, r ≠ 0) (f : Text → Nat) (T : Finset Text)
    (hT : challengeTexts P base ⊆ T) (M B : Nat) (D : (Text → Nat) → List PublishedContest → Int)
    (hD : ∀ s pubs, |D s pubs| ≤ B) (b : List (List Nat)) :
    |(M : Int) ^ proofsOf b * (∑ s ∈ oracles f T M, ∑ d ∈ ballotDraws P R b, D s (hashedBallot P base s K b d))
        - ∑ vs ∈ valueLists M (proofsOf b), ∑ s ∈ oracles f T M, ballotShown P R K (planBy P.q b vs)
            (fun pubs => D (program s (textsOf P base pubs) vs) pubs)|
      ≤ 2 * (B * (oracles f T M).card * M ^ proofsOf b * sameTexts P base K R b)
        + B * (oracles f T M).card * ∑ vs ∈ valueLists M (proofsOf b), (zeroHalves P K R b vs : Int) := by
  set Ω := oracles f T M with hΩ
  set k := proofsOf b with hk
  -- the second game as a sum over draws
  have hideal : ∀ vs ∈ valueLists M k, ∀ s, ballotShown P R K (planBy P.q b vs)
      (fun pubs => D (program s (textsOf P base pubs) vs) pubs)
      = ∑ d ∈ ballotDraws P R b, if keepBallot (publishBallot P K (planBy P.q b vs) d)
          then D (program s (commitTexts P base K b d) vs) (publishBallot P K (planBy P.q b vs) d) else 0 := by
    intro vs hvs s
    have hl : vs.length = proofsOf b := mem_valueLists hvs
    rw [ballotShown_draws hv R hR K _ (planBy_lengths P.q b vs hl), planBy_fst]
    refine sum_congr rfl fun d _ => ?_
    rw [commitTexts_eq base K b vs hl d]
  rw [sum_congr rfl fun vs hvs => sum_congr rfl fun s _ => hideal vs hvs s]
  have hcomm : ∑ vs ∈ valueLists M k, ∑ s ∈ Ω, ∑ d ∈ ballotDraws P R b,
      (if keepBallot (publishBallot P K (planBy P.q b vs) d)
          then D (program s (commitTexts P base K b d) vs) (publishBallot P K (planBy P.q b vs) d) else 0)
      = ∑ d ∈ ballotDraws P R b, ∑ vs ∈ valueLists M k, ∑ s ∈ Ω,
        (if keepBallot (publishBallot P K (planBy P.q b vs) d)
          then D (program s (commitTexts P base K b d) vs) (publishBallot P K (planBy P.q b vs) d) else 0) := by
    rw [sum_comm]
    rw [sum_congr rfl fun s _ => sum_comm]
    rw [sum_comm]
    refine sum_congr rfl fun d _ => ?_
    rw [sum_comm]
  rw [hcomm, sum_comm (s := Ω), mul_sum, ← sum_sub_distrib]
  refine (abs_sum_le_sum_abs _ _).trans ?_
  have hbound : ∀ d ∈ ballotDraws P R b,
      |(M : Int) ^ k * ∑ s ∈ Ω, D s (hashedBallot P base s K b d)
        - ∑ vs ∈ valueLists M k, ∑ s ∈ Ω, (if keepBallot (publishBallot P K (planBy P.q b vs) d)
          then D (program s (commitTexts P base K b d) vs) (publishBallot P K (planBy P.q b vs) d) else 0)|
      ≤ (if ¬ (commitTexts P base K b d).Nodup then 2 * (B * Ω.card * (M : Int) ^ k) else 0)
        + B * Ω.card * ∑ vs ∈ valueLists M k, (if ¬ keepBallot (publishBallot P K (planBy P.q b vs) d) then (1 : Int) else 0) := by
    intro d hd
    have hB0 : (0 : Int) ≤ B := Int.natCast_nonneg B
    by_cases hn : (commitTexts P base K b d).Nodup
    · rw [if_neg (not_not.2 hn), zero_add]
      have hlen : (commitTexts P base K b d).length = k :=
        (publishBallot_challenges (P := P) base K R b _ (List.length_replicate ..) d hd).2
      have hr := redraw_all f T M (commitTexts P base K b d) hn
        (fun t ht => hT (publishBallot_texts_mem hv.p_pos base K _ _ t ht))
        (fun s l => D s (publishBallot P K (planBy P.q b l) d))
      rw [hlen] at hr
      have hr' : (M : Int) ^ k * ∑ s ∈ Ω, D s (hashedBallot P base s K b d)
          = ∑ vs ∈ valueLists M k, ∑ s ∈ Ω, D (program s (commitTexts P base K b d) vs) (publishBallot P K (planBy P.q b vs) d) := hr
      rw [hr', ← sum_sub_distrib, mul_sum]
      refine (abs_sum_le_sum_abs _ _).trans (sum_le_sum fun vs _ => ?_)
      rw [← sum_sub_distrib]
      refine (abs_sum_le_sum_abs _ _).trans ?_
      by_cases hkeep : keepBallot (publishBallot P K (planBy P.q b vs) d)
      · simp [hkeep]
      · simp only [hkeep, if_false, sub_zero, not_false_eq_true, if_true, mul_one]
        refine (sum_le_sum fun s _ => hD _ _).trans ?_
        rw [sum_const, nsmul_eq_mul, mul_comm]
    · rw [if_pos hn]
      have h1 : |(M : Int) ^ k * ∑ s ∈ Ω, D s (hashedBallot P base s K b d)| ≤ B * Ω.card * (M : Int) ^ k := by
        rw [abs_mul, abs_of_nonneg (by positivity : (0 : Int) ≤ (M : Int) ^ k), mul_comm]
        refine mul_le_mul_of_nonneg_right ?_ (by positivity)
        refine (abs_sum_le_sum_abs _ _).trans ((sum_le_sum fun s _ => hD _ _).trans ?_)
        rw [sum_const, nsmul_eq_mul, mul_comm]
      have h2 : |∑ vs ∈ valueLists M k, ∑ s ∈ Ω, (if keepBallot (publishBallot P K (planBy P.q b vs) d)
          then D (program s (commitTexts P base K b d) vs) (publishBallot P K (planBy P.q b vs) d) else 0)|
          ≤ B * Ω.card * (M : Int) ^ k := by
        have : ∀ vs ∈ valueLists M k, |∑ s ∈ Ω, (if keepBallot (publishBallot P K (planBy P.q b vs) d)
          then D (program s (commitTexts P base K b d) vs) (publishBallot P K (planBy P.q b vs) d) else 0)| ≤ B * Ω.card := by
          intro vs _
          refine (abs_sum_le_sum_abs _ _).trans ((sum_le_sum (g := fun _ => (B : Int)) fun s _ => ?_).trans ?_)
          · split
            · exact hD _ _
            · simp
          · rw [sum_const, nsmul_eq_mul, mul_comm]
        refine (abs_sum_le_sum_abs _ _).trans ((sum_le_sum this).trans ?_)
        rw [sum_const, nsmul_eq_mul, card_valueLists, mul_comm]
        push_cast
        exact le_refl _
      have h3 : (0 : Int) ≤ B * Ω.card * ∑ vs ∈ valueLists M k,
          (if ¬ keepBallot (publishBallot P K (planBy P.q b vs) d) then (1 : Int) else 0) := by
        refine mul_nonneg (by positivity) (sum_nonneg fun vs _ => ?_)
        split <;> simp
      have := abs_sub ((M : Int) ^ k * ∑ s ∈ Ω, D s (hashedBallot P base s K b d))
        (∑ vs ∈ valueLists M k, ∑ s ∈ Ω, (if keepBallot (publishBallot P K (planBy P.q b vs) d)
          then D (program s (commitTexts P base K b d) vs) (publishBallot P K (planBy P.q b vs) d) else 0))
      linarith
  refine (sum_le_sum hbound).trans ?_
  rw [sum_add_distrib, ← sum_filter, sum_const, ← mul_sum, sum_comm]
  refine le_of_eq ?_
  congr 1
  · unfold sameTexts
    rw [nsmul_eq_mul]
    ring
  · congr 1
    refine sum_congr rfl fun vs _ => ?_
    unfold zeroHalves
    rw [← sum_filter, sum_const, nsmul_eq_mul, mul_one]

/-! ### How often texts meet -/

/-- The texts are different from each other and from those of `S`. -/
def Fresh (S ts : List Text) : Prop := ts.Nodup ∧ ∀ t ∈ ts, t ∉ S

theorem fresh_append {S a c : List Text} (h1 : Fresh S a) (h2 : Fresh (a ++ S) c) : Fresh S (a ++ c) := by
  refine ⟨List.nodup_append.2 ⟨h1.1, h2.1, ?_⟩, ?_⟩
  · rintro x hx y hy rfl
    exact h2.2 x hy (List.mem_append_left _ hx)
  · intro t ht
    rcases List.mem_append.1 ht with h | h
    · exact h1.2 t h
    · exact fun hS => h2.2 t h (List.mem_append_right _ hS)

theorem card_filter_consAll {α : Type} [DecidableEq α] (A : Finset α) (L : Finset (List α)) (p : List α → Prop)
    [DecidablePred p] :
    ((consAll A L).filter p).card = ((A ×ˢ L).filter fun x => p (x.1 :: x.2)).card := by
  rw [card_filter, card_filter, sum_consAll, sum_product]

open Classical in
/-- Bad outcomes of two draws: of the first, or of the second given the first. -/
theorem card_bad_pair {α β : Type} (A : Finset α) (L : Finset β) (p : α → Prop) (r : α → β → Prop) (w : α × β → Prop)
    (hw : ∀ x, p x.1 → r x.1 x.2 → w x) (c e NA NL m : Nat) (hA : A.card ≤ NA) (hL : L.card ≤ NL)
    (h1 : m * (A.filter fun a => ¬ p a).card ≤ c * NA) (h2 : ∀ a ∈ A, m * (L.filter fun l => ¬ r a l).card ≤ e * NL) :
    m * ((A ×ˢ L).filter fun x => ¬ w x).card ≤ (c + e) * (NA * NL) := by
  have hle : ((A ×ˢ L).filter fun x => ¬ w x).card
      ≤ (A.filter fun a => ¬ p a).card * L.card + ∑ a ∈ A, (L.filter fun l => ¬ r a l).card := by
    rw [card_filter, sum_product, card_filter, sum_mul, ← sum_add_distrib]
    refine sum_le_sum fun a _ => ?_
    rw [card_filter]
    by_cases hp : p a
    · rw [if_neg (not_not.2 hp), zero_mul, zero_add]
      refine sum_le_sum fun l _ => ?_
      by_cases hr : r a l
      · have := hw (a, l) hp hr
        simp [this]
      · simp only [hr, not_false_eq_true, if_true]
        split <;> omega
    · rw [if_pos hp, one_mul]
      refine le_trans ?_ (Nat.le_add_right _ _)
      rw [card_eq_sum_ones]
      refine sum_le_sum fun l _ => ?_
      split <;> omega
  calc m * ((A ×ˢ L).filter fun x => ¬ w x).card
      ≤ m * ((A.filter fun a => ¬ p a).card * L.card + ∑ a ∈ A, (L.filter fun l => ¬ r a l).card) := Nat.mul_le_mul_left _ hle
    _ = m * (A.filter fun a => ¬ p a).card * L.card + ∑ a ∈ A, m * (L.filter fun l => ¬ r a l).card := by
        rw [Nat.mul_add, ← Nat.mul_assoc, mul_sum]
    _ ≤ c * NA * NL + ∑ a ∈ A, e * NL := Nat.add_le_add (Nat.mul_le_mul h1 hL) (sum_le_sum h2)
    _ = c * NA * NL + A.card * (e * NL) := by rw [sum_const, smul_eq_mul]
    _ ≤ c * NA * NL + NA * (e * NL) := Nat.add_le_add_left (Nat.mul_le_mul_right _ hA) _
    _ = (c + e) * (NA * NL) := by ring

open Classical in
theorem card_fresh_pair {α β : Type} (A : Finset α) (L : Finset β) (t : α → List Text) (u : α → β → List Text) (n k NA NL q : Nat)
    (hA : A.card ≤ NA) (hL : L.card ≤ NL) (ht : ∀ a ∈ A, (t a).length = n)
    (h1 : ∀ S : List Text, 2 * q * (A.filter fun a => ¬ Fresh S (t a)).card ≤ n * (2 * S.length + n) * NA)
    (h2 : ∀ a ∈ A, ∀ S : List Text, 2 * q * (L.filter fun l => ¬ Fresh S (u a l)).card ≤ k * (2 * S.length + k) * NL)
    (S : List Text) :
    2 * q * ((A ×ˢ L).filter fun x => ¬ Fresh S (t x.1 ++ u x.1 x.2)).card
      ≤ (n + k) * (2 * S.length + (n + k)) * (NA * NL) := by
  refine (card_bad_pair A L (fun a => Fresh S (t a)) (fun a l => Fresh (t a ++ S) (u a l))
    (fun x => Fresh S (t x.1 ++ u x.1 x.2)) (fun x => fresh_append) (n * (2 * S.length + n)) (k * (2 * (n + S.length) + k))
    NA NL (2 * q) hA hL (h1 S) ?_).trans (le_of_eq ?_)
  · intro a ha
    have := h2 a ha (t a ++ S)
    rwa [List.length_append, ht a ha] at this
  · ring

open Classical in
theorem card_text_mem {α : Type} (A : Finset α) (t : α → Text) (c : Nat) (h : ∀ u, (A.filter fun a => t a = u).card ≤ c)
    (S : List Text) : (A.filter fun a => ¬ Fresh S [t a]).card ≤ S.length * c := by
  have hf : ∀ a, ¬ Fresh S [t a] ↔ t a ∈ S := by
    intro a
    unfold Fresh
    simp
  simp only [hf]
  induction S with
  | nil => simp
  | cons u S ih =>
    have : (A.filter fun a => t a ∈ u :: S) ⊆ (A.filter fun a => t a = u) ∪ (A.filter fun a => t a ∈ S) := by
      intro a ha
      rw [mem_filter, List.mem_cons] at ha
      rw [mem_union, mem_filter, mem_filter]
      rcases ha.2 with h | h
      · exact Or.inl ⟨ha.1, h⟩
      · exact Or.inr ⟨ha.1, h⟩
    refine (card_le_card this).trans ((card_union_le _ _).trans ?_)
    rw [List.length_cons, Nat.succ_mul, Nat.add_comm]
    exact Nat.add_le_add (ih (fun a => by unfold Fresh; simp)) (h u)

theorem elemText_eq (E : Env) (l : List Nat) : hashText E (l.map HArg.elem) = elemText l := by
  unfold hashText elemText
  congr 1
  induction l with
  | nil => rfl
  | cons n l ih =>
    rw [List.map_cons, encs, tok, ih, List.flatMap_cons, List.append_assoc]
    rfl

theorem elemText_inj {l l' : List Nat} (h : elemText l = elemText l') : l = l' := by
  rw [← elemText_eq toyEnv, ← elemText_eq toyEnv] at h
  have hb : ∀ m : List Nat, ∀ a ∈ m.map HArg.elem, ∀ s, a = .str s → '|' ∉ s.toList := by
    intro m a ha s hs
    obtain ⟨n, _, rfl⟩ := List.mem_map.1 ha
    cases hs
  have := C21_texts_determined_partial toyEnv _ _ (hb l) (hb l') h
  rw [List.map_map, List.map_map] at this
  refine List.map_injective_iff.2 ?_ this
  intro a c hac
  simp only [Function.comp, tok] at hac
  exact toHex_inj hac

theorem gexp_inj (hv : P.Valid) {a c : Nat} (ha : a < P.q) (hc : c < P.q) (h : P.g ^ a % P.p = P.g ^ c % P.p) : a = c := by
  have h1 : (P.g : ZMod P.p) ^ a = (P.g : ZMod P.p) ^ c := by
    have := (ZMod.natCast_eq_natCast_iff' _ _ P.p).2 h
    push_cast at this
    exact this
  have h2 := (ZMod.natCast_eq_natCast_iff' _ _ P.q).1 ((g_eq_iff hv a c).1 h1)
  rwa [Nat.mod_eq_of_lt ha, Nat.mod_eq_of_lt hc] at h2

theorem card_voteDraws_le (R : Finset Nat) (v : Nat) : (voteDraws P R v).card ≤ R.card * P.q ^ 3 := by
  unfold voteDraws
  rw [card_product, card_product, card_product, card_range]
  have : (if v = 0 then range P.q else Ico 1 P.q).card ≤ P.q := by
    split
    · rw [card_range]
    · rw [Nat.card_Ico]; omega
  calc _ ≤ R.card * (P.q * (P.q * P.q)) := Nat.mul_le_mul_left _ (Nat.mul_le_mul_right _ this)
    _ = _ := by ring

open Classical in
theorem card_vote_text (hv : P.Valid) (base K : Nat) (R : Finset Nat) (v ch : Nat) (u : Text) :
    ((voteDraws P R v).filter fun d => disjText base (voteCipher P K v d.1) (proveVote P v d.1 K d.2 ch) = u).card
      ≤ R.card * P.q ^ 2 := by
  have : (R ×ˢ range P.q ×ˢ range P.q).card = R.card * P.q ^ 2 := by
    rw [card_product, card_product, card_range]; ring
  rw [← this]
  have hlt : ∀ {d : Nat × Nat × Nat × Nat}, d ∈ voteDraws P R v → d.1 ∈ R ∧ d.2.1 < P.q ∧ d.2.2.1 < P.q ∧ d.2.2.2 < P.q := by
    intro d hd
    unfold voteDraws at hd
    simp only [mem_product, mem_range] at hd
    refine ⟨hd.1, ?_, hd.2.2.1, hd.2.2.2⟩
    have := hd.2.1
    split at this
    · exact mem_range.1 this
    · exact (mem_Ico.1 this).2
  refine card_le_card_of_injOn (fun d => (d.1, d.2.1, d.2.2.1)) ?_ ?_
  · intro d hd
    have hd := (mem_filter.1 hd).1
    obtain ⟨h1, h2, h3, _⟩ := hlt hd
    simp only [coe_product, Set.mem_prod, mem_coe, mem_range]
    exact ⟨h1, h2, h3⟩
  · rintro ⟨r, n0, n1, n2⟩ hd ⟨r', n0', n1', n2'⟩ hd' h
    simp only [Prod.mk.injEq] at h
    obtain ⟨rfl, rfl, rfl⟩ := h
    obtain ⟨hd, hu⟩ := mem_filter.1 hd
    obtain ⟨hd', hu'⟩ := mem_filter.1 hd'
    have ht := elemText_inj (hu.trans hu'.symm)
    have hn : n2 = n2' := by
      simp only [List.cons.injEq, true_and] at ht
      refine gexp_inj hv (hlt hd).2.2.2 (hlt hd').2.2.2 ?_
      unfold proveVote at ht
      by_cases h0 : v = 0
      · simp only [h0, if_true] at ht
        exact ht.1
      · simp only [h0, if_false] at ht
        exact ht.2.2.1
    rw [hn]

open Classical in
theorem card_limit_text (hv : P.Valid) (base K L r ch : Nat) (c : Ciphertext) (u : Text) :
    ((range P.q).filter fun n => limitText base c (proveConst P L r K n ch) = u).card ≤ 1 := by
  refine card_le_one.2 ?_
  intro n hn n' hn'
  rw [mem_filter, mem_range] at hn hn'
  have ht := elemText_inj (hn.2.trans hn'.2.symm)
  simp only [List.cons.injEq, true_and] at ht
  exact gexp_inj hv hn.1 hn'.1 ht.1

theorem card_itemDraws_le (R : Finset Nat) (votes : List Nat) :
    (itemDraws P R votes).card ≤ (R.card * P.q ^ 3) ^ votes.length := by
  induction votes with
  | nil => simp [itemDraws]
  | cons v vs ih =>
    rw [itemDraws, card_consAll, List.length_cons, pow_succ, Nat.mul_comm]
    exact Nat.mul_le_mul ih (card_voteDraws_le R v)

theorem card_ballotDraws_le (R : Finset Nat) (b : List (List Nat)) : (ballotDraws P R b).card ≤ drawCount P R b := by
  induction b with
  | nil => simp [ballotDraws, drawCount]
  | cons votes b ih =>
    rw [ballotDraws, card_consAll, card_product, card_range]
    exact Nat.mul_le_mul (Nat.mul_le_mul_right _ (card_itemDraws_le R votes)) ih

open Classical in
theorem card_items_fresh (hv : P.Valid) (base K : Nat) (R : Finset Nat) (votes chs : List Nat) (hl : votes.length = chs.length)
    (S : List Text) :
    2 * P.q * ((itemDraws P R votes).filter fun ds =>
        ¬ Fresh S ((publishItems P K votes chs ds).map fun i => disjText base i.1 i.2)).card
      ≤ votes.length * (2 * S.length + votes.length) * (R.card * P.q ^ 3) ^ votes.length := by
  induction votes generalizing chs S with
  | nil => simp [itemDraws, publishItems, Fresh]
  | cons v vs ih =>
    cases chs with
    | nil => simp at hl
    | cons ch chs =>
      rw [itemDraws, card_filter_consAll]
      have h := card_fresh_pair (voteDraws P R v) (itemDraws P R vs)
        (fun d => [disjText base (voteCipher P K v d.1) (proveVote P v d.1 K d.2 ch)])
        (fun _ ds => (publishItems P K vs chs ds).map fun i => disjText base i.1 i.2) 1 vs.length (R.card * P.q ^ 3)
        ((R.card * P.q ^ 3) ^ vs.length) P.q (card_voteDraws_le R v) (card_itemDraws_le R vs) (fun _ _ => rfl)
        (fun S' => ?_) (fun _ _ S' => ih chs (by simpa using hl) S') S
      · refine le_trans (le_of_eq ?_) (h.trans (le_of_eq ?_))
        · rfl
        · rw [List.length_cons, pow_succ]; ring
      · have := card_text_mem (voteDraws P R v) (fun d => disjText base (voteCipher P K v d.1) (proveVote P v d.1 K d.2 ch))
          (R.card * P.q ^ 2) (fun u => card_vote_text hv base K R v ch u) S'
        calc _ ≤ 2 * P.q * (S'.length * (R.card * P.q ^ 2)) := Nat.mul_le_mul_left _ this
          _ = 2 * S'.length * (R.card * P.q ^ 3) := by ring
          _ ≤ _ := Nat.mul_le_mul_right _ (by omega)

/-- The texts of a contest. -/
def contestTexts (P : Params) (base : Nat) (c : PublishedContest) : List Text :=
  c.items.map (fun i => disjText base i.1 i.2) ++ [limitText base (ctProduct P (c.items.map Prod.fst)) c.limitProof]

theorem textsOf_cons (base : Nat) (c : PublishedContest) (cs : List PublishedContest) :
    textsOf P base (c :: cs) = contestTexts P base c ++ textsOf P base cs := rfl

open Classical in
theorem card_limit_fresh (hv : P.Valid) (base K L r ch : Nat) (c : Ciphertext) (S : List Text) :
    2 * P.q * ((range P.q).filter fun n => ¬ Fresh S [limitText base c (proveConst P L r K n ch)]).card
      ≤ 1 * (2 * S.length + 1) * P.q := by
  have := card_text_mem (range P.q) (fun n => limitText base c (proveConst P L r K n ch)) 1
    (fun u => card_limit_text hv base K _ _ _ _ u) S
  calc _ ≤ 2 * P.q * (S.length * 1) := Nat.mul_le_mul_left _ this
    _ = 2 * S.length * P.q := by ring
    _ ≤ _ := Nat.mul_le_mul_right _ (by omega)

open Classical in
theorem card_contest_fresh (hv : P.Valid) (base K : Nat) (R : Finset Nat) (votes : List Nat) (plan : ContestPlan)
    (hc : votes.length = plan.challenges.length) (S : List Text) :
    2 * P.q * ((itemDraws P R votes ×ˢ range P.q).filter fun d =>
        ¬ Fresh S (contestTexts P base (publishContest P K votes plan d))).card
      ≤ (votes.length + 1) * (2 * S.length + (votes.length + 1)) * ((R.card * P.q ^ 3) ^ votes.length * P.q) := by
  have h := card_fresh_pair (itemDraws P R votes) (range P.q)
    (fun ds => (publishItems P K votes plan.challenges ds).map fun i => disjText base i.1 i.2)
    (fun ds n => [limitText base (ctProduct P ((publishItems P K votes plan.challenges ds).map Prod.fst))
      (proveConst P plan.limit (ds.map Prod.fst).sum K n plan.limitChallenge)])
    votes.length 1 ((R.card * P.q ^ 3) ^ votes.length) P.q P.q (card_itemDraws_le R votes) (le_of_eq (card_range _))
    (fun ds hds => by rw [List.length_map, (publishItems_length K R votes _ hc ds hds).1])
    (card_items_fresh hv base K R votes plan.challenges hc)
    (fun ds _ S' => card_limit_fresh hv base K _ _ _ _ S') S
  exact h

open Classical in
theorem card_ballot_fresh (hv : P.Valid) (base K : Nat) (R : Finset Nat) (b : List (List Nat × ContestPlan))
    (hl : ∀ c ∈ b, c.1.length = c.2.challenges.length) (S : List Text) :
    2 * P.q * ((ballotDraws P R (b.map Prod.fst)).filter fun d => ¬ Fresh S (textsOf P base (publishBallot P K b d))).card
      ≤ proofsOf (b.map Prod.fst) * (2 * S.length + proofsOf (b.map Prod.fst)) * drawCount P R (b.map Prod.fst) := by
  induction b generalizing S with
  | nil => simp [publishBallot, textsOf, Fresh]
  | cons c b ih =>
    obtain ⟨votes, plan⟩ := c
    have hc : votes.length = plan.challenges.length := hl (votes, plan) (List.mem_cons_self ..)
    rw [List.map_cons, ballotDraws, card_filter_consAll]
    have h := card_fresh_pair (itemDraws P R votes ×ˢ range P.q) (ballotDraws P R (b.map Prod.fst))
      (fun d => contestTexts P base (publishContest P K votes plan d))
      (fun _ ds => textsOf P base (publishBallot P K b ds)) (votes.length + 1) (proofsOf (b.map Prod.fst))
      ((R.card * P.q ^ 3) ^ votes.length * P.q) (drawCount P R (b.map Prod.fst)) P.q
      (by rw [card_product, card_range]; exact Nat.mul_le_mul_right _ (card_itemDraws_le R votes))
      (card_ballotDraws_le R _)
      (fun d hd => by
        unfold contestTexts publishContest
        rw [List.length_append, List.length_map, (publishItems_length K R votes _ hc d.1 (mem_product.1 hd).1).1]
        rfl)
      (card_contest_fresh hv base K R votes plan hc) (fun _ _ S' => ih (fun c hc => hl c (List.mem_cons_of_mem _ hc)) S') S
    exact h

theorem sameTexts_le (hv : P.Valid) (base K : Nat) (R : Finset Nat) (b : List (List Nat)) :
    2 * P.q * sameTexts P base K R b ≤ proofsOf b ^ 2 * drawCount P R b := by
  have h := card_ballot_fresh hv base K R (planBy P.q b (List.replicate (proofsOf b) 0))
    (planBy_lengths P.q b _ (List.length_replicate ..)) []
  rw [planBy_fst] at h
  refine le_trans (le_of_eq ?_) (h.trans (le_of_eq ?_))
  · unfold sameTexts Fresh commitTexts
    simp
  · simp [pow_two]

/-! ### How often half of a challenge is 0 -/

/-- The half of the challenge for zero is not 0. -/
def keepProof (pf : DisjProof) : Prop := pf.c0 ≠ 0

open Classical in
theorem card_vote_zero (R : Finset Nat) (K v ch : Nat) :
    P.q * ((voteDraws P R v).filter fun d => ¬ keepProof (proveVote P v d.1 K d.2 ch)).card ≤ 1 * (R.card * P.q ^ 3) := by
  have hcard : ((voteDraws P R v).filter fun d => ¬ keepProof (proveVote P v d.1 K d.2 ch)).card ≤ R.card * P.q ^ 2 := by
    have : (R ×ˢ range P.q ×ˢ range P.q).card = R.card * P.q ^ 2 := by
      rw [card_product, card_product, card_range]; ring
    rw [← this]
    refine card_le_card_of_injOn (fun d => (d.1, d.2.2.1, d.2.2.2)) ?_ ?_
    · intro d hd
      have hd := (mem_filter.1 hd).1
      unfold voteDraws at hd
      simp only [mem_product] at hd
      simp only [coe_product, Set.mem_prod, mem_coe]
      exact ⟨hd.1, hd.2.2⟩
    · rintro ⟨r, n0, n1, n2⟩ hd ⟨r', n0', n1', n2'⟩ hd' h
      simp only [Prod.mk.injEq] at h
      obtain ⟨rfl, rfl, rfl⟩ := h
      obtain ⟨hd, hu⟩ := mem_filter.1 hd
      obtain ⟨hd', hu'⟩ := mem_filter.1 hd'
      unfold voteDraws at hd hd'
      simp only [mem_product] at hd hd'
      have hn : n0 = n0' := by
        unfold keepProof proveVote at hu hu'
        by_cases h0 : v = 0
        · simp only [h0, if_true, mem_range, not_not] at hd hd' hu hu'
          have e1 : (ch + (P.q - n0)) % P.q = 0 := hu
          have e2 : (ch + (P.q - n0')) % P.q = 0 := hu'
          have hm : (ch + (P.q - n0)) % P.q = (ch + (P.q - n0')) % P.q := e1.trans e2.symm
          have hm' : (P.q - n0) % P.q = (P.q - n0') % P.q := Nat.ModEq.add_left_cancel' ch hm
          have l1 := hd.2.1
          have l2 := hd'.2.1
          rcases Nat.eq_zero_or_pos n0 with z | z <;> rcases Nat.eq_zero_or_pos n0' with z' | z'
          · omega
          · subst z
            rw [Nat.sub_zero, Nat.mod_self, Nat.mod_eq_of_lt (by omega)] at hm'
            omega
          · subst z'
            rw [Nat.sub_zero, Nat.mod_self, Nat.mod_eq_of_lt (by omega)] at hm'
            omega
          · rw [Nat.mod_eq_of_lt (by omega), Nat.mod_eq_of_lt (by omega)] at hm'
            omega
        · simp only [h0, if_false, mem_Ico, not_not] at hd hu
          have : P.q - n0 = 0 := hu
          omega
      rw [hn]
  calc _ ≤ P.q * (R.card * P.q ^ 2) := Nat.mul_le_mul_left _ hcard
    _ = _ := by ring

open Classical in
theorem card_items_zero (R : Finset Nat) (K : Nat) (votes chs : List Nat) (hl : votes.length = chs.length) :
    P.q * ((itemDraws P R votes).filter fun ds => ¬ keepItems (publishItems P K votes chs ds)).card
      ≤ votes.length * (R.card * P.q ^ 3) ^ votes.length := by
  induction votes generalizing chs with
  | nil => simp [publishItems, keepItems]
  | cons v vs ih =>
    cases chs with
    | nil => simp at hl
    | cons ch chs =>
      rw [itemDraws, card_filter_consAll]
      have h := card_bad_pair (voteDraws P R v) (itemDraws P R vs) (fun d => keepProof (proveVote P v d.1 K d.2 ch))
        (fun _ ds => keepItems (publishItems P K vs chs ds))
        (fun x => keepItems (publishItems P K (v :: vs) (ch :: chs) (x.1 :: x.2)))
        (fun x hx hy => by
          rw [publishItems]
          unfold keepItems
          rw [List.forall_mem_cons]
          exact ⟨hx, hy⟩) 1 vs.length (R.card * P.q ^ 3) ((R.card * P.q ^ 3) ^ vs.length) P.q (card_voteDraws_le R v)
        (card_itemDraws_le R vs) (card_vote_zero (P := P) R K v ch) (fun _ _ => ih chs (by simpa using hl))
      refine h.trans (le_of_eq ?_)
      rw [List.length_cons, pow_succ]
      ring

open Classical in
theorem card_ballot_zero (R : Finset Nat) (K : Nat) (b : List (List Nat × ContestPlan))
    (hl : ∀ c ∈ b, c.1.length = c.2.challenges.length) :
    P.q * ((ballotDraws P R (b.map Prod.fst)).filter fun d => ¬ keepBallot (publishBallot P K b d)).card
      ≤ proofsOf (b.map Prod.fst) * drawCount P R (b.map Prod.fst) := by
  induction b with
  | nil => simp [publishBallot, keepBallot]
  | cons c b ih =>
    obtain ⟨votes, plan⟩ := c
    have hc : votes.length = plan.challenges.length := hl (votes, plan) (List.mem_cons_self ..)
    rw [List.map_cons, ballotDraws, card_filter_consAll]
    have h1 := card_bad_pair (itemDraws P R votes) (range P.q) (fun ds => keepItems (publishItems P K votes plan.challenges ds))
      (fun _ _ => True) (fun x => keepItems (publishItems P K votes plan.challenges x.1)) (fun x hx _ => hx) votes.length 1
      ((R.card * P.q ^ 3) ^ votes.length) P.q P.q (card_itemDraws_le R votes) (by rw [card_range])
      (card_items_zero R K votes plan.challenges hc) (fun _ _ => by simp)
    exact card_bad_pair (itemDraws P R votes ×ˢ range P.q) (ballotDraws P R (b.map Prod.fst))
      (fun d => keepItems (publishItems P K votes plan.challenges d.1)) (fun _ ds => keepBallot (publishBallot P K b ds))
      (fun x => keepBallot (publishBallot P K ((votes, plan) :: b) (x.1 :: x.2)))
      (fun x hx hy => by
        rw [publishBallot]
        unfold keepBallot
        rw [List.forall_mem_cons]
        exact ⟨hx, hy⟩) (votes.length + 1) (proofsOf (b.map Prod.fst)) ((R.card * P.q ^ 3) ^ votes.length * P.q)
      (drawCount P R (b.map Prod.fst)) P.q
      (by rw [card_product, card_range]; exact Nat.mul_le_mul_right _ (card_itemDraws_le R votes)) (card_ballotDraws_le R _) h1
      (fun _ _ => ih (fun c hc => hl c (List.mem_cons_of_mem _ hc)))

theorem zeroHalves_le (K : Nat) (R : Finset Nat) (b : List (List Nat)) (vs : List Nat) (hl : vs.length = proofsOf b) :
    P.q * zeroHalves P K R b vs ≤ proofsOf b * drawCount P R b := by
  have h := card_ballot_zero (P := P) R K (planBy P.q b vs) (planBy_lengths P.q b vs hl)
  rw [planBy_fst] at h
  exact h

/-! ### C105 -/

/-- C105: the challenges of such a ballot are what `hash_elems` makes of the commitments, as in the provers of chaum_pedersen.py. -/
theorem C105_hashed (E : Env) (base K : Nat) (R : Finset Nat) (b : List (List Nat))
    (d : List (List (Nat × Nat × Nat × Nat) × Nat)) (hd : d ∈ ballotDraws E.P R b) :
    challengesOf (hashedBallot E.P base E.sha K b d) = (hashedBallot E.P base E.sha K b d).flatMap (fun c =>
      c.items.map (fun i => hashElems E (disjHashArgs base i.1 i.2.a0 i.2.b0 i.2.a1 i.2.b1))
        ++ [hashElems E (constHashArgs base (ctProduct E.P (c.items.map Prod.fst)) c.limitProof.a c.limitProof.b)]) := by
  have hlen : ((commitTexts E.P base K b d).map E.sha).length = proofsOf b := by
    rw [List.length_map]
    exact (publishBallot_challenges (P := E.P) base K R b _ (List.length_replicate ..) d hd).2
  have h1 := (publishBallot_challenges (P := E.P) base K R b _ hlen d hd).1
  have h2 := commitTexts_eq (P := E.P) base K b _ hlen d
  have h3 : challengesOf (hashedBallot E.P base E.sha K b d)
      = (textsOf E.P base (hashedBallot E.P base E.sha K b d)).map (fun t => E.sha t % E.P.q) := by
    unfold hashedBallot
    rw [h2, h1, List.map_map]
    rfl
  rw [h3]
  generalize hashedBallot E.P base E.sha K b d = pubs
  unfold textsOf
  rw [List.map_flatMap]
  refine List.flatMap_congr fun c _ => ?_
  rw [List.map_append, List.map_map, List.map_singleton]
  have e1 : ∀ i : Ciphertext × DisjProof, hashElems E (disjHashArgs base i.1 i.2.a0 i.2.b0 i.2.a1 i.2.b1)
      = E.sha (disjText base i.1 i.2) % E.P.q := fun i => by
    unfold hashElems disjText
    rw [← elemText_eq E]
    rfl
  have e2 : hashElems E (constHashArgs base (ctProduct E.P (c.items.map Prod.fst)) c.limitProof.a c.limitProof.b)
      = E.sha (limitText base (ctProduct E.P (c.items.map Prod.fst)) c.limitProof) % E.P.q := by
    unfold hashElems limitText
    rw [← elemText_eq E]
    rfl
  rw [e2]
  simp only [e1]
  rfl

/-- C105: what the code makes of a vote 0 or 1 with a nonce that is not 0 is what the game publishes for the nonce and the three
derived numbers: the ciphertext, and the proof for the challenge that is the hash of its commitments. -/
theorem C105_vote_prover (E : Env) (hv : E.P.Valid) (K r base seed v : Nat) (hr : r ≠ 0) (hvote : v = 0 ∨ v = 1) (pf : DisjProof)
    (h : makeDisj E (voteCipher E.P K v r) r K base seed v = .ok pf) :
    elgamalEncrypt E.P v r K = some (voteCipher E.P K v r) ∧
      (r, nonce E seed disjHeader 0, nonce E seed disjHeader 1, nonce E seed disjHeader 2) ∈ voteDraws E.P {r} v ∧
      pf = proveVote E.P v r K (nonce E seed disjHeader 0, nonce E seed disjHeader 1, nonce E seed disjHeader 2)
        (E.sha (disjText base (voteCipher E.P K v r) pf) % E.P.q) := by
  have lt := fun i => nonce_lt (E := E) hv.q_pos seed disjHeader i
  have hash : hashElems E (disjHashArgs base (voteCipher E.P K v r) pf.a0 pf.b0 pf.a1 pf.b1)
      = E.sha (disjText base (voteCipher E.P K v r) pf) % E.P.q := by
    unfold hashElems disjText
    rw [← elemText_eq E]
    rfl
  refine ⟨voteCipher_eq hv K v r hr, ?_, ?_⟩
  · unfold voteDraws
    simp only [mem_product, mem_singleton, mem_range, true_and]
    refine ⟨?_, lt 1, lt 2⟩
    rcases hvote with rfl | rfl
    · simpa using lt 0
    · rcases C82_one_prover E hv (voteCipher E.P K 1 r) r K base seed with ⟨_, he⟩ | ⟨h0, _⟩
      · rw [Nat.cast_one] at h
        rw [he] at h; cases h
      · simpa using ⟨h0, lt 0⟩
  · rw [← hash]
    rcases hvote with rfl | rfl
    · obtain ⟨pf', h1, h2, h3⟩ := C82_zero_prover E hv (voteCipher E.P K 0 r) r K base seed
      rw [Nat.cast_zero] at h
      rw [h1] at h
      cases h
      rw [← h3]
      exact h2
    · rw [Nat.cast_one] at h
      rcases C82_one_prover E hv (voteCipher E.P K 1 r) r K base seed with ⟨_, he⟩ | ⟨_, pf', h1, h2, h3⟩
      · rw [he] at h; cases h
      · rw [h1] at h
        cases h
        rw [← h3]
        exact h2

/-- C105: the same for the proof of a sum of votes. -/
theorem C105_limit_prover (E : Env) (c : Ciphertext) (L r K seed base : Nat) :
    makeConst E c L r K seed base = proveConst E.P L r K (nonce E seed constHeader 0)
      (E.sha (limitText base c (makeConst E c L r K seed base)) % E.P.q) := by
  have h := C82_const_prover E c L r K seed base
  have hash : hashElems E (constHashArgs base c (makeConst E c L r K seed base).a (makeConst E c L r K seed base).b)
      = E.sha (limitText base c (makeConst E c L r K seed base)) % E.P.q := by
    unfold hashElems limitText
    rw [← elemText_eq E]
    rfl
  rw [← hash, ← h.2]
  exact h.1

theorem planBy_provable (hv : P.Valid) (b : List (List Nat)) (hb : ∀ votes ∈ b, ∀ v ∈ votes, v = 0 ∨ v = 1) (vs : List Nat)
    (hl : vs.length = proofsOf b) : Provable P (planBy P.q b vs) := by
  induction b generalizing vs with
  | nil => intro c hc; cases hc
  | cons votes b ih =>
    have hp : proofsOf (votes :: b) = votes.length + 1 + proofsOf b := rfl
    unfold Provable
    rw [planBy, List.forall_mem_cons]
    refine ⟨⟨hb votes (List.mem_cons_self ..), ?_, rfl, Nat.mod_lt _ hv.q_pos⟩,
      ih (fun w hw => hb w (List.mem_cons_of_mem _ hw)) _ ?_⟩
    · simp only [List.length_map, List.length_take]; omega
    · rw [List.length_drop]; omega

theorem planBy_planOf (q : Nat) (b b' : List (List Nat)) (h : shapeOf b = shapeOf b') (vs : List Nat) :
    planOf (planBy q b vs) = planOf (planBy q b' vs) := by
  induction b generalizing b' vs with
  | nil =>
    cases b' with
    | nil => rfl
    | cons => simp [shapeOf] at h
  | cons votes b ih =>
    cases b' with
    | nil => simp [shapeOf] at h
    | cons votes' b' =>
      simp only [shapeOf, List.map_cons, List.cons.injEq, Prod.mk.injEq] at h
      have hi := ih b' h.2 (vs.drop (votes.length + 1))
      simp only [planBy, planOf, List.map_cons] at hi ⊢
      rw [hi, h.1.1, h.1.2]

theorem planBy_votesOf (q : Nat) (b : List (List Nat)) (vs : List Nat) : votesOf (planBy q b vs) = b.flatten := by
  induction b generalizing vs with
  | nil => rfl
  | cons votes b ih =>
    show votes ++ votesOf (planBy q b _) = votes ++ b.flatten
    rw [ih]

theorem shape_common (R : Finset Nat) (b b' : List (List Nat)) (h : shapeOf b = shapeOf b') :
    proofsOf b = proofsOf b' ∧ drawCount P R b = drawCount P R b' ∧ b.flatten.length = b'.flatten.length := by
  have hlen : b.map List.length = b'.map List.length := by
    have := congrArg (List.map Prod.fst) h
    simp only [shapeOf, List.map_map] at this
    exact this
  refine ⟨?_, ?_, ?_⟩
  · have := congrArg (fun l => (l.map (· + 1)).sum) hlen
    simp only [List.map_map] at this
    exact this
  · have := congrArg (fun l => (l.map fun n => (R.card * P.q ^ 3) ^ n * P.q).prod) hlen
    simp only [List.map_map] at this
    exact this
  · rw [List.length_flatten, List.length_flatten, hlen]

theorem ddhAdvantage_sum {ι : Type} (X R : Finset Nat) (S : Finset ι) (A : ι → Nat → Nat → Nat → Int) :
    ddhAdvantage P X R (fun K Y Z => ∑ i ∈ S, A i K Y Z) = ∑ i ∈ S, ddhAdvantage P X R (A i) := by
  classical
  induction S using Finset.induction_on with
  | empty => simp [ddhAdvantage, ddhReal, ddhRandom]
  | insert i S hi ih =>
    rw [Finset.sum_insert hi, ← ih]
    simp only [Finset.sum_insert hi, ddhAdvantage, ddhReal, ddhRandom, Finset.sum_add_distrib]
    ring

/-- C105: a ballot whose challenges are hashes looks like one with given challenges, except for at most `k² + k` of `q` draws,
where `k` is the number of proofs: those in which two texts are the same, or half of a challenge is 0. -/
theorem C105_games (hv : P.Valid) (base : Nat) (X R : Finset Nat) (hR : ∀ r ∈ R, r ≠ 0) (f : Text → Nat) (T : Finset Text)
    (hT : challengeTexts P base ⊆ T) (M B : Nat) (D : Nat → (Text → Nat) → List PublishedContest → Int)
    (hD : ∀ K s pubs, |D K s pubs| ≤ B) (b : List (List Nat)) :
    P.q * |(M : Int) ^ proofsOf b * hashedPublished P base X R (oracles f T M) D b
        - ∑ vs ∈ valueLists M (proofsOf b), ∑ s ∈ oracles f T M,
            published P X R (programmedObserver P base D s vs) (planBy P.q b vs)|
      ≤ (proofsOf b ^ 2 + proofsOf b : Nat) * (B * X.card * (oracles f T M).card * M ^ proofsOf b * drawCount P R b) := by
  set Ω := oracles f T M
  set k := proofsOf b
  have hsplit : (M : Int) ^ k * hashedPublished P base X R Ω D b
        - ∑ vs ∈ valueLists M k, ∑ s ∈ Ω, published P X R (programmedObserver P base D s vs) (planBy P.q b vs)
      = ∑ x ∈ X, ((M : Int) ^ k * (∑ s ∈ Ω, ∑ d ∈ ballotDraws P R b,
            D (P.g ^ x % P.p) s (hashedBallot P base s (P.g ^ x % P.p) b d))
          - ∑ vs ∈ valueLists M k, ∑ s ∈ Ω, ballotShown P R (P.g ^ x % P.p) (planBy P.q b vs)
            (fun pubs => D (P.g ^ x % P.p) (program s (textsOf P base pubs) vs) pubs)) := by
    unfold hashedPublished published programmedObserver
    rw [sum_sub_distrib, mul_sum]
    congr 1
    rw [sum_comm, sum_congr rfl fun s _ => sum_comm, sum_comm]
    refine sum_congr rfl fun x _ => ?_
    rw [sum_comm]
  rw [hsplit]
  have hone : ∀ x ∈ X, (P.q : Int) * |(M : Int) ^ k * (∑ s ∈ Ω, ∑ d ∈ ballotDraws P R b,
            D (P.g ^ x % P.p) s (hashedBallot P base s (P.g ^ x % P.p) b d))
          - ∑ vs ∈ valueLists M k, ∑ s ∈ Ω, ballotShown P R (P.g ^ x % P.p) (planBy P.q b vs)
            (fun pubs => D (P.g ^ x % P.p) (program s (textsOf P base pubs) vs) pubs)|
        ≤ (k ^ 2 + k : Nat) * (B * Ω.card * M ^ k * drawCount P R b) := by
    intro x _
    have h := games_apart hv base (P.g ^ x % P.p) R hR f T hT M B (D (P.g ^ x % P.p)) (hD _) b
    have hs := sameTexts_le hv base (P.g ^ x % P.p) R b
    have hz : ∑ vs ∈ valueLists M k, P.q * zeroHalves P (P.g ^ x % P.p) R b vs ≤ M ^ k * (k * drawCount P R b) := by
      refine (sum_le_sum fun vs hvs => zeroHalves_le (P.g ^ x % P.p) R b vs (mem_valueLists hvs)).trans ?_
      rw [sum_const, card_valueLists, smul_eq_mul]
    have hs' : (2 * P.q * sameTexts P base (P.g ^ x % P.p) R b : Int) ≤ (k : Int) ^ 2 * drawCount P R b := by exact_mod_cast hs
    have hz' : (P.q : Int) * ∑ vs ∈ valueLists M k, (zeroHalves P (P.g ^ x % P.p) R b vs : Int) ≤ (M : Int) ^ k * (k * drawCount P R b) := by
      rw [mul_sum]
      exact_mod_cast hz
    refine (mul_le_mul_of_nonneg_left h (by positivity)).trans ?_
    have c1 : (0 : Int) ≤ B * Ω.card * (M : Int) ^ k := by positivity
    have c2 : (0 : Int) ≤ B * Ω.card := by positivity
    have m1 := mul_le_mul_of_nonneg_left hs' c1
    have m2 := mul_le_mul_of_nonneg_left hz' c2
    push_cast
    calc _ = (B * Ω.card * (M : Int) ^ k) * (2 * P.q * sameTexts P base (P.g ^ x % P.p) R b)
          + (B * Ω.card) * ((P.q : Int) * ∑ vs ∈ valueLists M k, (zeroHalves P (P.g ^ x % P.p) R b vs : Int)) := by ring
      _ ≤ _ := add_le_add m1 m2
      _ = _ := by ring
  calc _ ≤ (P.q : Int) * ∑ x ∈ X, _ := mul_le_mul_of_nonneg_left (abs_sum_le_sum_abs _ _) (by positivity)
    _ = ∑ x ∈ X, (P.q : Int) * _ := mul_sum ..
    _ ≤ ∑ x ∈ X, ((k ^ 2 + k : Nat) * (B * Ω.card * M ^ k * drawCount P R b) : Int) := sum_le_sum hone
    _ = _ := by
      rw [sum_const, nsmul_eq_mul]
      ring

/-- C105: how differently any observer answers on two published ballots of the same style whose challenges are hashes, is what explicit
adversaries gain over guessing in decisional Diffie-Hellman, up to the draws of `C105_games`. -/
theorem C105_private (hv : P.Valid) (base : Nat) (X R : Finset Nat) (hR : ∀ r ∈ R, r ≠ 0) (f : Text → Nat) (T : Finset Text)
    (hT : challengeTexts P base ⊆ T) (M B : Nat) (D : Nat → (Text → Nat) → List PublishedContest → Int)
    (hD : ∀ K s pubs, |D K s pubs| ≤ B) (b b' : List (List Nat)) (hb : ∀ votes ∈ b, ∀ v ∈ votes, v = 0 ∨ v = 1)
    (hb' : ∀ votes ∈ b', ∀ v ∈ votes, v = 0 ∨ v = 1) (hsame : shapeOf b = shapeOf b') :
    |P.q * ((M : Int) ^ proofsOf b * (hashedPublished P base X R (oracles f T M) D b
            - hashedPublished P base X R (oracles f T M) D b'))
        - ∑ i ∈ range b.flatten.length,
            (ddhAdvantage P X R (oracleAdversary P base R (oracles f T M) M D b (b'.flatten.take i) (b.flatten.getD i 0)
                (b.flatten.drop (i + 1)))
              - ddhAdvantage P X R (oracleAdversary P base R (oracles f T M) M D b (b'.flatten.take i) (b'.flatten.getD i 0)
                (b.flatten.drop (i + 1))))|
      ≤ 2 * ((proofsOf b ^ 2 + proofsOf b : Nat) * (B * X.card * (oracles f T M).card * M ^ proofsOf b * drawCount P R b)) := by
  obtain ⟨hk, hN, _⟩ := shape_common (P := P) R b b' hsame
  have g := C105_games hv base X R hR f T hT M B D hD b
  have g' := C105_games hv base X R hR f T hT M B D hD b'
  rw [← hk, ← hN] at g'
  set Ω := oracles f T M
  set k := proofsOf b
  -- the games with given challenges
  have hd : (P.q : Int) * ((∑ vs ∈ valueLists M k, ∑ s ∈ Ω, published P X R (programmedObserver P base D s vs) (planBy P.q b vs))
        - ∑ vs ∈ valueLists M k, ∑ s ∈ Ω, published P X R (programmedObserver P base D s vs) (planBy P.q b' vs))
      = ∑ i ∈ range b.flatten.length,
            (ddhAdvantage P X R (oracleAdversary P base R Ω M D b (b'.flatten.take i) (b.flatten.getD i 0)
                (b.flatten.drop (i + 1)))
              - ddhAdvantage P X R (oracleAdversary P base R Ω M D b (b'.flatten.take i) (b'.flatten.getD i 0)
                (b.flatten.drop (i + 1)))) := by
    unfold oracleAdversary
    simp only [ddhAdvantage_sum]
    rw [← sum_sub_distrib, mul_sum]
    simp only [← sum_sub_distrib, mul_sum]
    rw [sum_comm (s := range _)]
    refine sum_congr rfl fun vs hvs => ?_
    rw [sum_comm (s := range _)]
    refine sum_congr rfl fun s _ => ?_
    have hl : vs.length = proofsOf b := mem_valueLists hvs
    have h := C102_ballot_private hv X R hR (programmedObserver P base D s vs) (planBy P.q b vs) (planBy P.q b' vs)
      (planBy_provable hv b hb vs hl) (planBy_provable hv b' hb' vs (hl.trans hk)) (planBy_planOf P.q b b' hsame vs)
    rw [planBy_votesOf, planBy_votesOf] at h
    exact h
  rw [← hd]
  have e : (P.q : Int) * ((M : Int) ^ k * (hashedPublished P base X R Ω D b - hashedPublished P base X R Ω D b'))
      - P.q * ((∑ vs ∈ valueLists M k, ∑ s ∈ Ω, published P X R (programmedObserver P base D s vs) (planBy P.q b vs))
        - ∑ vs ∈ valueLists M k, ∑ s ∈ Ω, published P X R (programmedObserver P base D s vs) (planBy P.q b' vs))
      = P.q * ((M : Int) ^ k * hashedPublished P base X R Ω D b
          - ∑ vs ∈ valueLists M k, ∑ s ∈ Ω, published P X R (programmedObserver P base D s vs) (planBy P.q b vs))
        - P.q * ((M : Int) ^ k * hashedPublished P base X R Ω D b'
          - ∑ vs ∈ valueLists M k, ∑ s ∈ Ω, published P X R (programmedObserver P base D s vs) (planBy P.q b' vs)) := by ring
  rw [e]
  refine (abs_sub _ _).trans ?_
  rw [abs_mul, abs_mul, abs_of_nonneg (by positivity : (0 : Int) ≤ P.q)]
  linarith

/-- C105: if the adversaries gain at most `ε`, an observer gains at most `2nε` for `n` encrypted votes and a `2(k² + k)/q` part of
what there is to gain. -/
theorem C105_bound (hv : P.Valid) (base : Nat) (X R : Finset Nat) (hR : ∀ r ∈ R, r ≠ 0) (f : Text → Nat) (T : Finset Text)
    (hT : challengeTexts P base ⊆ T) (M B : Nat) (D : Nat → (Text → Nat) → List PublishedContest → Int)
    (hD : ∀ K s pubs, |D K s pubs| ≤ B) (b b' : List (List Nat)) (hb : ∀ votes ∈ b, ∀ v ∈ votes, v = 0 ∨ v = 1)
    (hb' : ∀ votes ∈ b', ∀ v ∈ votes, v = 0 ∨ v = 1) (hsame : shapeOf b = shapeOf b') (ε : Int)
    (hε : ∀ i < b.flatten.length, ∀ m ∈ [b.flatten.getD i 0, b'.flatten.getD i 0],
      |ddhAdvantage P X R (oracleAdversary P base R (oracles f T M) M D b (b'.flatten.take i) m (b.flatten.drop (i + 1)))| ≤ ε) :
    P.q * (M : Int) ^ proofsOf b * |hashedPublished P base X R (oracles f T M) D b
            - hashedPublished P base X R (oracles f T M) D b'|
      ≤ 2 * b.flatten.length * ε
        + 2 * ((proofsOf b ^ 2 + proofsOf b : Nat) * (B * X.card * (oracles f T M).card * M ^ proofsOf b * drawCount P R b)) := by
  have h := C105_private hv base X R hR f T hT M B D hD b b' hb hb' hsame
  have hsum : |∑ i ∈ range b.flatten.length,
            (ddhAdvantage P X R (oracleAdversary P base R (oracles f T M) M D b (b'.flatten.take i) (b.flatten.getD i 0)
                (b.flatten.drop (i + 1)))
              - ddhAdvantage P X R (oracleAdversary P base R (oracles f T M) M D b (b'.flatten.take i) (b'.flatten.getD i 0)
                (b.flatten.drop (i + 1))))| ≤ 2 * b.flatten.length * ε := by
    refine (abs_sum_le_sum_abs _ _).trans ?_
    refine (sum_le_sum (g := fun _ => 2 * ε) fun i hi => ?_).trans ?_
    · have h1 := hε i (mem_range.1 hi) _ (List.mem_cons_self ..)
      have h2 := hε i (mem_range.1 hi) (b'.flatten.getD i 0) (by simp)
      exact (abs_sub _ _).trans (by linarith)
    · rw [sum_const, card_range, nsmul_eq_mul]
      exact le_of_eq (by ring)
  have hq : (P.q : Int) * (M : Int) ^ proofsOf b * |hashedPublished P base X R (oracles f T M) D b
            - hashedPublished P base X R (oracles f T M) D b'|
      = |P.q * ((M : Int) ^ proofsOf b * (hashedPublished P base X R (oracles f T M) D b
            - hashedPublished P base X R (oracles f T M) D b'))| := by
    rw [abs_mul, abs_mul, abs_of_nonneg (by positivity : (0 : Int) ≤ P.q),
      abs_of_nonneg (by positivity : (0 : Int) ≤ (M : Int) ^ proofsOf b), mul_assoc]
  rw [hq]
  have := abs_sub_abs_le_abs_sub (P.q * ((M : Int) ^ proofsOf b * (hashedPublished P base X R (oracles f T M) D b
            - hashedPublished P base X R (oracles f T M) D b'))) (∑ i ∈ range b.flatten.length,
            (ddhAdvantage P X R (oracleAdversary P base R (oracles f T M) M D b (b'.flatten.take i) (b.flatten.getD i 0)
                (b.flatten.drop (i + 1)))
              - ddhAdvantage P X R (oracleAdversary P base R (oracles f T M) M D b (b'.flatten.take i) (b'.flatten.getD i 0)
                (b.flatten.drop (i + 1)))))
  linarith

/-! ### Cases -/

/-- Two different ballots of two contests to which the theorems apply, with the values of SHA-256. -/
example (f : Text → Nat) (D : Nat → (Text → Nat) → List PublishedContest → Int) (hD : ∀ K s pubs, |D K s pubs| ≤ (1 : Nat)) :=
  C105_private extraSmall_valid 9 {3, 5} {1, 4, 6} (by decide) f (challengeTexts extraSmall 9) (Finset.Subset.refl _) (2 ^ 256) 1 D hD
    [[1, 0, 0], [0, 1]] [[0, 0, 1], [1, 0]] (by decide) (by decide) rfl

/-- Its texts are hashed by a random function: there are `M ^ |T|` of them. -/
example (f : Text → Nat) : 0 < (oracles f (challengeTexts extraSmall 9) (2 ^ 256)).card := by
  rw [card_oracles]; positivity

/-- A hash function for the cases: the letters as digits of a number. -/
def toyLetters (t : Text) : Nat := t.foldl (fun a c => 5 * a + c.toNat) 0

/-- One ballot with hashed challenges in the group of order 13: the challenges are different hashes, and the proofs are accepted. -/
example :
    let E : Env := { toyEnv with sha := toyLetters }
    let pubs := hashedBallot extraSmall 9 toyLetters (16 ^ 3 % 157) [[1, 0]] [([(2, 5, 7, 1), (3, 0, 4, 6)], 8)]
    challengesOf pubs = [12, 1, 2] ∧
      pubs.map (fun c => (c.items.all (fun i => i.2.isValid E i.1 (16 ^ 3 % 157) 9),
        c.limitProof.isValid E (ctProduct extraSmall (c.items.map Prod.fst)) (16 ^ 3 % 157) 9)) = [(true, true)] := by
  decide +kernel

end EG
