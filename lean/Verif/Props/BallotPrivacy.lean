import Verif.Props.Privacy
import Verif.Props.ZeroKnowledge
import Verif.Spec.PublishedBallot

/-!
# C102: a published ballot shows the votes only to those who can solve decisional Diffie-Hellman
-/

namespace EG

open Finset

variable {P : Params}

/-! ### From counts to sums -/

theorem sum_of_counts {α β : Type} [DecidableEq β] (s t : Finset α) (f g : α → β)
    (h : ∀ test : β → Bool, (s.filter (fun a => test (f a) = true)).card = (t.filter (fun a => test (g a) = true)).card)
    (Φ : β → Int) : ∑ a ∈ s, Φ (f a) = ∑ a ∈ t, Φ (g a) := by
  have hc : ∀ b, (s.filter (fun a => f a = b)).card = (t.filter (fun a => g a = b)).card := by
    intro b
    simpa using h (fun x => decide (x = b))
  have him : s.image f = t.image g := by
    ext b
    have := hc b
    constructor
    · intro hb
      obtain ⟨a, ha, hab⟩ := mem_image.1 hb
      have : 0 < (t.filter (fun a => g a = b)).card := by
        rw [← this]; exact card_pos.2 ⟨a, mem_filter.2 ⟨ha, hab⟩⟩
      obtain ⟨a, ha⟩ := card_pos.1 this
      exact mem_image.2 ⟨a, (mem_filter.1 ha).1, (mem_filter.1 ha).2⟩
    · intro hb
      obtain ⟨a, ha, hab⟩ := mem_image.1 hb
      have : 0 < (s.filter (fun a => f a = b)).card := by
        rw [this]; exact card_pos.2 ⟨a, mem_filter.2 ⟨ha, hab⟩⟩
      obtain ⟨a, ha⟩ := card_pos.1 this
      exact mem_image.2 ⟨a, (mem_filter.1 ha).1, (mem_filter.1 ha).2⟩
  rw [Finset.sum_comp Φ f, Finset.sum_comp Φ g, him]
  exact Finset.sum_congr rfl fun b _ => by rw [hc b]

theorem sum_prove (hv : P.Valid) (vote K r ch : Nat) (c : Ciphertext) (hvote : vote = 0 ∨ vote = 1)
    (hK : isValidResidue P K = true) (hc : EncryptsWith P K r vote c) (Φ : DisjProof → Int) :
    ∑ n ∈ proofCoins P vote ch, Φ (proveVote P vote r K n ch)
      = ∑ x ∈ Ico 1 P.q ×ˢ range P.q ×ˢ range P.q, Φ (simulateDisj P c K x.1 x.2.1 x.2.2 ch) := by
  rcases hvote with rfl | rfl
  · have h := sum_of_counts (Ico 0 P.q ×ˢ range P.q ×ˢ range P.q) (Ico 0 P.q ×ˢ range P.q ×ˢ range P.q)
      (fun n => proveZero P r K n.1 n.2.1 n.2.2 ch) (fun x => simulateDisj P c K x.1 x.2.1 x.2.2 ch)
      (fun test => C82_zero_reveals_nothing hv K r c hK hc ch test) (fun pf => if pf.c0 = 0 then 0 else Φ pf)
    simp only [proofCoins, proveVote, if_true]
    rw [Finset.sum_filter]
    have hl : ∀ n : Nat × Nat × Nat, (if (proveZero P r K n.1 n.2.1 n.2.2 ch).c0 = 0 then 0
        else Φ (proveZero P r K n.1 n.2.1 n.2.2 ch))
        = if (ch + (P.q - n.1)) % P.q ≠ 0 then Φ (proveZero P r K n.1 n.2.1 n.2.2 ch) else 0 := by
      intro n
      show (if (ch + (P.q - n.1)) % P.q = 0 then _ else _) = _
      split <;> simp_all
    simp only [hl] at h
    rw [show Ico 0 P.q = range P.q by rw [range_eq_Ico]] at h
    rw [h]
    have hsub : Ico 1 P.q ×ˢ range P.q ×ˢ range P.q ⊆ range P.q ×ˢ range P.q ×ˢ range P.q := by
      intro x hx
      simp only [mem_product, mem_Ico, mem_range] at hx ⊢
      omega
    rw [← Finset.sum_subset hsub]
    · refine Finset.sum_congr rfl fun x hx => ?_
      have : (simulateDisj P c K x.1 x.2.1 x.2.2 ch).c0 ≠ 0 := by
        simp only [mem_product, mem_Ico] at hx
        show x.1 ≠ 0
        omega
      rw [if_neg this]
    · intro x hx hx'
      have : (simulateDisj P c K x.1 x.2.1 x.2.2 ch).c0 = 0 := by
        simp only [mem_product, mem_Ico, mem_range] at hx hx'
        show x.1 = 0
        omega
      rw [if_pos this]
  · have h := sum_of_counts (Ico 1 P.q ×ˢ range P.q ×ˢ range P.q) (Ico 1 P.q ×ˢ range P.q ×ˢ range P.q)
      (fun n => proveOne P r K n.1 n.2.1 n.2.2 ch) (fun x => simulateDisj P c K x.1 x.2.1 x.2.2 ch)
      (fun test => C82_one_reveals_nothing_partial hv K r c hK hc ch test) Φ
    rw [← h]
    refine Finset.sum_congr ?_ fun n _ => rfl
    ext n
    simp only [proofCoins, mem_filter, mem_product, mem_Ico, mem_range]
    simp only [Nat.one_ne_zero, if_false]
    omega

theorem sum_proveConst (hv : P.Valid) (K r L ch : Nat) (c : Ciphertext) (hK : isValidResidue P K = true)
    (hc : EncryptsWith P K r L c) (hch : ch < P.q) (Φ : ConstProof → Int) :
    ∑ n ∈ range P.q, Φ (proveConst P L r K n ch) = ∑ v ∈ range P.q, Φ (simulateConst P L c K v ch) :=
  sum_of_counts (range P.q) (range P.q) (fun n => proveConst P L r K n ch) (fun v => simulateConst P L c K v ch)
    (fun test => C82_const_reveals_nothing hv K r L c hK hc ch hch test) Φ

/-! ### Encryptions with the sum of the nonces -/

/-- As `encSum`, with the sum of the nonces. -/
def encSumN (P : Params) (R : Finset Nat) (K : Nat) : List Nat → (List Ciphertext → Nat → Int) → Int
  | [], F => F [] 0
  | m :: ms, F => ∑ r ∈ R,
      match elgamalEncrypt P m r K with
      | some c => encSumN P R K ms (fun cs t => F (c :: cs) (r + t))
      | none => 0

theorem encSumN_zero_fun (R : Finset Nat) (K : Nat) (ms : List Nat) : encSumN P R K ms (fun _ _ => 0) = 0 := by
  induction ms with
  | nil => rfl
  | cons m ms ih =>
    rw [encSumN]
    refine Finset.sum_eq_zero fun r _ => ?_
    cases elgamalEncrypt P m r K with
    | none => rfl
    | some c => exact ih

theorem encSumN_add (R : Finset Nat) (K : Nat) (ms : List Nat) (F G : List Ciphertext → Nat → Int) :
    encSumN P R K ms (fun a t => F a t + G a t) = encSumN P R K ms F + encSumN P R K ms G := by
  induction ms generalizing F G with
  | nil => rfl
  | cons m ms ih =>
    rw [encSumN, encSumN, encSumN, ← Finset.sum_add_distrib]
    refine Finset.sum_congr rfl fun r _ => ?_
    cases elgamalEncrypt P m r K with
    | none => rfl
    | some c => exact ih _ _

theorem encSumN_sum {ι : Type} (R : Finset Nat) (K : Nat) (ms : List Nat) (S : Finset ι)
    (F : ι → List Ciphertext → Nat → Int) :
    encSumN P R K ms (fun a t => ∑ i ∈ S, F i a t) = ∑ i ∈ S, encSumN P R K ms (F i) := by
  classical
  induction S using Finset.induction_on with
  | empty => simpa using encSumN_zero_fun R K ms
  | insert i S hi ih =>
    simp only [Finset.sum_insert hi]
    rw [encSumN_add, ih]

/-- The ciphertexts are encryptions of the messages with nonces of this sum. -/
def SumsTo (P : Params) (K : Nat) (ms : List Nat) (cs : List Ciphertext) (t : Nat) : Prop :=
  cs.length = ms.length ∧
    ((cs.map Ciphertext.pad).prod : ZMod P.p) = (P.g : ZMod P.p) ^ t ∧
    ((cs.map Ciphertext.data).prod : ZMod P.p) = (P.g : ZMod P.p) ^ ms.sum * (K : ZMod P.p) ^ t

theorem encSumN_eq (hv : P.Valid) (R : Finset Nat) (K : Nat) (ms : List Nat) (G : List Ciphertext → Nat → Int)
    (H : List Ciphertext → Int) (h : ∀ cs t, SumsTo P K ms cs t → G cs t = H cs) :
    encSumN P R K ms G = encSum P R K ms H := by
  induction ms generalizing G H with
  | nil => exact h [] 0 ⟨rfl, by simp, by simp⟩
  | cons m ms ih =>
    rw [encSumN, encSum]
    refine Finset.sum_congr rfl fun r _ => ?_
    cases hc : elgamalEncrypt P m r K with
    | none => rfl
    | some c =>
      refine ih _ _ fun cs t hcs => h _ _ ?_
      obtain ⟨h1, h2, h3⟩ := hcs
      obtain ⟨_, _, h4, h5⟩ := (encryptsWith_iff_cast hv).1 (C01_ciphertext hv m r K c hc).2
      refine ⟨by simp [h1], ?_, ?_⟩
      · rw [List.map_cons, List.prod_cons, Nat.cast_mul, h4, h2, pow_add]
      · rw [List.map_cons, List.prod_cons, Nat.cast_mul, h5, h3, List.sum_cons, pow_add, pow_add]
        ring

/-! ### Items, contests, ballots -/

theorem itemSum_eq (hv : P.Valid) (R : Finset Nat) (K : Nat) (hK : isValidResidue P K = true) (votes chs : List Nat)
    (hvotes : ∀ v ∈ votes, v = 0 ∨ v = 1) (hl : votes.length = chs.length)
    (F : List (Ciphertext × DisjProof) → Nat → Int) :
    itemSum P R K (votes.zip chs) F
      = encSumN P R K votes (fun cs t => simItems P K (cs.zip chs) (fun items => F items t)) := by
  induction votes generalizing chs F with
  | nil =>
    cases chs with
    | nil => rfl
    | cons => simp at hl
  | cons m ms ih =>
    cases chs with
    | nil => simp at hl
    | cons ch chs =>
      rw [List.zip_cons_cons, itemSum, encSumN]
      refine Finset.sum_congr rfl fun r _ => ?_
      cases hc : elgamalEncrypt P m r K with
      | none => rfl
      | some c =>
        simp only
        rw [Finset.sum_congr rfl fun n _ => ih chs (fun v hv => hvotes v (List.mem_cons_of_mem _ hv))
          (by simpa using hl) _]
        rw [← encSumN_sum]
        congr 1
        funext cs t
        rw [List.zip_cons_cons, simItems]
        exact sum_prove hv m K r ch c (hvotes m (List.mem_cons_self ..)) hK (C01_ciphertext hv m r K c hc).2
          (fun pf => simItems P K (cs.zip chs) (fun items => F ((c, pf) :: items) (r + t)))

theorem contestShown_eq (hv : P.Valid) (R : Finset Nat) (K : Nat) (hK : isValidResidue P K = true) (votes : List Nat)
    (plan : ContestPlan) (hvotes : ∀ v ∈ votes, v = 0 ∨ v = 1) (hl : votes.length = plan.challenges.length)
    (hL : votes.sum = plan.limit) (hch : plan.limitChallenge < P.q) (F : PublishedContest → Int) :
    contestShown P R K votes plan F = encSum P R K votes (fun cs => simContest P K plan cs F) := by
  unfold contestShown
  rw [itemSum_eq hv R K hK votes plan.challenges hvotes hl]
  refine encSumN_eq hv R K votes _ _ fun cs t hcs => ?_
  unfold simContest
  congr 1
  funext items
  have henc : EncryptsWith P K t plan.limit (ctProduct P cs) := by
    refine (encryptsWith_iff_cast hv).2 ⟨Nat.mod_lt _ hv.p_pos, Nat.mod_lt _ hv.p_pos, ?_, ?_⟩
    · show (((cs.map Ciphertext.pad).prod % P.p : Nat) : ZMod P.p) = _
      rw [ZMod.natCast_mod]; exact hcs.2.1
    · show (((cs.map Ciphertext.data).prod % P.p : Nat) : ZMod P.p) = _
      rw [ZMod.natCast_mod, ← hL]; exact hcs.2.2
  exact sum_proveConst hv K t plan.limit plan.limitChallenge _ hK henc hch (fun pf => F ⟨items, pf⟩)

theorem encSum_congr_length (R : Finset Nat) (K : Nat) (ms : List Nat) (F G : List Ciphertext → Int)
    (h : ∀ cs, cs.length = ms.length → F cs = G cs) : encSum P R K ms F = encSum P R K ms G := by
  induction ms generalizing F G with
  | nil => exact h [] rfl
  | cons m ms ih =>
    rw [encSum, encSum]
    refine Finset.sum_congr rfl fun r _ => ?_
    cases elgamalEncrypt P m r K with
    | none => rfl
    | some c => exact ih _ _ fun cs hcs => h _ (by simp [hcs])

theorem simItems_zero_fun (K : Nat) (cs : List (Ciphertext × Nat)) : simItems P K cs (fun _ => 0) = 0 := by
  induction cs with
  | nil => rfl
  | cons c cs ih =>
    obtain ⟨c, ch⟩ := c
    rw [simItems]
    exact Finset.sum_eq_zero fun x _ => ih

theorem simItems_add (K : Nat) (cs : List (Ciphertext × Nat)) (F G : List (Ciphertext × DisjProof) → Int) :
    simItems P K cs (fun a => F a + G a) = simItems P K cs F + simItems P K cs G := by
  induction cs generalizing F G with
  | nil => rfl
  | cons c cs ih =>
    obtain ⟨c, ch⟩ := c
    rw [simItems, simItems, simItems, ← Finset.sum_add_distrib]
    exact Finset.sum_congr rfl fun x _ => ih _ _

theorem simContest_add (K : Nat) (plan : ContestPlan) (cs : List Ciphertext) (F G : PublishedContest → Int) :
    simContest P K plan cs (fun a => F a + G a) = simContest P K plan cs F + simContest P K plan cs G := by
  unfold simContest
  rw [← simItems_add]
  congr 1
  funext items
  rw [Finset.sum_add_distrib]

theorem simContest_zero_fun (K : Nat) (plan : ContestPlan) (cs : List Ciphertext) :
    simContest P K plan cs (fun _ => 0) = 0 := by
  unfold simContest
  simp only [Finset.sum_const_zero]
  exact simItems_zero_fun _ _

/-- The sum over encryptions and the simulation of a contest change places. -/
theorem simContest_encSum (R : Finset Nat) (K : Nat) (plan : ContestPlan) (cs : List Ciphertext) (ms : List Nat)
    (F : PublishedContest → List Ciphertext → Int) :
    simContest P K plan cs (fun pub => encSum P R K ms (F pub))
      = encSum P R K ms (fun bs => simContest P K plan cs (fun pub => F pub bs)) := by
  induction ms generalizing F with
  | nil => rfl
  | cons m ms ih =>
    simp only [encSum]
    classical
    have hsum : ∀ (S : Finset Nat) (G : Nat → PublishedContest → Int),
        simContest P K plan cs (fun pub => ∑ r ∈ S, G r pub) = ∑ r ∈ S, simContest P K plan cs (G r) := by
      intro S G
      induction S using Finset.induction_on with
      | empty => simpa using simContest_zero_fun K plan cs
      | insert i S hi ih =>
        simp only [Finset.sum_insert hi]
        rw [simContest_add, ih]
    rw [hsum]
    refine Finset.sum_congr rfl fun r _ => ?_
    cases elgamalEncrypt P m r K with
    | none => exact simContest_zero_fun K plan cs
    | some c => exact ih _

/-- The votes of a ballot are such that its contests can be proved. -/
def Provable (P : Params) (ballot : List (List Nat × ContestPlan)) : Prop :=
  ∀ c ∈ ballot, (∀ v ∈ c.1, v = 0 ∨ v = 1) ∧ c.1.length = c.2.challenges.length ∧ c.1.sum = c.2.limit ∧
    c.2.limitChallenge < P.q

/-- What two ballots with different votes have in common. -/
def planOf (ballot : List (List Nat × ContestPlan)) : List (Nat × ContestPlan) :=
  ballot.map fun c => (c.1.length, c.2)

/-- All votes of a ballot. -/
def votesOf (ballot : List (List Nat × ContestPlan)) : List Nat := ballot.flatMap fun c => c.1

theorem ballotShown_eq (hv : P.Valid) (R : Finset Nat) (K : Nat) (hK : isValidResidue P K = true)
    (ballot : List (List Nat × ContestPlan)) (hb : Provable P ballot) (F : List PublishedContest → Int) :
    ballotShown P R K ballot F
      = encSum P R K (votesOf ballot) (fun cs => simBallot P K (planOf ballot) cs F) := by
  induction ballot generalizing F with
  | nil => rfl
  | cons c cs ih =>
    obtain ⟨votes, plan⟩ := c
    obtain ⟨h1, h2, h3, h4⟩ := hb (votes, plan) (List.mem_cons_self ..)
    have hb' : Provable P cs := fun c hc => hb c (List.mem_cons_of_mem _ hc)
    rw [ballotShown, contestShown_eq hv R K hK votes plan h1 h2 h3 h4]
    show _ = encSum P R K (votes ++ votesOf cs) _
    rw [encSum_append]
    refine encSum_congr_length R K votes _ _ fun as has => ?_
    simp only [ih hb']
    rw [simContest_encSum]
    congr 1
    funext bs
    show _ = simBallot P K ((votes.length, plan) :: planOf cs) (as ++ bs) F
    rw [simBallot, List.take_left' has, List.drop_left' has]

/-- C102: what an observer of published ballots sees is what an observer of the ciphertexts alone sees. -/
theorem C102_simulated (hv : P.Valid) (X R : Finset Nat) (D : Nat → List PublishedContest → Int)
    (ballot : List (List Nat × ContestPlan)) (hb : Provable P ballot) :
    published P X R D ballot = seen P X R (ciphertextObserver P (planOf ballot) D) (votesOf ballot) := by
  unfold published seen ciphertextObserver
  exact Finset.sum_congr rfl fun x _ => ballotShown_eq hv R _ (gPowP_residue hv x) ballot hb _

theorem votesOf_length (ballot : List (List Nat × ContestPlan)) :
    (votesOf ballot).length = ((planOf ballot).map Prod.fst).sum := by
  induction ballot with
  | nil => rfl
  | cons c cs ih =>
    show (c.1 ++ votesOf cs).length = c.1.length + ((planOf cs).map Prod.fst).sum
    rw [List.length_append, ih]

/-- C102: how differently any observer answers on two published ballots of the same style, with everything that is published
of them, is exactly what explicit adversaries gain over guessing in decisional Diffie-Hellman. -/
theorem C102_ballot_private (hv : P.Valid) (X R : Finset Nat) (hR : ∀ r ∈ R, r ≠ 0)
    (D : Nat → List PublishedContest → Int) (b b' : List (List Nat × ContestPlan)) (hb : Provable P b)
    (hb' : Provable P b') (hsame : planOf b = planOf b') :
    P.q * (published P X R D b - published P X R D b')
      = ∑ i ∈ range (votesOf b).length,
          (ddhAdvantage P X R (adversaryOf P R (ciphertextObserver P (planOf b) D) ((votesOf b').take i)
              ((votesOf b).getD i 0) ((votesOf b).drop (i + 1)))
            - ddhAdvantage P X R (adversaryOf P R (ciphertextObserver P (planOf b) D) ((votesOf b').take i)
              ((votesOf b').getD i 0) ((votesOf b).drop (i + 1)))) := by
  rw [C102_simulated hv X R D b hb, C102_simulated hv X R D b' hb', ← hsame]
  exact C100_private hv X R hR _ _ _ (by rw [votesOf_length, votesOf_length, hsame])

/-- A contest with two candidates, one seat and a placeholder, and a contest with one candidate and a placeholder. -/
def toyBallotOf (a b c : Nat) : List (List Nat × ContestPlan) :=
  [([a, b, 1 - (a + b)], ⟨1, [5, 7, 2], 3⟩), ([c, 1 - c], ⟨1, [0, 4], 12⟩)]

/-- Two different ballots of the same style, to which the theorem applies. -/
example : Provable extraSmall (toyBallotOf 1 0 0) ∧ Provable extraSmall (toyBallotOf 0 1 1) ∧
    planOf (toyBallotOf 1 0 0) = planOf (toyBallotOf 0 1 1) ∧
    votesOf (toyBallotOf 1 0 0) = [1, 0, 0, 0, 1] ∧ votesOf (toyBallotOf 0 1 1) = [0, 1, 0, 1, 0] := by
  unfold Provable
  exact ⟨by decide, by decide, rfl, rfl, rfl⟩

/-- An observer who looks at the first proof and the proof of the sum of two votes, in a group of three elements: how often
the half of the challenge for zero and the response have these values does not depend on the votes. -/
def toyFirstLook (_ : Nat) (cs : List PublishedContest) : Int :=
  if cs.map (fun c => (c.items.head?.map (fun i => i.2.c0), c.limitProof.v)) = [(some 1, 2)] then 1 else 0

example : published ⟨7, 3, 2⟩ {1} {1, 2} toyFirstLook [([0, 1], ⟨1, [2, 2], 1⟩)] = 648 ∧
    published ⟨7, 3, 2⟩ {1} {1, 2} toyFirstLook [([1, 0], ⟨1, [2, 2], 1⟩)] = 648 ∧
    published ⟨7, 3, 2⟩ {1} {1, 2} (fun _ _ => 1) [([1, 0], ⟨1, [2, 2], 1⟩)] = 3888 := by
  decide +kernel

end EG
