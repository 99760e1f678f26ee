import Verif.Props.RandomOracle
import Verif.Props.ChaumPedersen
import Verif.Spec.Forgery
import Mathlib.Data.Finset.Option

/-!
# C106: forged proofs, for a random hash function
-/

namespace EG

open Finset

variable {P : Params}

/-! ### Random functions with one value known -/

open Classical in
theorem oracles_fiber (f : Text → Nat) (T : Finset Text) (M : Nat) (t : Text) (ht : t ∈ T) (v : Nat) (hv : v < M) :
    (oracles f T M).filter (fun s => s t = v) = oracles (Function.update f t v) (T.erase t) M := by
  ext s
  rw [mem_filter, mem_oracles, mem_oracles]
  constructor
  · rintro ⟨⟨h1, h2⟩, h3⟩
    refine ⟨fun u hu => h1 u (mem_of_mem_erase hu), fun u hu => ?_⟩
    by_cases h : u = t
    · subst h; rw [Function.update_self]; exact h3
    · rw [Function.update_of_ne h]
      exact h2 u fun hT => hu (mem_erase.2 ⟨h, hT⟩)
  · rintro ⟨h1, h2⟩
    have h3 : s t = v := by rw [h2 t (notMem_erase t T), Function.update_self]
    refine ⟨⟨fun u hu => ?_, fun u hu => ?_⟩, h3⟩
    · by_cases h : u = t
      · subst h; rw [h3]; exact hv
      · exact h1 u (mem_erase.2 ⟨h, hu⟩)
    · have h : u ≠ t := fun h => hu (h ▸ ht)
      rw [h2 u fun hT => hu (mem_of_mem_erase hT), Function.update_of_ne h]

open Classical in
theorem card_oracles_fiber (f : Text → Nat) (T : Finset Text) (M : Nat) (t : Text) (ht : t ∈ T) (p : (Text → Nat) → Prop) :
    ((oracles f T M).filter p).card
      = ∑ v ∈ range M, ((oracles (Function.update f t v) (T.erase t) M).filter p).card := by
  have hmap : ∀ s ∈ (oracles f T M).filter p, s t ∈ range M := fun s hs =>
    mem_range.2 ((mem_oracles.1 (mem_filter.1 hs).1).1 t ht)
  rw [card_eq_sum_card_fiberwise hmap]
  refine sum_congr rfl fun v hv => ?_
  rw [← oracles_fiber f T M t ht v (mem_range.1 hv)]
  congr 1
  ext s
  simp only [mem_filter]
  tauto

/-! ### Hits -/

/-- One of the texts it asks for, none twice and all of `T`, has a hash of `bad`. -/
def Asking.Hits {α : Type} (bad : Text → Finset Nat) (s : Text → Nat) : Finset Text → Asking α → Prop
  | _, .shows _ => False
  | T, .asks t next => (t ∈ T ∧ s t ∈ bad t) ∨ Asking.Hits bad s (T.erase t) (next (s t))

open Classical in
theorem card_hits {α : Type} (bad : Text → Finset Nat) (M β : Nat) (hbad : ∀ t, (bad t ∩ range M).card ≤ β) (A : Asking α)
    (n : Nat) (hn : A.AtMost n) (f : Text → Nat) (T : Finset Text) :
    M * ((oracles f T M).filter fun s => A.Hits bad s T).card ≤ n * β * M ^ T.card := by
  induction A generalizing n f T with
  | shows a =>
    have he : (oracles f T M).filter (fun s => Asking.Hits bad s T (.shows a)) = ∅ := filter_eq_empty_iff.2 fun s _ h => h
    rw [he]
    simp
  | asks t next ih =>
    cases n with
    | zero => exact absurd hn (by simp [Asking.AtMost])
    | succ n =>
      have hn' : ∀ v, (next v).AtMost n := hn
      by_cases ht : t ∈ T
      · rw [card_oracles_fiber f T M t ht]
        have hc : (T.erase t).card + 1 = T.card := card_erase_add_one ht
        have hval : ∀ v, ∀ s ∈ oracles (Function.update f t v) (T.erase t) M, s t = v := fun v s hs => by
          rw [(mem_oracles.1 hs).2 t (notMem_erase t T), Function.update_self]
        have hone : ∀ v ∈ range M, M * ((oracles (Function.update f t v) (T.erase t) M).filter
            fun s => Asking.Hits bad s T (.asks t next)).card
            ≤ (if v ∈ bad t then M * M ^ (T.erase t).card else 0) + n * β * M ^ (T.erase t).card := by
          intro v _
          by_cases hb : v ∈ bad t
          · rw [if_pos hb]
            refine le_trans (Nat.mul_le_mul_left _ (card_filter_le _ _)) ?_
            rw [card_oracles]
            exact Nat.le_add_right _ _
          · rw [if_neg hb, zero_add]
            refine le_trans (le_of_eq ?_) (ih v n (hn' v) (Function.update f t v) (T.erase t))
            congr 2
            ext s
            simp only [mem_filter]
            refine and_congr_right fun hs => ?_
            rw [Asking.Hits, hval v s hs]
            simp [hb]
        rw [mul_sum]
        refine (sum_le_sum hone).trans ?_
        rw [sum_add_distrib, ← sum_filter, sum_const, sum_const, card_range, smul_eq_mul, smul_eq_mul]
        have hb : ((range M).filter fun v => v ∈ bad t).card ≤ β := by
          refine le_trans (card_le_card ?_) (hbad t)
          intro v hv
          rw [mem_filter] at hv
          exact mem_inter.2 ⟨hv.2, hv.1⟩
        calc _ ≤ β * (M * M ^ (T.erase t).card) + M * (n * β * M ^ (T.erase t).card) :=
              Nat.add_le_add_right (Nat.mul_le_mul_right _ hb) _
          _ = (n + 1) * β * M ^ ((T.erase t).card + 1) := by ring
          _ = _ := by rw [hc]
      · have hval : ∀ s ∈ oracles f T M, s t = f t := fun s hs => (mem_oracles.1 hs).2 t ht
        have h := ih (f t) n (hn' _) f T
        refine le_trans (le_of_eq ?_) (h.trans (Nat.mul_le_mul_right _ (Nat.mul_le_mul_right _ (Nat.le_succ n))))
        congr 2
        ext s
        simp only [mem_filter]
        refine and_congr_right fun hs => ?_
        rw [Asking.Hits, hval s hs, erase_eq_of_notMem ht]
        simp [ht]

/-- It also asks for the texts of what it shows. -/
def askTexts {α : Type} (a : α) : List Text → Asking α
  | [] => .shows a
  | t :: ts => .asks t fun _ => askTexts a ts

/-- The same program, which asks for the texts of what it shows at the end. -/
def Asking.thenAsk {α : Type} (texts : α → List Text) : Asking α → Asking α
  | .shows a => askTexts a (texts a)
  | .asks t next => .asks t fun v => (next v).thenAsk texts

theorem askTexts_atMost {α : Type} (a : α) (ts : List Text) (N : Nat) (h : ts.length ≤ N) : (askTexts a ts).AtMost N := by
  induction ts generalizing N with
  | nil => cases N <;> trivial
  | cons t ts ih =>
    cases N with
    | zero => simp at h
    | succ N => exact fun _ => ih N (by simpa using h)

theorem thenAsk_atMost {α : Type} (texts : α → List Text) (N : Nat) (A : Asking α) (n : Nat) (hn : A.AtMost n)
    (hN : ∀ a, A.CanShow a → (texts a).length ≤ N) : (A.thenAsk texts).AtMost (n + N) := by
  induction A generalizing n with
  | shows a =>
    exact askTexts_atMost a _ _ ((hN a rfl).trans (Nat.le_add_left _ _))
  | asks t next ih =>
    cases n with
    | zero => exact absurd hn (by simp [Asking.AtMost])
    | succ n =>
      rw [Nat.succ_add]
      exact fun v => ih v n (hn v) fun a ha => hN a ⟨v, ha⟩

theorem askTexts_hits {α : Type} (bad : Text → Finset Nat) (s : Text → Nat) (a : α) (ts : List Text) (T : Finset Text) (t : Text)
    (ht : t ∈ ts) (hT : t ∈ T) (hb : s t ∈ bad t) : (askTexts a ts).Hits bad s T := by
  induction ts generalizing T with
  | nil => cases ht
  | cons u ts ih =>
    rw [askTexts, Asking.Hits]
    by_cases h : t = u
    · subst h; exact Or.inl ⟨hT, hb⟩
    · refine Or.inr (ih (T.erase u) ?_ (mem_erase.2 ⟨h, hT⟩))
      rcases List.mem_cons.1 ht with h' | h'
      · exact absurd h' h
      · exact h'

theorem thenAsk_hits {α : Type} (bad : Text → Finset Nat) (s : Text → Nat) (texts : α → List Text) (A : Asking α) (T : Finset Text)
    (t : Text) (ht : t ∈ texts (A.run s)) (hT : t ∈ T) (hb : s t ∈ bad t) : (A.thenAsk texts).Hits bad s T := by
  induction A generalizing T with
  | shows a => exact askTexts_hits bad s a _ T t ht hT hb
  | asks u next ih =>
    rw [Asking.thenAsk, Asking.Hits]
    by_cases h : t = u
    · subst h; exact Or.inl ⟨hT, hb⟩
    · exact Or.inr (ih (s u) (T.erase u) ht (mem_erase.2 ⟨h, hT⟩))

theorem card_residues (M q x : Nat) (S : Finset Nat) (hS : ∀ v ∈ S, v < M ∧ v % q = x) : S.card ≤ M / q + 1 := by
  have : S.card ≤ (range (M / q + 1)).card := by
    refine card_le_card_of_injOn (fun v => v / q) ?_ ?_
    · intro v hv
      simp only [coe_range, Set.mem_Iio]
      exact Nat.lt_succ_of_le (Nat.div_le_div_right (hS v hv).1.le)
    · intro v hv w hw h
      have h1 := Nat.div_add_mod v q
      have h2 := Nat.div_add_mod w q
      have h : v / q = w / q := h
      rw [← h1, ← h2, h, (hS v hv).2, (hS w hw).2]
  rwa [card_range] at this

open Classical in
/-- Whoever asks `n` times and shows proofs with at most `N` texts: if a text that belongs to a forgery of one of several kinds must have
one hash modulo `q` for each kind, the forgeries succeed for few hash functions. -/
theorem card_forged {α ι : Type} (q M : Nat) (I : Finset ι) (F : ι → (Text → Nat) → Text → Prop)
    (huniq : ∀ i ∈ I, ∀ s s' t, F i s t → F i s' t → s t % q = s' t % q) (texts : α → List Text) (A : Asking α) (n N : Nat)
    (hn : A.AtMost n) (hN : ∀ a, A.CanShow a → (texts a).length ≤ N) (f : Text → Nat) (T : Finset Text) :
    M * ((oracles f T M).filter fun s => ∃ t ∈ texts (A.run s), t ∈ T ∧ ∃ i ∈ I, F i s t).card
      ≤ (n + N) * (I.card * (M / q + 1)) * (oracles f T M).card := by
  let bad : Text → Finset Nat := fun t => I.biUnion fun i => (range M).filter fun v => ∃ s, s t = v ∧ F i s t
  have hbad : ∀ t, (bad t ∩ range M).card ≤ I.card * (M / q + 1) := by
    intro t
    refine (card_le_card inter_subset_left).trans (card_biUnion_le_card_mul _ _ _ fun i hi => ?_)
    by_cases hex : ∃ s, F i s t
    · obtain ⟨s0, h0⟩ := hex
      refine card_residues M q (s0 t % q) _ fun v hv => ?_
      rw [mem_filter, mem_range] at hv
      obtain ⟨s, rfl, hs⟩ := hv.2
      exact ⟨hv.1, huniq i hi s s0 t hs h0⟩
    · rw [filter_eq_empty_iff.2 (fun v _ h => hex ⟨h.choose, h.choose_spec.2⟩)]
      simp
  have h := card_hits bad M _ hbad (A.thenAsk texts) (n + N) (thenAsk_atMost texts N A n hn hN) f T
  rw [card_oracles]
  refine le_trans (Nat.mul_le_mul_left _ (card_le_card ?_)) h
  intro s hs
  rw [mem_filter] at hs ⊢
  obtain ⟨t, ht, hT, i, hi, hF⟩ := hs.2
  refine ⟨hs.1, thenAsk_hits bad s texts A T t ht hT ?_⟩
  refine mem_biUnion.2 ⟨i, hi, ?_⟩
  rw [mem_filter, mem_range]
  exact ⟨(mem_oracles.1 hs.1).1 t hT, s, rfl, hF⟩

/-! ### Forged votes, sums and shares -/

/-- Every pair of elements of the subgroup encrypts something. -/
theorem encrypts_some (hv : P.Valid) (K : Nat) (hK : isValidResidue P K = true) (c : Ciphertext) (h1 : isValidResidue P c.pad = true)
    (h2 : isValidResidue P c.data = true) : ∃ m, Encrypts P K m c := by
  obtain ⟨κ, hκ⟩ := residue_log hv hK
  obtain ⟨r, hr⟩ := residue_log hv h1
  obtain ⟨d, hd⟩ := residue_log hv h2
  have hlt1 := ((isValidResidue_iff hv _).1 h1).1
  have hlt2 := ((isValidResidue_iff hv _).1 h2).1
  refine ⟨d + κ * ((P.q - 1) * r), r, (encryptsWith_iff_cast hv).2 ⟨hlt1, hlt2, hr, ?_⟩⟩
  rw [hd, hκ, ← pow_mul, ← pow_add, g_eq_iff hv]
  have h1q : 1 ≤ P.q := hv.q_pos
  push_cast [Nat.cast_sub h1q]
  rw [ZMod.natCast_self]
  ring

/-- The proof of a vote with this text is accepted although the ciphertext encrypts neither 0 nor 1. -/
def ForgedVote (P : Params) (hmac : Bytes → Bytes → Bytes) (K base : Nat) (s : Text → Nat) (t : Text) : Prop :=
  ∃ (c : Ciphertext) (pf : DisjProof), disjText base c pf = t ∧ pf.isValid ⟨P, s, hmac⟩ c K base = true ∧
    ¬ (Encrypts P K 0 c ∨ Encrypts P K 1 c)

/-- The proof of the sum `L` with this text is accepted although the ciphertext encrypts something else. -/
def ForgedLimit (P : Params) (hmac : Bytes → Bytes → Bytes) (K base L : Nat) (s : Text → Nat) (t : Text) : Prop :=
  ∃ (c : Ciphertext) (pf : ConstProof), limitText base c pf = t ∧ pf.constant = L ∧ pf.isValid ⟨P, s, hmac⟩ c K base = true ∧
    ¬ Encrypts P K L c

/-- The proof of a share of the guardian with the secret `x` with this text is accepted although the share is another one. -/
def ForgedShare (P : Params) (hmac : Bytes → Bytes → Bytes) (base x : Nat) (s : Text → Nat) (t : Text) : Prop :=
  ∃ (c : Ciphertext) (share : Nat) (pf : CPProof), shareText base c share pf = t ∧
    pf.isValid ⟨P, s, hmac⟩ c (P.g ^ x % P.p) share base = true ∧ share ≠ c.pad ^ x % P.p

theorem hashElems_disj (hmac : Bytes → Bytes → Bytes) (s : Text → Nat) (base : Nat) (c : Ciphertext) (pf : DisjProof) :
    hashElems ⟨P, s, hmac⟩ (disjHashArgs base c pf.a0 pf.b0 pf.a1 pf.b1) = s (disjText base c pf) % P.q := by
  unfold hashElems disjText
  rw [← elemText_eq ⟨P, s, hmac⟩]
  rfl

theorem hashElems_limit (hmac : Bytes → Bytes → Bytes) (s : Text → Nat) (base : Nat) (c : Ciphertext) (pf : ConstProof) :
    hashElems ⟨P, s, hmac⟩ (constHashArgs base c pf.a pf.b) = s (limitText base c pf) % P.q := by
  unfold hashElems limitText
  rw [← elemText_eq ⟨P, s, hmac⟩]
  rfl

theorem hashElems_share (hmac : Bytes → Bytes → Bytes) (s : Text → Nat) (base : Nat) (c : Ciphertext) (share : Nat) (pf : CPProof) :
    hashElems ⟨P, s, hmac⟩ (cpHashArgs base c pf.a pf.b share) = s (shareText base c share pf) % P.q := by
  unfold hashElems shareText
  rw [← elemText_eq ⟨P, s, hmac⟩]
  rfl

theorem forgedVote_unique (hv : P.Valid) (hmac : Bytes → Bytes → Bytes) (K base : Nat) (hK : isValidResidue P K = true)
    (s s' : Text → Nat) (t : Text) (h : ForgedVote P hmac K base s t) (h' : ForgedVote P hmac K base s' t) :
    s t % P.q = s' t % P.q := by
  obtain ⟨c, pf, rfl, hval, hno⟩ := h
  obtain ⟨c', pf', he, hval', _⟩ := h'
  have ht := elemText_inj he
  simp only [List.cons.injEq, and_true, true_and] at ht
  obtain ⟨e1, e2, e3, e4, e5, e6⟩ := ht
  have hcc : c' = c := by cases c; cases c'; simp_all
  subst hcc
  have hc1 := ((DisjProof.isValid_iff (E := ⟨P, s, hmac⟩) hv pf c' K base).1 hval)
  have hc2 := ((DisjProof.isValid_iff (E := ⟨P, s', hmac⟩) hv pf' c' K base).1 hval')
  obtain ⟨m, hm⟩ := encrypts_some hv K hK c' hc1.1 hc1.2.1
  by_contra hne
  have k1 := hc1.2.2.2.2.2.2.2.2.2.2.2.1
  have k2 := hc2.2.2.2.2.2.2.2.2.2.2.2.1
  rw [hashElems_disj] at k1 k2
  rw [he] at k2
  exact hno (C04_special_soundness ⟨P, s, hmac⟩ ⟨P, s', hmac⟩ rfl hv K base base hK c' pf pf' hval hval'
    (by unfold DisjProof.commitments; rw [e3, e4, e5, e6]) (fun hc => hne (by rw [← k1, ← k2, hc])))

theorem forgedLimit_unique (hv : P.Valid) (hpq : (P.q - 1) * (P.q - 1) < P.p) (hmac : Bytes → Bytes → Bytes) (K base L : Nat)
    (hK : isValidResidue P K = true) (s s' : Text → Nat) (t : Text) (h : ForgedLimit P hmac K base L s t)
    (h' : ForgedLimit P hmac K base L s' t) : s t % P.q = s' t % P.q := by
  obtain ⟨c, pf, rfl, hL, hval, hno⟩ := h
  obtain ⟨c', pf', he, hL', hval', _⟩ := h'
  have ht := elemText_inj he
  simp only [List.cons.injEq, and_true, true_and] at ht
  obtain ⟨e1, e2, e3, e4⟩ := ht
  have hcc : c' = c := by cases c; cases c'; simp_all
  subst hcc
  by_contra hne
  have k1 := ((ConstProof.isValid_iff (E := ⟨P, s, hmac⟩) hv pf c' K base).1 hval).2.2.2.2.2.2.1
  have k2 := ((ConstProof.isValid_iff (E := ⟨P, s', hmac⟩) hv pf' c' K base).1 hval').2.2.2.2.2.2.1
  rw [hashElems_limit] at k1 k2
  rw [he] at k2
  have := C06_special_soundness_partial ⟨P, s, hmac⟩ ⟨P, s', hmac⟩ rfl hv hpq K base base hK c' pf pf' hval hval' e3.symm e4.symm
    (hL.trans hL'.symm) (fun hc => hne (by rw [← k1, ← k2, hc]))
  rw [hL] at this
  exact hno this

theorem forgedShare_unique (hv : P.Valid) (hmac : Bytes → Bytes → Bytes) (base x : Nat) (s s' : Text → Nat) (t : Text)
    (h : ForgedShare P hmac base x s t) (h' : ForgedShare P hmac base x s' t) : s t % P.q = s' t % P.q := by
  obtain ⟨c, share, pf, rfl, hval, hno⟩ := h
  obtain ⟨c', share', pf', he, hval', _⟩ := h'
  have ht := elemText_inj he
  simp only [List.cons.injEq, and_true, true_and] at ht
  obtain ⟨e1, e2, e3, e4, e5⟩ := ht
  have hcc : c' = c := by cases c; cases c'; simp_all
  subst hcc
  subst e5
  by_contra hne
  have k1 := ((CPProof.isValid_iff (E := ⟨P, s, hmac⟩) hv pf c' _ _ base).1 hval).2.2.2.2.2.2.2.2.2.1
  have k2 := ((CPProof.isValid_iff (E := ⟨P, s', hmac⟩) hv pf' c' _ _ base).1 hval').2.2.2.2.2.2.2.2.2.1
  rw [hashElems_share] at k1 k2
  rw [he] at k2
  exact hno (C08_special_soundness ⟨P, s, hmac⟩ ⟨P, s', hmac⟩ rfl hv x base base share' c' pf pf' hval hval' e3.symm e4.symm
    (fun hc => hne (by rw [← k1, ← k2, hc])))

/-! ### C106 -/

open Classical in
/-- C106: whoever asks for at most `n` hashes and then shows contests with at most `N` proofs has for at most
`(n + N) · (l + 1) · (M/q + 1)` of `M` hash functions shown contests that everybody accepts although a vote is neither 0 nor 1 or the
votes of a contest are not as many as there are to give; `l` is the number of different limits.  Missing from the full claim: groups
with `(q-1)² ≥ p` (`C06_medium_group_fails`). -/
theorem C106_ballots_partial (hv : P.Valid) (hpq : (P.q - 1) * (P.q - 1) < P.p) (hmac : Bytes → Bytes → Bytes) (K base M : Nat)
    (hK : isValidResidue P K = true) (limits : List Nat) (A : Asking (List PublishedContest)) (n N : Nat) (hn : A.AtMost n)
    (hN : ∀ pubs, A.CanShow pubs → (challengesOf pubs).length ≤ N) (f : Text → Nat) (T : Finset Text)
    (hT : challengeTexts P base ⊆ T) :
    M * ((oracles f T M).filter fun s => AcceptedContests ⟨P, s, hmac⟩ K base limits (A.run s) ∧
        ¬ HonestContests P K limits (A.run s)).card
      ≤ (n + N) * ((limits.toFinset.card + 1) * (M / P.q + 1)) * (oracles f T M).card := by
  have hcard : (insertNone limits.toFinset).card = limits.toFinset.card + 1 := card_insertNone _
  have h := card_forged (α := List PublishedContest) P.q M (insertNone limits.toFinset)
    (fun o s t => match o with
      | none => ForgedVote P hmac K base s t
      | some L => ForgedLimit P hmac K base L s t)
    (fun o _ s s' t h h' => by
      cases o with
      | none => exact forgedVote_unique hv hmac K base hK s s' t h h'
      | some L => exact forgedLimit_unique hv hpq hmac K base L hK s s' t h h')
    (textsOf P base) A n N hn (fun pubs hp => by
      have := hN pubs hp
      have e : (textsOf P base pubs).length = (challengesOf pubs).length := by
        unfold textsOf challengesOf
        rw [List.length_flatMap, List.length_flatMap]
        congr 1
        refine List.map_congr_left fun c _ => ?_
        simp
      rw [e]; exact this) f T
  rw [hcard] at h
  refine le_trans (Nat.mul_le_mul_left _ (card_le_card ?_)) h
  intro s hs
  rw [mem_filter] at hs ⊢
  obtain ⟨hs, ⟨hlen, hacc⟩, hno⟩ := hs
  refine ⟨hs, ?_⟩
  unfold HonestContests at hno
  simp only [not_forall] at hno
  obtain ⟨x, hx, hno⟩ := hno
  obtain ⟨hi, hl, hL⟩ := hacc x hx
  have hx1 : x.1 ∈ A.run s := (List.of_mem_zip hx).1
  have hx2 : x.2 ∈ limits := (List.of_mem_zip hx).2
  by_cases hit : ∀ i ∈ x.1.items, Encrypts P K 0 i.1 ∨ Encrypts P K 1 i.1
  · have hlim : ¬ Encrypts P K x.2 (ctProduct P (x.1.items.map Prod.fst)) := fun h => hno ⟨hit, h⟩
    refine ⟨limitText base (ctProduct P (x.1.items.map Prod.fst)) x.1.limitProof, ?_, hT ?_, some x.2, ?_, _, _, rfl, hL, hl, hlim⟩
    · exact List.mem_flatMap.2 ⟨x.1, hx1, List.mem_append_right _ (List.mem_singleton.2 rfl)⟩
    · have hc := (ConstProof.isValid_iff (E := ⟨P, s, hmac⟩) hv _ _ K base).1 hl
      have lt : ∀ {y}, isValidResidue P y = true → y < P.p := fun h => ((isValidResidue_iff hv _).1 h).1
      refine mem_union_right _ (mem_image.2 ⟨((ctProduct P (x.1.items.map Prod.fst)).pad, (ctProduct P (x.1.items.map Prod.fst)).data,
        x.1.limitProof.a, x.1.limitProof.b), ?_, rfl⟩)
      simp only [mem_product, mem_range]
      exact ⟨lt hc.1, lt hc.2.1, lt hc.2.2.1, lt hc.2.2.2.1⟩
    · exact some_mem_insertNone.2 (List.mem_toFinset.2 hx2)
  · simp only [not_forall] at hit
    obtain ⟨i, hmem, hfalse⟩ := hit
    have hacc := hi i hmem
    refine ⟨disjText base i.1 i.2, ?_, hT ?_, none, none_mem_insertNone, i.1, i.2, rfl, hacc, hfalse⟩
    · exact List.mem_flatMap.2 ⟨x.1, hx1, List.mem_append_left _ (List.mem_map.2 ⟨i, hmem, rfl⟩)⟩
    · have hc := (DisjProof.isValid_iff (E := ⟨P, s, hmac⟩) hv i.2 i.1 K base).1 hacc
      have lt : ∀ {y}, isValidResidue P y = true → y < P.p := fun h => ((isValidResidue_iff hv _).1 h).1
      refine mem_union_left _ (mem_image.2 ⟨(i.1.pad, i.1.data, i.2.a0, i.2.b0, i.2.a1, i.2.b1), ?_, rfl⟩)
      simp only [mem_product, mem_range]
      exact ⟨lt hc.1, lt hc.2.1, lt hc.2.2.1, lt hc.2.2.2.1, lt hc.2.2.2.2.1, lt hc.2.2.2.2.2.1⟩

open Classical in
/-- C106: the same for votes alone, in every valid group. -/
theorem C106_votes (hv : P.Valid) (hmac : Bytes → Bytes → Bytes) (K base M : Nat) (hK : isValidResidue P K = true)
    (A : Asking (List (Ciphertext × DisjProof))) (n N : Nat) (hn : A.AtMost n) (hN : ∀ l, A.CanShow l → l.length ≤ N)
    (f : Text → Nat) (T : Finset Text) (hT : challengeTexts P base ⊆ T) :
    M * ((oracles f T M).filter fun s => (∀ i ∈ A.run s, i.2.isValid ⟨P, s, hmac⟩ i.1 K base = true) ∧
        ∃ i ∈ A.run s, ¬ (Encrypts P K 0 i.1 ∨ Encrypts P K 1 i.1)).card
      ≤ (n + N) * (M / P.q + 1) * (oracles f T M).card := by
  have h := card_forged (α := List (Ciphertext × DisjProof)) P.q M (univ : Finset Unit)
    (fun _ s t => ForgedVote P hmac K base s t) (fun _ _ s s' t h h' => forgedVote_unique hv hmac K base hK s s' t h h')
    (fun l => l.map fun i => disjText base i.1 i.2) A n N hn (fun l hl => by rw [List.length_map]; exact hN l hl) f T
  rw [card_univ, Fintype.card_unit, one_mul] at h
  refine le_trans (Nat.mul_le_mul_left _ (card_le_card ?_)) h
  intro s hs
  rw [mem_filter] at hs ⊢
  obtain ⟨hs, hall, i, hi, hfalse⟩ := hs
  refine ⟨hs, disjText base i.1 i.2, List.mem_map.2 ⟨i, hi, rfl⟩, hT ?_, (), mem_univ _, i.1, i.2, rfl, hall i hi, hfalse⟩
  have hc := (DisjProof.isValid_iff (E := ⟨P, s, hmac⟩) hv i.2 i.1 K base).1 (hall i hi)
  have lt : ∀ {y}, isValidResidue P y = true → y < P.p := fun h => ((isValidResidue_iff hv _).1 h).1
  refine mem_union_left _ (mem_image.2 ⟨(i.1.pad, i.1.data, i.2.a0, i.2.b0, i.2.a1, i.2.b1), ?_, rfl⟩)
  simp only [mem_product, mem_range]
  exact ⟨lt hc.1, lt hc.2.1, lt hc.2.2.1, lt hc.2.2.2.1, lt hc.2.2.2.2.1, lt hc.2.2.2.2.2.1⟩

open Classical in
/-- C106: whoever asks for at most `n` hashes and then shows at most `N` shares of guardians with these secrets, has for few hash functions
shown shares that everybody accepts although one is not the share of its guardian. -/
theorem C106_shares (hv : P.Valid) (hmac : Bytes → Bytes → Bytes) (base M : Nat) (secrets : Finset Nat)
    (A : Asking (List ShownShare)) (n N : Nat) (hn : A.AtMost n) (hN : ∀ l, A.CanShow l → l.length ≤ N) (f : Text → Nat)
    (T : Finset Text) (hT : shareTexts P base ⊆ T) :
    M * ((oracles f T M).filter fun s =>
        (∀ i ∈ A.run s, i.secret ∈ secrets ∧ i.proof.isValid ⟨P, s, hmac⟩ i.ciphertext (P.g ^ i.secret % P.p) i.share base = true) ∧
        ∃ i ∈ A.run s, i.share ≠ i.ciphertext.pad ^ i.secret % P.p).card
      ≤ (n + N) * (secrets.card * (M / P.q + 1)) * (oracles f T M).card := by
  have h := card_forged (α := List ShownShare) P.q M secrets
    (fun x s t => ForgedShare P hmac base x s t) (fun x _ s s' t h h' => forgedShare_unique hv hmac base x s s' t h h')
    (fun l => l.map fun i => shareText base i.ciphertext i.share i.proof) A n N hn
    (fun l hl => by rw [List.length_map]; exact hN l hl) f T
  refine le_trans (Nat.mul_le_mul_left _ (card_le_card ?_)) h
  intro s hs
  rw [mem_filter] at hs ⊢
  obtain ⟨hs, hall, i, hi, hfalse⟩ := hs
  obtain ⟨hsec, hval⟩ := hall i hi
  refine ⟨hs, shareText base i.ciphertext i.share i.proof, List.mem_map.2 ⟨i, hi, rfl⟩, hT ?_, i.secret, hsec, i.ciphertext,
    i.share, i.proof, rfl, hval, hfalse⟩
  have hc := (CPProof.isValid_iff (E := ⟨P, s, hmac⟩) hv i.proof i.ciphertext _ _ base).1 hval
  have lt : ∀ {y}, isValidResidue P y = true → y < P.p := fun h => ((isValidResidue_iff hv _).1 h).1
  refine mem_image.2 ⟨(i.ciphertext.pad, i.ciphertext.data, i.proof.a, i.proof.b, i.share), ?_, rfl⟩
  simp only [mem_product, mem_range]
  exact ⟨lt hc.1, lt hc.2.1, lt hc.2.2.2.2.1, lt hc.2.2.2.2.2.1, lt hc.2.2.2.1⟩

open Classical in
/-- C106: proofs of sums whose constants the forger chooses after the hashes are known.  The constant is not in the hashed text
(chaum_pedersen.py:504-533), so each of the `10⁹` constants that are accepted counts.  Missing from the full claim: groups with
`(q-1)² ≥ p` (`C06_medium_group_fails`). -/
theorem C106_sums_partial (hv : P.Valid) (hpq : (P.q - 1) * (P.q - 1) < P.p) (hmac : Bytes → Bytes → Bytes) (K base M : Nat)
    (hK : isValidResidue P K = true) (A : Asking (List (Ciphertext × ConstProof))) (n N : Nat) (hn : A.AtMost n)
    (hN : ∀ l, A.CanShow l → l.length ≤ N) (f : Text → Nat) (T : Finset Text) (hT : challengeTexts P base ⊆ T) :
    M * ((oracles f T M).filter fun s => (∀ i ∈ A.run s, i.2.isValid ⟨P, s, hmac⟩ i.1 K base = true) ∧
        ∃ i ∈ A.run s, ¬ Encrypts P K i.2.constant.toNat i.1).card
      ≤ (n + N) * (min P.q 1000000000 * (M / P.q + 1)) * (oracles f T M).card := by
  have h := card_forged (α := List (Ciphertext × ConstProof)) P.q M (range (min P.q 1000000000))
    (fun L s t => ForgedLimit P hmac K base L s t)
    (fun L _ s s' t h h' => forgedLimit_unique hv hpq hmac K base L hK s s' t h h')
    (fun l => l.map fun i => limitText base i.1 i.2) A n N hn (fun l hl => by rw [List.length_map]; exact hN l hl) f T
  rw [card_range] at h
  refine le_trans (Nat.mul_le_mul_left _ (card_le_card ?_)) h
  intro s hs
  rw [mem_filter] at hs ⊢
  obtain ⟨hs, hall, i, hi, hfalse⟩ := hs
  have hc := (ConstProof.isValid_iff (E := ⟨P, s, hmac⟩) hv i.2 i.1 K base).1 (hall i hi)
  have lt : ∀ {y}, isValidResidue P y = true → y < P.p := fun h => ((isValidResidue_iff hv _).1 h).1
  have h0 := hc.2.2.2.2.2.2.2.1
  have h1 : i.2.constant < P.q := hc.2.2.2.2.2.2.2.2.1
  refine ⟨hs, limitText base i.1 i.2, List.mem_map.2 ⟨i, hi, rfl⟩, hT ?_, i.2.constant.toNat, mem_range.2 (by omega), i.1, i.2, rfl,
    (Int.toNat_of_nonneg h0.1).symm, hall i hi, hfalse⟩
  refine mem_union_right _ (mem_image.2 ⟨(i.1.pad, i.1.data, i.2.a, i.2.b), ?_, rfl⟩)
  simp only [mem_product, mem_range]
  exact ⟨lt hc.1, lt hc.2.1, lt hc.2.2.1, lt hc.2.2.2.1⟩

/-! ### Cases -/

theorem self_mem_oracles {f : Text → Nat} {T : Finset Text} {M : Nat} (h : ∀ t, f t < M) : f ∈ oracles f T M :=
  mem_oracles.2 ⟨fun t _ => h t, fun _ _ => rfl⟩

/-- A forger of a proof for 2 votes in the group of order 13: it hopes for the hash 9. -/
def toyForger : Asking (List (Ciphertext × DisjProof)) :=
  .shows [(⟨16, 16 ^ 5 % 157⟩,
    ⟨16 ^ 8 % 157, 16 ^ 3 % 157, 16 ^ 9 % 157, 16 ^ 9 % 157, 4, 5, 9, 12, 1⟩)]

/-- A forger of a sum in the group of order 13: the ciphertext encrypts 2, the forger asks once and then chooses the constant. -/
def toySumForger : Asking (List (Ciphertext × ConstProof)) :=
  .asks (elemText [9, 16, 16 ^ 5 % 157, 16, 16 ^ 4 % 157]) fun h =>
    .shows [(⟨16, 16 ^ 5 % 157⟩, ⟨16, 16 ^ 4 % 157, h % 13, (1 + h % 13) % 13, ((2 + (h % 13) ^ 11) % 13 : Nat)⟩)]

/-- `C106_votes` for it: out of 13 hash functions it succeeds for two at most ... -/
example (f : Text → Nat) :=
  C106_votes (P := extraSmall) extraSmall_valid toyEnv.hmac (16 ^ 3 % 157) 9 13 (by decide +kernel) toyForger 0 1 trivial
    (by rintro l rfl; exact le_rfl) f (challengeTexts extraSmall 9) (Finset.Subset.refl _)

/-- ... and it does succeed for some. -/
example (T : Finset Text) : ∃ s ∈ oracles (fun _ => 9) T 13,
    (∀ i ∈ toyForger.run s, i.2.isValid ⟨extraSmall, s, toyEnv.hmac⟩ i.1 (16 ^ 3 % 157) 9 = true) ∧
      ∃ i ∈ toyForger.run s, ¬ (Encrypts extraSmall (16 ^ 3 % 157) 0 i.1 ∨ Encrypts extraSmall (16 ^ 3 % 157) 1 i.1) := by
  refine ⟨fun _ => 9, self_mem_oracles fun _ => by norm_num, ?_, ?_⟩
  · intro i hi
    obtain rfl := List.mem_singleton.1 hi
    decide +kernel
  · refine ⟨_, List.mem_singleton.2 rfl, ?_⟩
    have h2 : Encrypts extraSmall (16 ^ 3 % 157) 2 ⟨16, 16 ^ 5 % 157⟩ := ⟨1, by unfold EncryptsWith; decide +kernel⟩
    rintro (h | h)
    · exact absurd (C04_plaintext_unique extraSmall extraSmall_valid _ _ _ (by decide +kernel) _ h2 h) (by decide)
    · exact absurd (C04_plaintext_unique extraSmall extraSmall_valid _ _ _ (by decide +kernel) _ h2 h) (by decide)

/-- C106: the number of constants in `C106_sums_partial` is needed.  The constant is not in the text that is hashed, so whoever asks once and
chooses the constant afterwards shows an accepted proof of a false sum whenever the hash is not 0 modulo `q`. -/
theorem C106_free_constant_fails (s : Text → Nat) (hmac : Bytes → Bytes → Bytes)
    (hs : s (elemText [9, 16, 16 ^ 5 % 157, 16, 16 ^ 4 % 157]) % 13 ≠ 0) :
    toySumForger.AtMost 1 ∧ ∃ i ∈ toySumForger.run s, i.2.isValid ⟨extraSmall, s, hmac⟩ i.1 (16 ^ 3 % 157) 9 = true ∧
      Encrypts extraSmall (16 ^ 3 % 157) 2 i.1 ∧ ¬ Encrypts extraSmall (16 ^ 3 % 157) i.2.constant.toNat i.1 := by
  have h2 : Encrypts extraSmall (16 ^ 3 % 157) 2 ⟨16, 16 ^ 5 % 157⟩ := ⟨1, by unfold EncryptsWith; decide +kernel⟩
  refine ⟨fun _ => trivial, _, List.mem_singleton.2 rfl, ?_, h2, fun h => ?_⟩
  · generalize hpf : (ConstProof.mk _ _ _ _ _) = pf
    have hc := hashElems_limit (P := extraSmall) hmac s 9 ⟨16, 16 ^ 5 % 157⟩ pf
    have ht : limitText 9 ⟨16, 16 ^ 5 % 157⟩ pf = elemText [9, 16, 16 ^ 5 % 157, 16, 16 ^ 4 % 157] := by rw [← hpf]; rfl
    rw [ht] at hc
    unfold ConstProof.isValid
    rw [hc, ← hpf]
    have hlt : s (elemText [9, 16, 16 ^ 5 % 157, 16, 16 ^ 4 % 157]) % 13 < 13 := Nat.mod_lt _ (by decide)
    have h13 : extraSmall.q = 13 := rfl
    rw [h13]
    generalize s (elemText [9, 16, 16 ^ 5 % 157, 16, 16 ^ 4 % 157]) % 13 = h at hs hlt ⊢
    clear hpf hc ht h2
    dsimp only
    interval_cases h
    · exact absurd rfl hs
    all_goals decide +kernel
  · have hu := C04_plaintext_unique extraSmall extraSmall_valid _ _ _ (by decide +kernel) _ h2 h
    have hlt : s (elemText [9, 16, 16 ^ 5 % 157, 16, 16 ^ 4 % 157]) % 13 < 13 := Nat.mod_lt _ (by decide)
    generalize s (elemText [9, 16, 16 ^ 5 % 157, 16, 16 ^ 4 % 157]) % 13 = h at hs hlt hu
    clear h2
    interval_cases h
    · exact absurd rfl hs
    all_goals exact absurd hu (by decide +kernel)

end EG
