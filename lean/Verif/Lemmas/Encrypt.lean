import Verif.Spec.Encrypt
import Verif.Lemmas.Vote
import Verif.Lemmas.Validator
import Verif.Lemmas.Manifest
import Verif.Props.ChaumPedersen
import Verif.Props.ElGamal
import Verif.Props.PlaintextBallot

/-!
# Lemmas about the encryption of ballots
-/

namespace EG

variable {E : Env}

theorem forall₂_left {α β : Type} {R : α → β → Prop} {l : List α} {m : List β} (h : List.Forall₂ R l m) {x : α}
    (hx : x ∈ l) : ∃ y ∈ m, R x y := by
  induction h with
  | nil => cases hx
  | cons hr _ ih =>
    rcases List.mem_cons.1 hx with rfl | hx
    · exact ⟨_, by simp, hr⟩
    · obtain ⟨y, hy, h⟩ := ih hx; exact ⟨y, by simp [hy], h⟩

/-- What `encrypt_selection` returns, with the nonce it uses. -/
structure SelSpec (E : Env) (key baseHash seed : Nat) (e : CSelection) (sd : SelectionDescription) (v : Nat)
    (ph : Bool) : Prop where
  holds : e.Holds E key sd v ph
  nonce : ∃ r, nonceAt E (sd.cryptoHash E) [.elem seed] sd.sequenceOrder = .ok r ∧ e.nonce = some r
  valid : e.isValidEncryption E (sd.cryptoHash E) key baseHash = true

theorem nonceAt_nonneg {i : Int} (hi : 0 ≤ i) (E : Env) (seed : Nat) (h : List HArg) :
    nonceAt E seed h i = .ok (EG.nonce E seed h i.toNat) := by
  unfold nonceAt nonceGetWithHeaders EG.nonce
  rw [if_neg (by omega), Int.toNat_of_nonneg hi]

theorem nonceAt_zero (E : Env) (seed : Nat) (h : List HArg) :
    nonceAt E seed h 0 = .ok (EG.nonce E seed h 0) := nonceAt_nonneg (le_refl 0) E seed h

theorem nonceAt_ok {i : Int} {seed n : Nat} {h : List HArg} (hn : nonceAt E seed h i = .ok n) :
    0 ≤ i ∧ n = EG.nonce E seed h i.toNat := by
  by_cases hi : 0 ≤ i
  · rw [nonceAt_nonneg hi] at hn; cases hn; exact ⟨hi, rfl⟩
  · unfold nonceAt nonceGetWithHeaders at hn; rw [if_pos (by omega)] at hn; cases hn

theorem PlaintextSelection.isValid_iff (s : PlaintextSelection) (id : String) :
    s.isValid id = true ↔ s.objectId = id ∧ (s.vote = 0 ∨ s.vote = 1) := by
  unfold PlaintextSelection.isValid
  by_cases h : s.objectId = id
  · rw [if_neg (by simpa using h)]
    by_cases h2 : s.vote < 0 ∨ s.vote > 1
    · rw [if_pos h2]; simp only [Bool.false_eq_true, false_iff]; omega
    · rw [if_neg h2]; simp only [true_iff]; exact ⟨h, by omega⟩
  · rw [if_pos (by simpa using h)]; simp [h]

theorem encryptSelection_some (hv : E.P.Valid) {s : PlaintextSelection} {d : SelectionDescription}
    {key baseHash seed : Nat} {ph verify : Bool} {e : CSelection} (hK : isValidResidue E.P key = true)
    (h : encryptSelection E s d key baseHash seed ph verify = .ok (some e)) :
    s.objectId = d.objectId ∧ (s.vote = 0 ∨ s.vote = 1) ∧ SelSpec E key baseHash seed e d s.vote.toNat ph := by
  unfold encryptSelection at h
  by_cases hs : s.isValid d.objectId = false
  · rw [if_pos hs] at h; cases h
  rw [if_neg hs] at h
  obtain ⟨hid, hvote⟩ := (s.isValid_iff d.objectId).1 (by simpa using hs)
  simp only [bind, Except.bind, pure, Except.pure] at h
  cases hn : nonceAt E (d.cryptoHash E) [.elem seed] d.sequenceOrder with
  | error x => rw [hn] at h; cases h
  | ok n =>
    rw [hn, nonceAt_zero] at h
    simp only at h
    cases hc : elgamalEncrypt E.P s.vote.toNat n key with
    | none => rw [hc] at h; cases h
    | some ct =>
      rw [hc] at h
      obtain ⟨hn0, henc⟩ := C01_ciphertext hv _ _ _ _ hc
      simp only [makeSelection, bind, Except.bind, pure, Except.pure] at h
      have hcast : s.vote = ((s.vote.toNat : Nat) : Int) := by omega
      have hb : s.vote.toNat = 0 ∨ s.vote.toNat = 1 := by omega
      rcases C03_completeness_partial E hv key n baseHash (EG.nonce E (d.cryptoHash E) [.elem seed] 0) s.vote.toNat ct
        hK hb henc with ⟨pf, hpf, hval⟩ | ⟨-, -, herr⟩
      · rw [← hcast] at hpf
        rw [hpf] at h
        simp only [reduceCtorEq, if_false] at h
        have key2 : SelSpec E key baseHash seed ⟨s.objectId, d.sequenceOrder, d.cryptoHash E, ct,
            selectionCryptoHash E s.objectId (d.cryptoHash E) ct, ph, some n, some pf⟩ d s.vote.toNat ph := by
          refine ⟨⟨hid, rfl, rfl, rfl, by omega, n, rfl, henc⟩, ⟨n, hn, rfl⟩, ?_⟩
          rw [CSelection.isValidEncryption_iff]
          exact ⟨rfl, rfl, pf, rfl, hval⟩
        refine ⟨hid, hvote, ?_⟩
        split at h
        · simp only [Except.ok.injEq, Option.some.injEq] at h; subst h; exact key2
        · split at h
          · simp only [Except.ok.injEq, Option.some.injEq] at h; subst h; exact key2
          · cases h
      · rw [← hcast] at herr
        rw [herr] at h
        cases h

theorem encryptSelection_ok (hv : E.P.Valid) {s : PlaintextSelection} {d : SelectionDescription}
    {key baseHash seed : Nat} {ph verify : Bool} (hK : isValidResidue E.P key = true)
    (hid : s.objectId = d.objectId) (hvote : s.vote = 0 ∨ s.vote = 1) (hseq : 0 ≤ d.sequenceOrder)
    (hn : EG.nonce E (d.cryptoHash E) [.elem seed] d.sequenceOrder.toNat ≠ 0)
    (hp : s.vote = 1 → EG.nonce E (EG.nonce E (d.cryptoHash E) [.elem seed] 0) disjHeader 0 ≠ 0) :
    ∃ e, encryptSelection E s d key baseHash seed ph verify = .ok (some e) := by
  unfold encryptSelection
  rw [if_neg (by rw [Bool.not_eq_false]; exact (s.isValid_iff _).2 ⟨hid, hvote⟩)]
  simp only [bind, Except.bind, pure, Except.pure]
  rw [nonceAt_nonneg hseq, nonceAt_zero]
  obtain ⟨ct, hc, henc⟩ := encrypt_spec hv (m := s.vote.toNat) (K := key) hn
  simp only [hc, makeSelection, bind, Except.bind, pure, Except.pure]
  have hcast : s.vote = ((s.vote.toNat : Nat) : Int) := by omega
  have hb : s.vote.toNat = 0 ∨ s.vote.toNat = 1 := by omega
  rcases C03_completeness_partial E hv key _ baseHash (EG.nonce E (d.cryptoHash E) [.elem seed] 0) s.vote.toNat ct
    hK hb henc with ⟨pf, hpf, hval⟩ | ⟨h1, h2, -⟩
  · rw [← hcast] at hpf
    rw [hpf]
    simp only [reduceCtorEq, if_false]
    split
    · exact ⟨_, rfl⟩
    · rw [if_pos]
      · exact ⟨_, rfl⟩
      · rw [CSelection.isValidEncryption_iff]
        exact ⟨rfl, rfl, pf, rfl, hval⟩
  · exact absurd h2 (hp (by omega))

/-- The mark that `encrypt_contest` uses for a selection. -/
def usedVote (votes : List PlaintextSelection) (over : Bool) (sid : String) : Int :=
  match votes.find? (fun s => s.objectId == sid && !over) with
  | some s => s.vote
  | none => 0

theorem encryptReal_some (hv : E.P.Valid) {votes : List PlaintextSelection} {over : Bool} {key baseHash seed : Nat}
    {verify : Bool} (hK : isValidResidue E.P key = true) (ds : List SelectionDescription) :
    ∀ (count : Int) (acc ss : List CSelection) (count' : Int),
    encryptReal E votes over key baseHash seed verify ds count acc = .ok (some (ss, count')) →
    ∃ es, ss = acc ++ es ∧ count' = count + (ds.map (fun d => usedVote votes over d.objectId)).sum ∧
      List.Forall₂ (fun e d => (usedVote votes over d.objectId = 0 ∨ usedVote votes over d.objectId = 1) ∧
        SelSpec E key baseHash seed e d (usedVote votes over d.objectId).toNat false) es ds := by
  induction ds with
  | nil =>
    intro count acc ss count' h
    simp only [encryptReal, Except.ok.injEq, Option.some.injEq, Prod.mk.injEq] at h
    obtain ⟨rfl, rfl⟩ := h
    exact ⟨[], by simp, by simp, List.Forall₂.nil⟩
  | cons d ds ih =>
    intro count acc ss count' h
    simp only [encryptReal, bind, Except.bind, pure, Except.pure] at h
    cases hf : votes.find? (fun s => s.objectId == d.objectId && !over) with
    | none =>
      rw [hf] at h
      simp only at h
      have hu : usedVote votes over d.objectId = 0 := by simp [usedVote, hf]
      cases he : encryptSelection E (selectionFrom d) d key baseHash seed false verify with
      | error x => rw [he] at h; cases h
      | ok o =>
        rw [he] at h
        cases o with
        | none => cases h
        | some e =>
          simp only at h
          obtain ⟨es, h1, h2, h3⟩ := ih _ _ _ _ h
          obtain ⟨-, -, hs⟩ := encryptSelection_some hv hK he
          refine ⟨e :: es, by simp [h1], by simp [h2, hu], List.Forall₂.cons ⟨.inl hu, ?_⟩ h3⟩
          rw [hu]; exact hs
    | some s =>
      rw [hf] at h
      simp only at h
      have hu : usedVote votes over d.objectId = s.vote := by simp [usedVote, hf]
      cases he : encryptSelection E s d key baseHash seed false verify with
      | error x => rw [he] at h; cases h
      | ok o =>
        rw [he] at h
        cases o with
        | none => cases h
        | some e =>
          simp only at h
          obtain ⟨es, h1, h2, h3⟩ := ih _ _ _ _ h
          obtain ⟨-, hb, hs⟩ := encryptSelection_some hv hK he
          refine ⟨e :: es, by simp [h1], by rw [h2, List.map_cons, List.sum_cons, hu]; ring,
            List.Forall₂.cons ⟨by rw [hu]; exact hb, ?_⟩ h3⟩
          rw [hu]; exact hs

theorem fillVotes_cons (seats count : Int) (n : Nat) :
    fillVotes seats count (n + 1)
      = (if count < seats then 1 else 0) :: fillVotes seats (if count < seats then count + 1 else count) n := by
  unfold fillVotes
  rw [List.range_succ_eq_map, List.map_cons, List.map_map]
  congr 1
  · simp
  · refine List.map_congr_left (fun i _ => ?_)
    simp only [Function.comp]
    by_cases h : count < seats
    · rw [if_pos h]
      have : (count + ((i.succ : Nat) : Int) < seats) ↔ (count + 1 + (i : Int) < seats) := by
        push_cast; omega
      simp only [this]
    · rw [if_neg h, if_neg (by push_cast; omega), if_neg (by omega)]

theorem fillVotes_sum (seats : Int) (n : Nat) : ∀ count : Int, count ≤ seats → seats ≤ count + n →
    ((fillVotes seats count n).sum : Int) = seats - count := by
  induction n with
  | zero => intro count h1 h2; simp [fillVotes]; omega
  | succ n ih =>
    intro count h1 h2
    rw [fillVotes_cons, List.sum_cons]
    by_cases h : count < seats
    · rw [if_pos h, if_pos h]
      have := ih (count + 1) (by omega) (by push_cast at h2; omega)
      omega
    · rw [if_neg h, if_neg h]
      have := ih count h1 (by omega)
      omega

theorem fillVotes_le (seats count : Int) (n : Nat) : ∀ v ∈ fillVotes seats count n, v ≤ 1 := by
  intro v hv
  simp only [fillVotes, List.mem_map] at hv
  obtain ⟨i, -, rfl⟩ := hv
  split <;> omega

theorem encryptPlaceholders_some (hv : E.P.Valid) {seats : Int} {key baseHash seed : Nat} {verify : Bool}
    (hK : isValidResidue E.P key = true) (ds : List SelectionDescription) :
    ∀ (count : Int) (acc ss : List CSelection),
    encryptPlaceholders E seats key baseHash seed verify ds count acc = .ok (some ss) →
    ∃ es, ss = acc ++ es ∧
      List.Forall₂ (fun e (x : SelectionDescription × Nat) => SelSpec E key baseHash seed e x.1 x.2 true) es
        (ds.zip (fillVotes seats count ds.length)) := by
  induction ds with
  | nil =>
    intro count acc ss h
    simp only [encryptPlaceholders, Except.ok.injEq, Option.some.injEq] at h
    subst h
    exact ⟨[], by simp, List.Forall₂.nil⟩
  | cons d ds ih =>
    intro count acc ss h
    simp only [encryptPlaceholders, bind, Except.bind, pure, Except.pure] at h
    cases he : encryptSelection E (selectionFrom d true (decide (count < seats))) d key baseHash seed true verify with
    | error x => rw [he] at h; cases h
    | ok o =>
      rw [he] at h
      cases o with
      | none => cases h
      | some e =>
        simp only [decide_eq_true_eq] at h
        obtain ⟨es, h1, h2⟩ := ih _ _ _ h
        obtain ⟨-, -, hs⟩ := encryptSelection_some hv hK he
        refine ⟨e :: es, by simp [h1], ?_⟩
        rw [List.length_cons, fillVotes_cons, List.zip_cons_cons]
        refine List.Forall₂.cons ?_ h2
        simp only [selectionFrom, decide_eq_true_eq] at hs
        have : (if count < seats then (1 : Int) else 0).toNat = if count < seats then 1 else 0 := by
          split <;> rfl
        rw [this] at hs
        exact hs

theorem contestDataError_some {c : PlaintextContest} {d : ContestWithPlaceholders} {err : Option ContestErrorType}
    {data : Option (List String)} (h : contestDataError (c.valid d) = some (err, data)) :
    c.Belongs d ∧ decide (err = some ContestErrorType.overVote) = c.over d := by
  have hb : c.Belongs d := by
    by_contra hb
    rw [C55_mismatch_partial c d hb] at h
    cases h
  refine ⟨hb, ?_⟩
  obtain ⟨-, -, h3, -, -⟩ := C55_classification_partial c d hb
  have hover : c.over d = true ↔ ∃ ids, c.valid d = some (.overVote ids) := by
    have e : c.over d = true ↔ 0 < c.chosen ∧ (d.numberElected < c.chosen ∨
        c.chosen = d.numberElected ∧ ∃ v, d.votesAllowed = some v ∧ v < c.voteSum) := by
      unfold PlaintextContest.over
      cases d.votesAllowed <;> simp
    rw [e]
    constructor
    · intro h; exact ⟨_, (h3 _).2 ⟨rfl, h⟩⟩
    · rintro ⟨ids, h⟩; exact ((h3 ids).1 h).2
  rw [Bool.eq_iff_iff, hover, decide_eq_true_eq]
  cases hval : c.valid d with
  | none => rw [hval] at h; simp only [contestDataError, Option.some.injEq, Prod.mk.injEq] at h; simp [← h.1]
  | some e =>
    rw [hval] at h
    cases e <;> simp only [contestDataError, Option.some.injEq, Prod.mk.injEq, reduceCtorEq] at h <;> simp [← h.1]

theorem usedVote_eq (c : PlaintextContest) (d : ContestWithPlaceholders) (sid : String) :
    (usedVote c.ballotSelections (c.over d) sid).toNat = c.effective d sid := by
  unfold usedVote PlaintextContest.effective PlaintextContest.marked
  have hnil : c.ballotSelections.find? (fun _ => false) = none := List.find?_eq_none.2 (by simp)
  cases c.over d with
  | true => simp [hnil]
  | false =>
    simp only [Bool.not_false, Bool.and_true, Bool.false_eq_true, if_false]
    cases c.ballotSelections.find? (fun s => s.objectId == sid) <;> rfl

/-- The votes used are at most the number of chosen selections. -/
theorem usedVote_sum_le {c : PlaintextContest} {d : ContestWithPlaceholders}
    (hids : (d.ballotSelections.map SelectionDescription.objectId).Nodup) {over : Bool}
    (hb : ∀ sd ∈ d.ballotSelections, usedVote c.ballotSelections over sd.objectId = 0 ∨
      usedVote c.ballotSelections over sd.objectId = 1) :
    0 ≤ (d.ballotSelections.map (fun sd => usedVote c.ballotSelections over sd.objectId)).sum ∧
    (d.ballotSelections.map (fun sd => usedVote c.ballotSelections over sd.objectId)).sum ≤
      (if over then 0 else c.chosen) := by
  have e1 : d.ballotSelections.map (fun sd => usedVote c.ballotSelections over sd.objectId)
      = d.ballotSelections.map (fun sd => if usedVote c.ballotSelections over sd.objectId = 1 then (1 : Int) else 0) := by
    refine List.map_congr_left (fun sd hsd => ?_)
    rcases hb sd hsd with h | h <;> simp [h]
  rw [e1, sum_ite d.ballotSelections (fun sd => usedVote c.ballotSelections over sd.objectId = 1)]
  refine ⟨by omega, ?_⟩
  cases over with
  | true =>
    have : d.ballotSelections.filter (fun sd => decide (usedVote c.ballotSelections true sd.objectId = 1)) = [] := by
      have hnil : c.ballotSelections.find? (fun _ => false) = none := List.find?_eq_none.2 (by simp)
      rw [List.filter_eq_nil_iff]; intro sd _; simp [usedVote, hnil]
    rw [this]; simp
  | false =>
    simp only [Bool.false_eq_true, if_false, PlaintextContest.chosen]
    rw [← List.length_map (f := SelectionDescription.objectId),
      ← List.length_map (as := c.ballotSelections.filter _) (f := PlaintextSelection.objectId)]
    have hnd : ((d.ballotSelections.filter (fun sd => decide (usedVote c.ballotSelections false sd.objectId = 1))).map
        SelectionDescription.objectId).Nodup := hids.sublist (List.filter_sublist.map _)
    have hsub : (d.ballotSelections.filter (fun sd => decide (usedVote c.ballotSelections false sd.objectId = 1))).map
        SelectionDescription.objectId ⊆ (c.ballotSelections.filter (fun s => decide (0 < s.vote))).map
          PlaintextSelection.objectId := by
      intro x hx
      obtain ⟨sd, hsd, rfl⟩ := List.mem_map.1 hx
      have hu := (List.mem_filter.1 hsd).2
      simp only [decide_eq_true_eq] at hu
      unfold usedVote at hu
      cases hf : c.ballotSelections.find? (fun s => s.objectId == sd.objectId && !false) with
      | none => rw [hf] at hu; cases hu
      | some s =>
        rw [hf] at hu
        have := List.find?_some hf
        refine List.mem_map.2 ⟨s, List.mem_filter.2 ⟨List.mem_of_find?_eq_some hf, ?_⟩, by simpa using this⟩
        simp only at hu
        simp [hu]
    exact_mod_cast (hnd.subperm hsub).length_le

/-- A ciphertext's nonce matters only modulo `q`. -/
theorem EncryptsWith.mod {P : Params} (hv : P.Valid) {K r r' m : Nat} {c : Ciphertext}
    (hK : isValidResidue P K = true) (h : EncryptsWith P K r m c) (hr : (r : ZMod P.q) = r') :
    EncryptsWith P K r' m c := by
  rw [encryptsWith_iff_cast hv] at h ⊢
  obtain ⟨h1, h2, h3, h4⟩ := h
  refine ⟨h1, h2, ?_, ?_⟩
  · rw [h3]; exact pow_congr_mod (g_cast_pow hv) hr
  · rw [h4, pow_congr_mod ((isValidResidue_iff hv K).1 hK).2 hr]

/-- The contest made of correctly encrypted selections verifies if the votes add up to the stated number. -/
theorem makeContest_valid (hv : E.P.Valid) (hpq : (E.P.q - 1) * (E.P.q - 1) < E.P.p) {key : Nat}
    (hK : isValidResidue E.P key = true) {oid : String} {seq : Int} {dh baseHash proofSeed : Nat} {n : Int}
    {nn : Option Nat} {ext : Option HashedCiphertext} (hn0 : 0 ≤ n) (hn1 : n < 1000000000) (hn2 : n < E.P.q)
    (ss : List CSelection) (vs : List Nat) (hne : ss ≠ [])
    (hss : List.Forall₂ (fun e v => ∃ r, e.nonce = some r ∧ EncryptsWith E.P key r v e.ciphertext) ss vs)
    (hsum : (vs.sum : Int) = n) :
    ∃ c pf, makeContest E oid seq dh ss key baseHash proofSeed n nn ext = .ok c ∧ c.objectId = oid ∧
      c.sequenceOrder = seq ∧ c.descriptionHash = dh ∧ c.ballotSelections = ss ∧ c.nonce = nn ∧
      c.extendedData = ext ∧ c.proof = some pf ∧ pf.constant = n ∧
      c.cryptoHash = contestCryptoHash E oid ss dh ∧
      c.isValidEncryption E dh key baseHash = .ok true := by
  have hlist : ∃ l : List (Nat × Nat × Ciphertext), l.map (·.2.2) = ss.map (·.ciphertext) ∧ l.map (·.2.1) = vs ∧
      ss.mapM (·.nonce) = some (l.map (·.1)) ∧ ∀ x ∈ l, EncryptsWith E.P key x.1 x.2.1 x.2.2 := by
    clear hsum hne
    induction hss with
    | nil => exact ⟨[], rfl, rfl, rfl, by simp⟩
    | @cons e v ss vs h _ ih =>
      obtain ⟨r, h1, h2⟩ := h
      obtain ⟨l, i1, i2, i3, i4⟩ := ih
      refine ⟨(r, v, e.ciphertext) :: l, by simp [i1], by simp [i2], ?_, ?_⟩
      · rw [List.mapM_cons, h1, i3]; rfl
      · intro x hx
        rcases List.mem_cons.1 hx with rfl | hx
        · exact h2
        · exact i4 x hx
  obtain ⟨l, l1, l2, l3, l4⟩ := hlist
  have hl : l ≠ [] := by
    rintro rfl
    simp only [List.map_nil] at l1
    exact hne (List.map_eq_nil_iff.1 l1.symm)
  obtain ⟨c, hc, hsumc⟩ := C02_homomorphic hv key l hl l4
  rw [l1] at hc
  rw [l2] at hsumc
  have hag : aggregateNonce E.P ss = some (addQs E.P (l.map (·.1))) := by
    unfold aggregateNonce; rw [l3]
  have hnc : (n.toNat : Int) = n := Int.toNat_of_nonneg hn0
  have hvsn : vs.sum = n.toNat := by omega
  have hencs : EncryptsWith E.P key (addQs E.P (l.map (·.1))) n.toNat c := by
    rw [hvsn] at hsumc
    refine hsumc.mod hv hK ?_
    rw [addQs_cast, Nat.cast_list_sum]
  have hval := C05_completeness_partial E hv hpq key _ n.toNat proofSeed baseHash c hK (by omega) (by omega) hencs
  rw [hnc] at hval
  refine ⟨⟨oid, seq, dh, ss, c, contestCryptoHash E oid ss dh, nn,
    some (makeConst E c n (addQs E.P (l.map (·.1))) key proofSeed baseHash), ext⟩,
    makeConst E c n (addQs E.P (l.map (·.1))) key proofSeed baseHash, ?_, rfl, rfl, rfl, rfl, rfl, rfl, rfl, rfl, rfl, ?_⟩
  · simp only [makeContest, accumulateSelections, hc, hag, bind, Except.bind, pure, Except.pure, Option.map_some]
  · rw [CContest.isValidEncryption_iff]
    exact ⟨rfl, rfl, _, rfl, hc, hval⟩

/-- What `encrypt_contest` returns. -/
structure ContestSpec (E : Env) (key baseHash seed : Nat) (c : PlaintextContest) (d : ContestWithPlaceholders)
    (enc : CContest) (n : Nat) (real phs : List CSelection) (fill : List Nat) : Prop where
  belongs : c.Belongs d
  nonce : nonceAt E (d.cryptoHash E) [.elem seed] d.sequenceOrder = .ok n
  encNonce : enc.nonce = some n
  id : enc.objectId = d.objectId
  order : enc.sequenceOrder = d.sequenceOrder
  hash : enc.descriptionHash = d.cryptoHash E
  sels : enc.ballotSelections = real ++ phs
  real : List.Forall₂ (fun e sd => SelSpec E key baseHash n e sd (c.effective d sd.objectId) false) real
    d.ballotSelections
  fillLen : fill.length = d.placeholders.length
  phs : List.Forall₂ (fun e (x : SelectionDescription × Nat) => SelSpec E key baseHash n e x.1 x.2 true) phs
    (d.placeholders.zip fill)
  total : ((((d.ballotSelections.map (fun sd => c.effective d sd.objectId)).sum + fill.sum : Nat) : Int)
    = d.numberElected)
  proof : ∃ pf, enc.proof = some pf ∧ pf.constant = d.numberElected
  marks : ∀ sd ∈ d.ballotSelections, usedVote c.ballotSelections (c.over d) sd.objectId = 0 ∨
    usedVote c.ballotSelections (c.over d) sd.objectId = 1
  valid : enc.isValidEncryption E (d.cryptoHash E) key baseHash = .ok true

theorem ContestWithPlaceholders.isValid_placeholders {d : ContestWithPlaceholders} (h : d.isValid = true) :
    (d.placeholders.length : Int) = d.numberElected ∧ ContestOk d.toContestDescription := by
  unfold ContestWithPlaceholders.isValid at h
  simp only [Bool.and_eq_true, decide_eq_true_eq, beq_iff_eq] at h
  exact ⟨by omega, d.toContestDescription.isValid_iff.1 h.1⟩

theorem SelSpec.enc {key baseHash seed : Nat} {e : CSelection} {sd : SelectionDescription} {v : Nat} {ph : Bool}
    (h : SelSpec E key baseHash seed e sd v ph) :
    ∃ r, e.nonce = some r ∧ EncryptsWith E.P key r v e.ciphertext := h.holds.vote

theorem encryptContest_core (hv : E.P.Valid) (hpq : (E.P.q - 1) * (E.P.q - 1) < E.P.p)
  {c : PlaintextContest} {d : ContestWithPlaceholders} {key baseHash seed n : Nat} {verify : Bool} {count : Int}
  {ss all : List CSelection} {ext : HashedCiphertext} {cc : CContest} (hK : isValidResidue E.P key = true)
  (hn1 : d.numberElected < 1000000000) (hn2 : d.numberElected < E.P.q) (hbel : c.Belongs d)
  (hn : nonceAt E (d.cryptoHash E) [.elem seed] d.sequenceOrder = .ok n)
  (hr : encryptReal E c.ballotSelections (c.over d) key baseHash n verify d.ballotSelections 0 []
    = .ok (some (ss, count)))
  (hp : encryptPlaceholders E d.numberElected key baseHash n verify d.placeholders count ss = .ok (some all))
  (hm : makeContest E c.objectId d.sequenceOrder (d.cryptoHash E) all key baseHash
      (EG.nonce E (d.cryptoHash E) [.elem seed] 0) d.numberElected (some n) (some ext) = .ok cc) :
  ∃ real phs fill, ContestSpec E key baseHash seed c d cc n real phs fill := by
  obtain ⟨real, hss, hcount, hreal⟩ := encryptReal_some hv hK _ _ _ _ _ hr
  simp only [List.nil_append, zero_add] at hss hcount
  subst hss
  obtain ⟨phs, hall, hphs⟩ := encryptPlaceholders_some hv hK _ _ _ _ hp
  subst hall
  obtain ⟨hlen, hok⟩ := ContestWithPlaceholders.isValid_placeholders hbel.valid
  -- votes
  have hbin : ∀ sd ∈ d.ballotSelections, usedVote c.ballotSelections (c.over d) sd.objectId = 0 ∨
      usedVote c.ballotSelections (c.over d) sd.objectId = 1 := by
    intro sd hsd
    obtain ⟨e, -, he⟩ := forall₂_mem_right hreal hsd
    exact he.1
  obtain ⟨hc0, hc1⟩ := usedVote_sum_le hok.ids hbin
  rw [← hcount] at hc0 hc1
  have hc2 : count ≤ d.numberElected := by
    by_cases ho : c.over d = true
    · rw [ho, if_pos rfl] at hc1; omega
    · rw [if_neg ho] at hc1
      by_cases hch : 0 < c.chosen
      · have : ¬ d.numberElected < c.chosen := by
          intro h
          apply ho
          simp [PlaintextContest.over, hch, h]
        omega
      · omega
  have hfl : (fillVotes d.numberElected count d.placeholders.length).length = d.placeholders.length := by
    simp [fillVotes]
  have hfs := fillVotes_sum d.numberElected d.placeholders.length count hc2 (by omega)
  have heff : ((d.ballotSelections.map (fun sd => c.effective d sd.objectId)).sum : Int) = count := by
    rw [hcount, Nat.cast_list_sum, List.map_map]
    congr 1
    refine List.map_congr_left (fun sd hsd => ?_)
    simp only [Function.comp, ← usedVote_eq]
    rcases hbin sd hsd with h | h <;> simp [h]
  have htot : ((((d.ballotSelections.map (fun sd => c.effective d sd.objectId)).sum
      + (fillVotes d.numberElected count d.placeholders.length).sum : Nat) : Int) = d.numberElected) := by
    omega
  have hreal' : List.Forall₂ (fun e sd => SelSpec E key baseHash n e sd (c.effective d sd.objectId) false) ss
      d.ballotSelections := by
    refine hreal.imp (fun e sd h => ?_)
    rw [← usedVote_eq]; exact h.2
  have hmk : ∀ cc, makeContest E c.objectId d.sequenceOrder (d.cryptoHash E) (ss ++ phs) key baseHash
      (EG.nonce E (d.cryptoHash E) [.elem seed] 0) d.numberElected (some n) (some ext) = .ok cc → ss ++ phs ≠ [] := by
    intro cc hcc hnil
    rw [hnil] at hcc
    cases hcc
  have hF : List.Forall₂ (fun e v => ∃ r, e.nonce = some r ∧ EncryptsWith E.P key r v e.ciphertext) (ss ++ phs)
      (d.ballotSelections.map (fun sd => c.effective d sd.objectId)
        ++ fillVotes d.numberElected count d.placeholders.length) := by
    refine List.rel_append ?_ ?_
    · rw [List.forall₂_map_right_iff]
      exact hreal'.imp (fun e sd h => h.enc)
    · have e2 : fillVotes d.numberElected count d.placeholders.length
          = (d.placeholders.zip (fillVotes d.numberElected count d.placeholders.length)).map Prod.snd := by
        rw [List.map_snd_zip (by omega)]
      rw [e2, List.forall₂_map_right_iff]
      exact hphs.imp (fun e x h => h.enc)
  obtain ⟨c', pf, k1, k2, k3, k4, k5, k6, k7, k8, k9, k10, k11⟩ := makeContest_valid hv hpq hK (oid := c.objectId)
    (seq := d.sequenceOrder) (dh := d.cryptoHash E) (baseHash := baseHash)
    (proofSeed := EG.nonce E (d.cryptoHash E) [.elem seed] 0) (nn := some n) (ext := some ext) (by omega) hn1 hn2
    (ss ++ phs) _ (hmk cc hm) hF (by rw [List.sum_append]; exact htot)
  rw [hm] at k1
  cases k1
  exact ⟨ss, phs, _, hbel, hn, k6, k2.trans hbel.id, k3, k4, k5, hreal', hfl, hphs, htot, ⟨pf, k8, k9⟩, hbin, k11⟩

theorem encryptContest_some (hv : E.P.Valid) (hpq : (E.P.q - 1) * (E.P.q - 1) < E.P.p)
    {json : ContestData → Bytes} {c : PlaintextContest} {d : ContestWithPlaceholders} {key baseHash seed : Nat}
    {verify : Bool} {enc : CContest} (hK : isValidResidue E.P key = true)
    (hn1 : d.numberElected < 1000000000) (hn2 : d.numberElected < E.P.q)
    (h : encryptContest E json c d key baseHash seed verify = .ok (some enc)) :
    ∃ n real phs fill, ContestSpec E key baseHash seed c d enc n real phs fill := by
  unfold encryptContest at h
  cases hcd : contestDataError (c.valid d) with
  | none => rw [hcd] at h; cases h
  | some x =>
    obtain ⟨err, data⟩ := x
    obtain ⟨hbel, hov⟩ := contestDataError_some hcd
    rw [hcd] at h
    simp only [bind, Except.bind, pure, Except.pure, hov] at h
    cases hn : nonceAt E (d.cryptoHash E) [.elem seed] d.sequenceOrder with
    | error x => rw [hn] at h; cases h
    | ok n =>
    rw [hn, nonceAt_zero] at h
    simp only at h
    cases hr : encryptReal E c.ballotSelections (c.over d) key baseHash n verify d.ballotSelections 0 [] with
    | error x => rw [hr] at h; cases h
    | ok o =>
    rw [hr] at h
    cases o with
    | none => cases h
    | some y =>
    obtain ⟨ss, count⟩ := y
    simp only at h
    cases hp : encryptPlaceholders E d.numberElected key baseHash n verify d.placeholders count ss with
    | error x => rw [hp] at h; cases h
    | ok o =>
    rw [hp] at h
    cases o with
    | none => cases h
    | some all =>
    simp only at h
    cases hby : (ContestData.mk err data c.writeIns).toBytes json with
    | error x => rw [hby] at h; cases h
    | ok bytes =>
    rw [hby, nonceAt_zero] at h
    simp only at h
    cases hd : hashedEncrypt E bytes (EG.nonce E n [.str "constant-extended-data"] 0) key baseHash with
    | error x => rw [hd] at h; cases h
    | ok ext =>
    rw [hd] at h
    simp only at h
    cases hm : makeContest E c.objectId d.sequenceOrder (d.cryptoHash E) all key baseHash
        (EG.nonce E (d.cryptoHash E) [.elem seed] 0) d.numberElected (some n) (some ext) with
    | error x => rw [hm] at h; cases h
    | ok cc =>
    obtain ⟨real, phs, fill, hspec⟩ := encryptContest_core hv hpq hK hn1 hn2 hbel hn hr hp hm
    rw [hm] at h
    have henc : enc = cc := by
      simp only at h
      rw [hspec.valid] at h
      split at h <;> simpa using h.symm
    subst henc
    exact ⟨n, real, phs, fill, hspec⟩

end EG
