import Verif.Props.Export
import Verif.Props.Limit
import Verif.Props.VerifyBallot

/-!
# C77: an audited record shows the votes on its ballots
-/

namespace EG

variable {E : Env}

/-- A selection with a valid proof encrypts a vote or none, or is lucky. -/
theorem selection_bit (hv : E.P.Valid) {s : CSelection} {K base : Nat} (hK : isValidResidue E.P K = true) {pf : DisjProof}
    (hp : s.proof = some pf) (hval : pf.isValid E s.ciphertext K base = true) {n : Nat} (hn : n < E.P.q)
    (henc : Encrypts E.P K n s.ciphertext) : n ≤ 1 ∨ s.Lucky E K base := by
  by_cases h01 : n ≤ 1
  · exact .inl h01
  · right
    obtain ⟨star, hstar⟩ := C04_single_challenge E.P hv K n hK s.ciphertext henc (by rw [Nat.mod_eq_of_lt hn]; omega)
      (by rw [Nat.mod_eq_of_lt hn]; omega) (pf.a0, pf.b0, pf.a1, pf.b1)
    refine ⟨pf, hp, fun E' base' pf' hE' hcm hval' => ?_⟩
    have h1 := hstar E' base' pf' hE' hcm hval'
    have h2 := hstar E base pf rfl rfl hval
    simp only at h1 h2
    rw [h1, h2]

/-- The sum of the votes of a contest is what its proof says, or the contest is lucky. -/
theorem contest_limit (hv : E.P.Valid) (hpq : (E.P.q - 1) * (E.P.q - 1) < E.P.p) {c : CContest} {K base : Nat}
    (hK : isValidResidue E.P K = true) {pf : ConstProof} (hp : c.proof = some pf)
    (hacc : accumulateSelections E.P c.ballotSelections = .ok c.ciphertextAccumulation)
    (hval : pf.isValid E c.ciphertextAccumulation K base = true) {plain : Ciphertext → Nat}
    (hplain : ∀ s ∈ c.ballotSelections, plain s.ciphertext ≤ 1 ∧ Encrypts E.P K (plain s.ciphertext) s.ciphertext)
    (hlen : c.ballotSelections.length < E.P.q) :
    (((c.ballotSelections.map (fun s => plain s.ciphertext)).sum : Nat) : Int) = pf.constant ∨ c.Lucky E K base := by
  have hlist : ∀ l : List CSelection, (∀ s ∈ l, plain s.ciphertext ≤ 1 ∧ Encrypts E.P K (plain s.ciphertext) s.ciphertext) →
      ∃ vs : List (Nat × Nat × Ciphertext), vs.map (·.2.2) = l.map (·.ciphertext) ∧
        (∀ x ∈ vs, EncryptsWith E.P K x.1 x.2.1 x.2.2) ∧ vs.map (·.2.1) = l.map (fun s => plain s.ciphertext) ∧
        (l.map (fun s => plain s.ciphertext)).sum ≤ l.length := by
    intro l
    induction l with
    | nil => intro _; exact ⟨[], rfl, by simp, rfl, by simp⟩
    | cons s l ih =>
      intro hl
      obtain ⟨hv1, r, hr⟩ := hl s List.mem_cons_self
      obtain ⟨vs, i1, i2, i3, i4⟩ := ih (fun x hx => hl x (List.mem_cons_of_mem _ hx))
      refine ⟨(r, plain s.ciphertext, s.ciphertext) :: vs, by simp [i1], ?_, by simp [i3], ?_⟩
      · intro x hx
        rcases List.mem_cons.1 hx with rfl | hx
        · exact hr
        · exact i2 x hx
      · simp only [List.map_cons, List.sum_cons, List.length_cons]; omega
  obtain ⟨vs, e1, e2, e3, e4⟩ := hlist _ hplain
  have hvs : vs ≠ [] := by
    rintro rfl
    have : c.ballotSelections = [] := by simpa using e1.symm
    rw [accumulateSelections, this] at hacc
    cases hacc
  obtain ⟨c', hc', hsum⟩ := C02_homomorphic hv K vs hvs e2
  rw [accumulateSelections, ← e1, hc'] at hacc
  cases hacc
  rw [e3] at hsum
  obtain ⟨-, -, -, -, -, -, -, ⟨hL0, -⟩, hLq, -⟩ := (ConstProof.isValid_iff hv pf c.ciphertextAccumulation K _).1 hval
  by_cases heq : (((c.ballotSelections.map (fun s => plain s.ciphertext)).sum : Nat) : Int) = pf.constant
  · exact .inl heq
  · right
    obtain ⟨star, hstar⟩ := C06_single_challenge_partial E.P hv hpq K _ pf.constant hK _ ⟨_, hsum⟩ (by
      rw [Nat.mod_eq_of_lt (by omega), Nat.mod_eq_of_lt (by omega)]
      intro h
      apply heq
      rw [h]
      omega) pf.a pf.b
    refine ⟨pf, hp, fun E' base' pf' hE' ha hb hc hval' => ?_⟩
    rw [hstar E' base' pf' hE' ha hb hc hval', hstar E base pf rfl rfl rfl rfl hval]

/-- The ciphertexts that a ballot contributes are on it. -/
theorem contribution_mem {cs : List CContest} {cid sid : String} {ct : Ciphertext} (h : ct ∈ contribution cs cid sid) :
    ∃ c ∈ cs, c.objectId = cid ∧ ∃ s ∈ c.ballotSelections, s.objectId = sid ∧ s.ciphertext = ct := by
  obtain ⟨c, hc, hf⟩ := List.mem_filterMap.1 h
  obtain ⟨hc1, hc2⟩ := List.mem_filter.1 hc
  obtain ⟨s, hs, rfl⟩ := Option.map_eq_some_iff.1 hf
  exact ⟨c, hc1, by simpa using hc2, s, List.mem_of_find?_eq_some hs, by simpa using List.find?_some hs, rfl⟩

/-- A ballot without repeated contests contributes at most one ciphertext to a selection. -/
theorem contribution_length {cs : List CContest} (h : (cs.map (fun c => c.objectId)).Nodup) (cid sid : String) :
    (contribution cs cid sid).length ≤ 1 := by
  refine (List.length_filterMap_le _ _).trans ?_
  induction cs with
  | nil => simp
  | cons a l ih =>
    rw [List.map_cons, List.nodup_cons] at h
    rw [List.filter_cons]
    split
    · rename_i ha
      have hnil : l.filter (fun c => c.objectId == cid) = [] := by
        rw [List.filter_eq_nil_iff]
        intro c hc hcid
        apply h.1
        rw [beq_iff_eq.1 ha, ← beq_iff_eq.1 hcid]
        exact List.mem_map_of_mem hc
      simp [hnil]
    · exact ih h.2

/-- The votes that a record shows, from the checks that the result rests on. -/
theorem core_shows_votes (hv : E.P.Valid) (hpq : (E.P.q - 1) * (E.P.q - 1) < E.P.p) (v : RecordView) {luck : PTSelection → Prop}
    (h : v.Core E luck) (im : InternalManifest) (he : ElectionReady E v.manifest im) (hreg : ∀ b ∈ v.ballots, b.toCBallot.Regular im)
    (hwf : WFContests v.encryptedTally.contests)
    (hlb : ¬ ∃ b ∈ v.ballots, ∃ c ∈ b.contests,
      (∃ s ∈ c.ballotSelections, s.Lucky E v.context.elgamalPublicKey v.context.cryptoExtendedBaseHash) ∨
      c.Lucky E v.context.elgamalPublicKey v.context.cryptoExtendedBaseHash)
    (hl : ∀ pt, (pt = v.tally ∨ pt ∈ v.spoiled) → ∀ cid sid ps, pt.Shows cid sid ps → ¬ luck ps) :
    ∃ plain, v.ShowsVotes E im plain := by
  classical
  have hK := h.joint
  set K := v.context.elgamalPublicKey with hKdef
  set base := v.context.cryptoExtendedBaseHash with hbase
  let ok (ct : Ciphertext) : Prop := ∃ n, n < E.P.q ∧ Encrypts E.P K n ct
  let plain (ct : Ciphertext) : Nat := if hx : ok ct then Classical.choose hx else 0
  have hplain : ∀ ct, ok ct → plain ct < E.P.q ∧ Encrypts E.P K (plain ct) ct := by
    intro ct hx
    have := Classical.choose_spec hx
    simp only [plain, dif_pos hx]
    exact this
  have hvotes : ∀ b ∈ v.ballots, ∀ c ∈ b.contests, ∀ s ∈ c.ballotSelections,
      plain s.ciphertext ≤ 1 ∧ Encrypts E.P K (plain s.ciphertext) s.ciphertext := by
    intro b hb c hc s hs
    obtain ⟨-, -, hcs⟩ := (C64_success_iff b.toCBallot v.manifest v.context).1 (h.ballots b hb)
    obtain ⟨-, pf, hp, hval⟩ := (hcs c hc).1 s hs
    obtain ⟨r1, r2, -⟩ := (DisjProof.isValid_iff hv pf s.ciphertext _ _).1 hval
    obtain ⟨h1, h2⟩ := hplain _ (exists_plaintext hv hK r1 r2)
    refine ⟨(selection_bit hv hK hp hval h1 h2).resolve_right (fun hlk => hlb ?_), h2⟩
    exact ⟨b, hb, c, hc, .inl ⟨s, hs, hlk⟩⟩
  have hvf : ∀ b ∈ v.ballots, ∀ cid sid, b.toCBallot.Holds E.P K cid sid (b.toCBallot.votesFor plain cid sid) := by
    intro b hb cid sid
    have hlen := contribution_length (hreg b hb).ids cid sid
    unfold CBallot.Holds CBallot.votesFor
    rcases hcon : contribution b.contests cid sid with _ | ⟨ct, l⟩
    · right; simp
    · left
      rw [hcon] at hlen
      have hnil : l = [] := by
        cases l with
        | nil => rfl
        | cons => simp at hlen
      subst hnil
      obtain ⟨c, hc, -, s, hs, -, rfl⟩ := contribution_mem (hcon ▸ List.mem_cons_self : ct ∈ contribution b.contests cid sid)
      exact ⟨_, rfl, by simpa using (hvotes b hb c hc s hs).2⟩
  obtain ⟨s1, s2⟩ := core_sound hv v h im he hreg hwf
  refine ⟨plain, hvotes, ?_, ?_, ?_, ?_⟩
  · intro b hb c hc hlen
    obtain ⟨-, -, hcs⟩ := (C64_success_iff b.toCBallot v.manifest v.context).1 (h.ballots b hb)
    obtain ⟨-, -, hacc, pf, hp, hval⟩ := hcs c hc
    exact ⟨pf, hp, (contest_limit hv hpq hK hp hacc hval (hvotes b hb c hc) hlen).resolve_right
      (fun hlk => hlb ⟨b, hb, c, hc, .inr hlk⟩)⟩
  · intro d hd sd hsd
    obtain ⟨ps, hshow, hps⟩ := s1 d hd sd hsd
    refine ⟨ps, hshow, (hps (fun b => b.toCBallot.votesFor plain d.objectId sd.objectId) (fun b hb _ => hvf b hb _ _)).resolve_right
      (fun hlk => hl _ (.inl rfl) _ _ ps hshow hlk)⟩
  · intro cid sid ps hshow
    exact h.tally.only cid sid ps hshow
  · intro b hb hst
    obtain ⟨pt, hpt, hid, hsel⟩ := s2 b hb hst
    refine ⟨pt, hpt, hid, fun c hc s hs hd => ?_⟩
    obtain ⟨ps, hshow, hps⟩ := hsel c hc s hs hd
    exact ⟨ps, hshow, (hps _ (hvotes b hb c hc s hs).2).resolve_right
      (fun hlk => hl _ (.inr hpt) _ _ ps hshow hlk)⟩

/-- C77 Whoever made the record: if the audit of the result succeeds, and no hash in the record happens to be the one challenge with
which a wrong statement can be proved, then the ciphertexts on the ballots encrypt votes, zero or one each, that add up in every
contest to what the proof of the contest says, the tally shows exactly the sums over the cast ballots modulo `q`, and every spoiled
ballot is opened to its votes.
Partial: as `C76_audit_sound_partial`, with `(q-1)² < p` as in C06 for the limit. -/
theorem C77_shows_votes_partial (hv : E.P.Valid) (hpq : (E.P.q - 1) * (E.P.q - 1) < E.P.p) (v : RecordView) (h : v.ResultAudited E)
    (im : InternalManifest) (he : ElectionReady E v.manifest im) (hreg : ∀ b ∈ v.ballots, b.toCBallot.Regular im)
    (hwf : WFContests v.encryptedTally.contests) (hl : ¬ v.Lucky E) : ∃ plain, v.ShowsVotes E im plain :=
  core_shows_votes hv hpq v (h.core hv) im he hreg hwf (fun hb => hl (.inl hb))
    (fun pt hpt cid sid ps hs hlk => hl (.inr ⟨pt, hpt, cid, sid, ps, hs, hlk⟩))

/-- C77 There is only one way to read the votes: two readings agree on every ciphertext of the ballots. -/
theorem C77_votes_unique (hv : E.P.Valid) (v : RecordView) (h : v.ResultAudited E) (im : InternalManifest)
    (plain plain' : Ciphertext → Nat) (h1 : v.ShowsVotes E im plain) (h2 : v.ShowsVotes E im plain') :
    ∀ b ∈ v.ballots, ∀ c ∈ b.contests, ∀ s ∈ c.ballotSelections, plain s.ciphertext = plain' s.ciphertext := by
  intro b hb c hc s hs
  obtain ⟨a1, a2⟩ := h1.votes b hb c hc s hs
  obtain ⟨b1, b2⟩ := h2.votes b hb c hc s hs
  have := C04_plaintext_unique E.P hv _ _ _ (audited_joint hv h) _ a2 b2
  have hq := hv.one_lt_q
  rwa [Nat.mod_eq_of_lt (by omega), Nat.mod_eq_of_lt (by omega)] at this

/-- A ballot has at most one vote for a selection. -/
theorem votesFor_le {v : RecordView} {im : InternalManifest} {plain : Ciphertext → Nat} (h : v.ShowsVotes E im plain)
    (hreg : ∀ b ∈ v.ballots, b.toCBallot.Regular im) {b : SBallot} (hb : b ∈ v.ballots) (cid sid : String) :
    b.toCBallot.votesFor plain cid sid ≤ 1 := by
  have hlen := contribution_length (hreg b hb).ids cid sid
  unfold CBallot.votesFor
  rcases hcon : contribution b.contests cid sid with _ | ⟨ct, l⟩
  · simp
  · rw [hcon] at hlen
    have hnil : l = [] := by
      cases l with
      | nil => rfl
      | cons => simp at hlen
    subst hnil
    obtain ⟨c, hc, -, s, hs, -, rfl⟩ := contribution_mem (hcon ▸ List.mem_cons_self : ct ∈ contribution b.contests cid sid)
    simpa using (h.votes b hb c hc s hs).1

/-- A sum of numbers up to `k` is at most `k` times their number. -/
theorem sum_le_count {α : Type} (l : List α) (f : α → Nat) (k : Nat) (h : ∀ x ∈ l, f x ≤ k) : (l.map f).sum ≤ k * l.length := by
  induction l with
  | nil => simp
  | cons a l ih =>
    have h1 := h a List.mem_cons_self
    have h2 := ih (fun x hx => h x (List.mem_cons_of_mem _ hx))
    simp only [List.map_cons, List.sum_cons, List.length_cons, Nat.mul_add, Nat.mul_one]
    omega

/-- C77 With fewer than `q` cast ballots, a number below `q` that is shown in the tally is the number of votes itself, and there are no
more votes for a selection than cast ballots. -/
theorem C77_exact_number (v : RecordView) (im : InternalManifest) (plain : Ciphertext → Nat) (h : v.ShowsVotes E im plain)
    (hreg : ∀ b ∈ v.ballots, b.toCBallot.Regular im)
    (hn : (v.ballots.filter (fun b => decide (b.state = .cast))).length < E.P.q) (d : ContestWithPlaceholders) (hd : d ∈ im.contests)
    (sd : SelectionDescription) (hsd : sd ∈ d.ballotSelections) :
    ∃ ps, v.tally.Shows d.objectId sd.objectId ps ∧ (ps.tally < E.P.q →
      ps.tally = ((v.ballots.filter (fun b => decide (b.state = .cast))).map
        (fun b => b.toCBallot.votesFor plain d.objectId sd.objectId)).sum ∧
      ps.tally ≤ (v.ballots.filter (fun b => decide (b.state = .cast))).length) := by
  obtain ⟨ps, hshow, hps⟩ := h.tally d hd sd hsd
  refine ⟨ps, hshow, fun hq => ?_⟩
  have hle := sum_le_count (v.ballots.filter (fun b => decide (b.state = .cast)))
    (fun b => b.toCBallot.votesFor plain d.objectId sd.objectId) 1
    (fun b hb => votesFor_le h hreg (List.mem_filter.1 hb).1 _ _)
  rw [Nat.one_mul] at hle
  have : ps.tally = _ := Nat.ModEq.eq_of_lt_of_lt hps hq (lt_of_le_of_lt hle hn)
  exact ⟨this, this ▸ hle⟩

/-- The votes in the first selections with given ids are among all votes. -/
theorem sum_find_le (plain : Ciphertext → Nat) (l : List CSelection) (sids : List String) (h : sids.Nodup) :
    (sids.map (fun sid => (((l.find? (fun s => s.objectId == sid)).map CSelection.ciphertext).map plain).getD 0)).sum
      ≤ (l.map (fun s => plain s.ciphertext)).sum := by
  induction l with
  | nil =>
    have : sids.map (fun _ : String => 0) = List.replicate sids.length 0 := by simp
    simp
  | cons s l ih =>
    have hone : ∀ k : Nat, (sids.map (fun sid => if s.objectId == sid then k else 0)).sum ≤ k := by
      intro k
      clear ih
      induction sids with
      | nil => simp
      | cons a r ihr =>
        rw [List.nodup_cons] at h
        rw [List.map_cons, List.sum_cons]
        by_cases ha : s.objectId = a
        · have : (r.map (fun sid => if s.objectId == sid then k else 0)).sum = 0 := by
            refine List.sum_eq_zero ?_
            intro x hx
            obtain ⟨y, hy, rfl⟩ := List.mem_map.1 hx
            rw [if_neg]
            rw [beq_iff_eq, ha]
            rintro rfl
            exact h.1 hy
          rw [this]
          simp [ha]
        · have := ihr h.2
          simpa [ha] using this
    have hsum : ∀ r : List String,
        (r.map (fun sid => ((((s :: l).find? (fun s => s.objectId == sid)).map CSelection.ciphertext).map plain).getD 0)).sum
          ≤ (r.map (fun sid => if s.objectId == sid then plain s.ciphertext else 0)).sum
            + (r.map (fun sid => (((l.find? (fun s => s.objectId == sid)).map CSelection.ciphertext).map plain).getD 0)).sum := by
      intro r
      induction r with
      | nil => simp
      | cons a r ihr =>
        simp only [List.map_cons, List.sum_cons] at ihr ⊢
        rw [List.find?_cons]
        by_cases ha : s.objectId = a
        · simp only [ha, beq_self_eq_true, Option.map_some, Option.getD_some, if_true] at ihr ⊢
          omega
        · have hb : (s.objectId == a) = false := by simpa using ha
          simp only [hb] at ihr ⊢
          simp only [Bool.false_eq_true, if_false]
          omega
    refine (hsum sids).trans ?_
    rw [List.map_cons, List.sum_cons]
    exact Nat.add_le_add (hone _) ih

/-- The votes of a ballot for the selections of a contest are among all votes in the contest. -/
theorem sum_votesFor_le (plain : Ciphertext → Nat) (b : CBallot) (cid : String) (sids : List String) (h : sids.Nodup)
    (hids : (b.contests.map (fun c => c.objectId)).Nodup) (k : Nat)
    (hk : ∀ c ∈ b.contests, c.objectId = cid → (c.ballotSelections.map (fun s => plain s.ciphertext)).sum ≤ k) :
    (sids.map (fun sid => b.votesFor plain cid sid)).sum ≤ k := by
  unfold CBallot.votesFor contribution
  have hF : ∀ c ∈ b.contests.filter (fun c => c.objectId == cid), (c.ballotSelections.map (fun s => plain s.ciphertext)).sum ≤ k :=
    fun c hc => hk c (List.mem_filter.1 hc).1 (by simpa using (List.mem_filter.1 hc).2)
  have hlen : (b.contests.filter (fun c => c.objectId == cid)).length ≤ 1 := by
    have h1 : ((b.contests.filter (fun c => c.objectId == cid)).map (fun c => c.objectId)).Nodup :=
      hids.sublist (List.filter_sublist.map _)
    have h2 : ∀ c ∈ b.contests.filter (fun c => c.objectId == cid), c.objectId = cid :=
      fun c hc => by simpa using (List.mem_filter.1 hc).2
    revert h1 h2
    generalize b.contests.filter (fun c => c.objectId == cid) = F
    intro h1 h2
    match F, h1, h2 with
    | [], _, _ => simp
    | [_], _, _ => simp
    | x :: y :: r, h1, h2 =>
      exfalso
      have hx := h2 x (by simp)
      have hy := h2 y (by simp)
      simp [hx, hy] at h1
  revert hF hlen
  generalize b.contests.filter (fun c => c.objectId == cid) = F
  intro hF hlen
  match F, hF, hlen with
  | [], _, _ => simp
  | [c], hF, _ =>
    refine le_trans (le_of_eq ?_) ((sum_find_le plain c.ballotSelections sids h).trans (hF c (by simp)))
    congr 1
    refine List.map_congr_left (fun sid _ => ?_)
    rw [List.filterMap_cons]
    cases c.ballotSelections.find? (fun s => s.objectId == sid) with
    | none => simp
    | some s => simp
  | x :: y :: r, _, hlen => simp at hlen

/-- Sums over two lists can be swapped. -/
theorem sum_swap {α β : Type} (l : List α) (r : List β) (f : α → β → Nat) :
    (l.map (fun a => (r.map (f a)).sum)).sum = (r.map (fun b => (l.map (fun a => f a b)).sum)).sum := by
  induction l with
  | nil => simp
  | cons a l ih =>
    simp only [List.map_cons, List.sum_cons, ih]
    clear ih
    induction r with
    | nil => simp
    | cons b r ih =>
      simp only [List.map_cons, List.sum_cons]
      omega

/-- C77 If the proofs of a contest state no more than its seats, no more votes are counted for its selections together than there are
seats on all cast ballots. -/
theorem C77_seats (v : RecordView) (im : InternalManifest) (plain : Ciphertext → Nat) (h : v.ShowsVotes E im plain)
    (hreg : ∀ b ∈ v.ballots, b.toCBallot.Regular im) (d : ContestWithPlaceholders)
    (hids : (d.ballotSelections.map (fun s => s.objectId)).Nodup) (seats : Nat)
    (hseats : ∀ b ∈ v.ballots, ∀ c ∈ b.contests, c.objectId = d.objectId → c.ballotSelections.length < E.P.q ∧
      ∀ pf, c.proof = some pf → pf.constant ≤ seats) :
    (d.ballotSelections.map (fun sd => ((v.ballots.filter (fun b => decide (b.state = .cast))).map
      (fun b => b.toCBallot.votesFor plain d.objectId sd.objectId)).sum)).sum
      ≤ seats * (v.ballots.filter (fun b => decide (b.state = .cast))).length := by
  rw [sum_swap]
  refine sum_le_count _ _ seats (fun b hb => ?_)
  have hb' := (List.mem_filter.1 hb).1
  have := sum_votesFor_le plain b.toCBallot d.objectId (d.ballotSelections.map (fun s => s.objectId)) hids (hreg b hb').ids seats
    (fun c hc hcid => by
      obtain ⟨h1, h2⟩ := hseats b hb' c hc hcid
      obtain ⟨pf, hp, hsum⟩ := h.limit b hb' c hc h1
      have := h2 pf hp
      omega)
  rwa [List.map_map] at this

/-- C77 A selection that encrypts a vote or none is never lucky: with another challenge there would be a valid proof too. -/
theorem C77_right_selection_not_lucky (hv : E.P.Valid) (s : CSelection) (K base n : Nat) (hn : n ≤ 1)
    (henc : Encrypts E.P K n s.ciphertext) (pf : DisjProof) (hp : s.proof = some pf)
    (hval : pf.isValid E s.ciphertext K base = true) (hK : isValidResidue E.P K = true) : ¬ s.Lucky E K base := by
  rintro ⟨pf0, hp0, hl⟩
  rw [hp] at hp0
  cases hp0
  obtain ⟨a1, a2, a3, a4, a5, a6, a7, a8, a9, a10, a11, a12, a13, a14, a15, a16⟩ :=
    (DisjProof.isValid_iff hv pf s.ciphertext K base).1 hval
  obtain ⟨r, hr⟩ := henc
  obtain ⟨-, -, e3, e4⟩ := (encryptsWith_iff_cast hv).1 hr
  have hA := ((isValidResidue_iff hv _).1 a1).2
  have hB := ((isValidResidue_iff hv _).1 a2).2
  have hKq := ((isValidResidue_iff hv _).1 hK).2
  have hG := g_cast_pow hv
  have hq0 := hv.q_pos
  have h1q := hv.one_lt_q
  have hsucc : ∀ x : Nat, (x + 1) % E.P.q ≠ x % E.P.q := by
    intro x hx
    have h2 := (ZMod.natCast_eq_natCast_iff' _ _ _).2 hx
    push_cast at h2
    have h3 : ((1 : Nat) : ZMod E.P.q) = ((0 : Nat) : ZMod E.P.q) := by push_cast; linear_combination h2
    have := (ZMod.natCast_eq_natCast_iff' _ _ _).1 h3
    rw [Nat.mod_eq_of_lt h1q, Nat.zero_mod] at this
    omega
  have hadd : ∀ x y : Nat, addQ E.P x y = (x + y) % E.P.q := by
    intro x y
    rw [← castP_inj (addQ_lt hq0 _ _) (Nat.mod_lt _ hq0), addQ_cast, ZMod.natCast_mod, Nat.cast_add]
  have hhash : hashElems E (disjHashArgs base s.ciphertext pf.a0 pf.b0 pf.a1 pf.b1) = (pf.c0 + pf.c1) % E.P.q := by
    rw [← a12, ← a11, hadd]
  obtain rfl | rfl : n = 0 ∨ n = 1 := by omega
  · rw [pow_zero, one_mul] at e4
    have hval' : DisjProof.isValid { E with sha := fun _ => pf.c0 + pf.c1 + 1 }
        ⟨pf.a0, pf.b0, pf.a1, pf.b1, (pf.c0 + 1) % E.P.q, pf.c1, (pf.c0 + pf.c1 + 1) % E.P.q, (pf.v0 + r) % E.P.q, pf.v1⟩
        s.ciphertext K base = true := by
      refine (DisjProof.isValid_iff (E := { E with sha := fun _ => pf.c0 + pf.c1 + 1 }) hv _ s.ciphertext _ _).2
        ⟨a1, a2, a3, a4, a5, a6, Nat.mod_lt _ hq0, a8, Nat.mod_lt _ hq0, a10, ?_, rfl, ?_, a14, ?_, a16⟩
      · show addQ E.P ((pf.c0 + 1) % E.P.q) pf.c1 = _
        rw [hadd]
        rw [Nat.mod_add_mod, Nat.add_right_comm]
      · show (E.P.g : ZMod E.P.p) ^ ((pf.v0 + r) % E.P.q) = _ * (s.ciphertext.pad : ZMod E.P.p) ^ ((pf.c0 + 1) % E.P.q)
        rw [pow_congr_mod hG (b := pf.v0 + r) (by simp), pow_congr_mod hA (b := pf.c0 + 1) (by simp), pow_add, pow_succ, a13, e3]
        ring
      · show (K : ZMod E.P.p) ^ ((pf.v0 + r) % E.P.q) = _ * (s.ciphertext.data : ZMod E.P.p) ^ ((pf.c0 + 1) % E.P.q)
        rw [pow_congr_mod hKq (b := pf.v0 + r) (by simp), pow_congr_mod hB (b := pf.c0 + 1) (by simp), pow_add, pow_succ, a15, e4]
        ring
    have h := hl { E with sha := fun _ => pf.c0 + pf.c1 + 1 } base _ rfl (by rfl) hval'
    rw [hhash] at h
    exact hsucc _ h
  · rw [pow_one] at e4
    have hval' : DisjProof.isValid { E with sha := fun _ => pf.c0 + pf.c1 + 1 }
        ⟨pf.a0, pf.b0, pf.a1, pf.b1, pf.c0, (pf.c1 + 1) % E.P.q, (pf.c0 + pf.c1 + 1) % E.P.q, pf.v0, (pf.v1 + r) % E.P.q⟩
        s.ciphertext K base = true := by
      refine (DisjProof.isValid_iff (E := { E with sha := fun _ => pf.c0 + pf.c1 + 1 }) hv _ s.ciphertext _ _).2
        ⟨a1, a2, a3, a4, a5, a6, a7, Nat.mod_lt _ hq0, a9, Nat.mod_lt _ hq0, ?_, rfl, a13, ?_, a15, ?_⟩
      · show addQ E.P pf.c0 ((pf.c1 + 1) % E.P.q) = _
        rw [hadd]
        rw [Nat.add_mod_mod, Nat.add_assoc]
      · show (E.P.g : ZMod E.P.p) ^ ((pf.v1 + r) % E.P.q) = _ * (s.ciphertext.pad : ZMod E.P.p) ^ ((pf.c1 + 1) % E.P.q)
        rw [pow_congr_mod hG (b := pf.v1 + r) (by simp), pow_congr_mod hA (b := pf.c1 + 1) (by simp), pow_add, pow_succ, a14, e3]
        ring
      · show (E.P.g : ZMod E.P.p) ^ ((pf.c1 + 1) % E.P.q) * (K : ZMod E.P.p) ^ ((pf.v1 + r) % E.P.q)
          = _ * (s.ciphertext.data : ZMod E.P.p) ^ ((pf.c1 + 1) % E.P.q)
        rw [pow_congr_mod hKq (b := pf.v1 + r) (by simp), pow_congr_mod hB (b := pf.c1 + 1) (by simp),
          pow_congr_mod hG (b := pf.c1 + 1) (by simp), pow_succ (s.ciphertext.data : ZMod E.P.p), ← mul_assoc, ← a16, e4]
        ring
    have h := hl { E with sha := fun _ => pf.c0 + pf.c1 + 1 } base _ rfl (by rfl) hval'
    rw [hhash] at h
    exact hsucc _ h

/-- C77 A contest whose votes add up to what its proof says is never lucky. -/
theorem C77_right_contest_not_lucky (hv : E.P.Valid) (hpq : (E.P.q - 1) * (E.P.q - 1) < E.P.p) (c : CContest) (K base : Nat)
    (pf : ConstProof) (hp : c.proof = some pf) (henc : Encrypts E.P K pf.constant.toNat c.ciphertextAccumulation)
    (hval : pf.isValid E c.ciphertextAccumulation K base = true) (hK : isValidResidue E.P K = true) : ¬ c.Lucky E K base := by
  rintro ⟨pf0, hp0, hl⟩
  rw [hp] at hp0
  cases hp0
  obtain ⟨a1, a2, a3, a4, a5, a6, a7, ⟨a8, a8'⟩, a9, a10, a11⟩ := (ConstProof.isValid_iff hv pf c.ciphertextAccumulation K base).1 hval
  obtain ⟨r, hr⟩ := henc
  obtain ⟨-, -, e3, e4⟩ := (encryptsWith_iff_cast hv).1 hr
  have hA := ((isValidResidue_iff hv _).1 a1).2
  have hB := ((isValidResidue_iff hv _).1 a2).2
  have hKq := ((isValidResidue_iff hv _).1 hK).2
  have hG := g_cast_pow hv
  have hq0 := hv.q_pos
  have h1q := hv.one_lt_q
  have hlt : ∀ x, x < E.P.q → x * pf.constant.toNat < E.P.p := fun x hx =>
    lt_of_le_of_lt (Nat.mul_le_mul (by omega) (by omega)) hpq
  rw [Nat.mod_eq_of_lt (hlt _ a5)] at a11
  have hval' : ConstProof.isValid { E with sha := fun _ => pf.c + 1 } ⟨pf.a, pf.b, (pf.c + 1) % E.P.q, (pf.v + r) % E.P.q, pf.constant⟩
      c.ciphertextAccumulation K base = true := by
    refine (ConstProof.isValid_iff (E := { E with sha := fun _ => pf.c + 1 }) hv _ c.ciphertextAccumulation _ _).2
      ⟨a1, a2, a3, a4, Nat.mod_lt _ hq0, Nat.mod_lt _ hq0, rfl, ⟨a8, a8'⟩, a9, ?_, ?_⟩
    · show (E.P.g : ZMod E.P.p) ^ ((pf.v + r) % E.P.q) = _ * (c.ciphertextAccumulation.pad : ZMod E.P.p) ^ ((pf.c + 1) % E.P.q)
      rw [pow_congr_mod hG (b := pf.v + r) (by simp), pow_congr_mod hA (b := pf.c + 1) (by simp), pow_add, pow_succ, a10, e3]
      ring
    · show (E.P.g : ZMod E.P.p) ^ ((pf.c + 1) % E.P.q * pf.constant.toNat % E.P.p) * (K : ZMod E.P.p) ^ ((pf.v + r) % E.P.q)
        = _ * (c.ciphertextAccumulation.data : ZMod E.P.p) ^ ((pf.c + 1) % E.P.q)
      rw [Nat.mod_eq_of_lt (hlt _ (Nat.mod_lt _ hq0)), pow_congr_mod hKq (b := pf.v + r) (by simp),
        pow_congr_mod hB (b := pf.c + 1) (by simp),
        pow_congr_mod hG (b := (pf.c + 1) * pf.constant.toNat) (by simp),
        pow_succ (c.ciphertextAccumulation.data : ZMod E.P.p), ← mul_assoc, ← a11, e4]
      ring
  have h := hl { E with sha := fun _ => pf.c + 1 } base _ rfl (by rfl) (by rfl) (by rfl) hval'
  rw [← a7] at h
  have h' : (pf.c + 1) % E.P.q = pf.c := h
  rcases Nat.lt_or_ge (pf.c + 1) E.P.q with hlt' | hge
  · rw [Nat.mod_eq_of_lt hlt'] at h'
    omega
  · have : pf.c + 1 = E.P.q := by omega
    rw [this, Nat.mod_self] at h'
    omega

end EG
