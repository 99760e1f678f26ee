import Verif.Spec.EncryptLog
import Verif.Lemmas.EncryptCongr
import Verif.Lemmas.EncryptBallot
import Verif.Props.HashedPrivacy
import Verif.Spec.ToyElection
import Verif.Model.BallotBox

/-!
# C115: what encrypting ballots writes to the log
-/

namespace EG

variable {E : Env}

theorem selectionLog_public {s : PlaintextSelection} {d : SelectionDescription} {key baseHash seed : Nat} {ph : Bool}
    {e : CSelection} (h : encryptSelection E s d key baseHash seed ph false = .ok (some e)) :
    selectionLog E s d key seed = selectionPublic key e := by
  unfold encryptSelection at h
  unfold selectionLog
  by_cases hs : s.isValid d.objectId = false
  · rw [if_pos hs] at h; cases h
  rw [if_neg hs] at h ⊢
  have hid : s.objectId = d.objectId := by
    unfold PlaintextSelection.isValid at hs
    by_contra hne
    exact hs (if_pos hne)
  simp only [bind, Except.bind, pure, Except.pure] at h
  cases hn : nonceAt E (d.cryptoHash E) [.elem seed] d.sequenceOrder with
  | error _ => rw [hn] at h; cases h
  | ok n =>
  rw [hn] at h
  simp only at h ⊢
  cases hp : nonceAt E (d.cryptoHash E) [.elem seed] 0 with
  | error _ => rw [hp] at h; cases h
  | ok pn =>
  rw [hp] at h
  simp only [elgamalLog] at h ⊢
  cases hc : elgamalEncrypt E.P s.vote.toNat n key with
  | none => rw [hc] at h; cases h
  | some ct =>
  rw [hc] at h
  simp only at h ⊢
  cases hm : makeSelection E s.objectId d.sequenceOrder (d.cryptoHash E) ct key baseHash pn s.vote ph (some n) with
  | error _ => rw [hm] at h; cases h
  | ok enc =>
  rw [hm] at h
  simp only [reduceIte] at h
  split at h
  · cases h
  obtain rfl : enc = e := by simpa using h
  unfold makeSelection at hm
  simp only [bind, Except.bind, pure, Except.pure] at hm
  cases hd : makeDisj E ct n key baseHash pn s.vote with
  | error _ => rw [hd] at hm; cases hm
  | ok pf =>
  rw [hd] at hm
  cases hm
  simp [selectionPublic, hid, hn, hp, hc]

theorem realLog_public {votes : List PlaintextSelection} {over : Bool} {key baseHash seed : Nat}
    (ds : List SelectionDescription) : ∀ (count : Int) (acc ss : List CSelection) (count' : Int),
    encryptReal E votes over key baseHash seed false ds count acc = .ok (some (ss, count')) →
    ∃ es, ss = acc ++ es ∧ realLog E votes over key baseHash seed ds = es.flatMap (selectionPublic key) := by
  induction ds with
  | nil =>
    intro count acc ss count' h
    simp only [encryptReal, Except.ok.injEq, Option.some.injEq, Prod.mk.injEq] at h
    exact ⟨[], by simp [h.1], rfl⟩
  | cons d ds ih =>
    intro count acc ss count' h
    unfold encryptReal at h
    unfold realLog
    simp only [bind, Except.bind, pure, Except.pure] at h
    cases hf : votes.find? (fun s => s.objectId == d.objectId && !over) with
    | some s =>
      rw [hf] at h
      simp only at h ⊢
      cases he : encryptSelection E s d key baseHash seed false false with
      | error _ => rw [he] at h; cases h
      | ok o =>
      cases o with
      | none => rw [he] at h; cases h
      | some e =>
      rw [he] at h
      obtain ⟨es, h1, h2⟩ := ih _ _ _ _ h
      refine ⟨e :: es, by simp [h1], ?_⟩
      simp [selectionLog_public he, h2]
    | none =>
      rw [hf] at h
      simp only at h ⊢
      cases he : encryptSelection E (selectionFrom d) d key baseHash seed false false with
      | error _ => rw [he] at h; cases h
      | ok o =>
      cases o with
      | none => rw [he] at h; cases h
      | some e =>
      rw [he] at h
      obtain ⟨es, h1, h2⟩ := ih _ _ _ _ h
      refine ⟨e :: es, by simp [h1], ?_⟩
      simp [selectionLog_public he, h2]

theorem placeholderLog_public {n : Int} {key baseHash seed : Nat}
    (ds : List SelectionDescription) : ∀ (count : Int) (acc ss : List CSelection),
    encryptPlaceholders E n key baseHash seed false ds count acc = .ok (some ss) →
    ∃ es, ss = acc ++ es ∧ placeholderLog E n key baseHash seed ds count = es.flatMap (selectionPublic key) := by
  induction ds with
  | nil =>
    intro count acc ss h
    simp only [encryptPlaceholders, Except.ok.injEq, Option.some.injEq] at h
    exact ⟨[], by simp [h], rfl⟩
  | cons d ds ih =>
    intro count acc ss h
    unfold encryptPlaceholders at h
    unfold placeholderLog
    simp only [bind, Except.bind, pure, Except.pure] at h ⊢
    cases he : encryptSelection E (selectionFrom d true (decide (count < n))) d key baseHash seed true false with
    | error _ => rw [he] at h; cases h
    | ok o =>
    cases o with
    | none => rw [he] at h; cases h
    | some e =>
    rw [he] at h
    obtain ⟨es, h1, h2⟩ := ih _ _ _ h
    refine ⟨e :: es, by simp [h1], ?_⟩
    simp only [selectionLog_public he, he, List.flatMap_cons]
    rw [h2]

theorem hashedLog_public (hlen : HmacLen E) {bytes : Bytes} (hb : bytes.length = 512) {n key baseHash : Nat}
    {x : HashedCiphertext} (h : hashedEncrypt E bytes n key baseHash = .ok x) :
    hashedLog E bytes n key baseHash = dataPublic key x := by
  obtain ⟨bs, -, -, -, h4⟩ := hashedEncrypt_spec E hlen bytes n key baseHash (by rw [hb]; norm_num)
  obtain ⟨hl, -, -, -⟩ := h4
  obtain ⟨bs, h1, h2, h3, h4⟩ := getChunks_spec bytes
  have hn : nBlocks bytes = 16 := by simp [nBlocks, hb]
  unfold hashedEncrypt at h
  unfold hashedLog
  simp only [bind, Except.bind, pure, Except.pure] at h ⊢
  cases hx : xorLoop E (toHexBytes (hashElems E [.elem (gPowP E.P n), .elem (powP E.P key n)])) (toHexBytes baseHash)
      (getChunks bytes).2 (getChunks bytes).1 0 with
  | error _ => rw [hx] at h; cases h
  | ok data =>
  have hdl : data.length = 512 := by
    rw [h4] at hx
    simp only at hx
    rw [xorLoop_ok E _ _ (by rw [hn]; norm_num) bs 0 (by rw [h2, hn]; norm_num)] at hx
    cases hx
    rw [flatten_length_32 (xorAll_mem_length (fun j => hlen _ _) h1 0), xorAll_length, h2, hn]
  rw [hx] at h
  simp only at h ⊢
  cases hk : getHmac E (toHexBytes (hashElems E [.elem (gPowP E.P n), .elem (powP E.P key n)])) (toHexBytes baseHash)
      (some (getChunks bytes).2) with
  | error _ => rw [hk] at h; cases h
  | ok mk =>
  rw [hk] at h
  simp only at h ⊢
  cases hm : getHmac E mk (toHexBytes (gPowP E.P n) ++ data) with
  | error _ => rw [hm] at h; cases h
  | ok mac =>
  rw [hm] at h
  cases h
  simp only [dataPublic]
  rw [toPaddedBytes_bytesToHex (by norm_num) hdl]

theorem contestLog_public (hlen : HmacLen E) {json : ContestData → Bytes} {c : PlaintextContest}
    {d : ContestWithPlaceholders} {key baseHash seed : Nat} {e : CContest}
    (h : encryptContest E json c d key baseHash seed false = .ok (some e)) :
    contestLog E json c d key baseHash seed = contestPublic key e := by
  obtain ⟨err, ids, n, pn, ss, count, all, bytes, dn, data, h1, h2, h3, h4, h5, h6, h7, h8, h9, -⟩ :=
    encryptContest_steps h
  obtain ⟨es, he, hl⟩ := realLog_public _ _ _ _ _ h4
  obtain ⟨es', he', hl'⟩ := placeholderLog_public _ _ _ _ h5
  have hv : contestValidLog c d = [] := by
    unfold contestValidLog
    split
    · rfl
    · split
      · rename_i hne hd
        exfalso
        have : c.valid d = some .default := by
          unfold PlaintextContest.valid
          rw [if_pos (Or.inr (Or.inr hd))]
        rw [this] at h1
        cases h1
      · rfl
  have hne : all ≠ [] := by
    rintro rfl
    unfold makeContest at h6
    simp only [accumulateSelections, List.map_nil, elgamalAdd, bind, Except.bind] at h6
    cases h6
  have hx : e.extendedData = some data ∧ e.ballotSelections = all := by
    unfold makeContest at h6
    simp only [bind, Except.bind, pure, Except.pure] at h6
    cases ha : accumulateSelections E.P all with
    | error _ => rw [ha] at h6; cases h6
    | ok a => rw [ha] at h6; cases h6; exact ⟨rfl, rfl⟩
  unfold contestLog
  rw [hv, h1]
  simp only [List.nil_append, h2, h4, h5, h7, h8, h9, if_neg hne, List.append_nil, hl, hl']
  rw [hashedLog_public hlen (addPadding_length h7) h9]
  simp [contestPublic, hx.1, hx.2, he', he]

theorem contestsLog_cons (json : ContestData → Bytes) (b : PlaintextBallot) (key baseHash seed : Nat)
    (d : ContestWithPlaceholders) (ds : List ContestWithPlaceholders) :
    contestsLog E json b key baseHash seed (d :: ds) =
      contestLog E json (b.voted d.toContestDescription) d key baseHash seed ++
      match encryptContest E json (b.voted d.toContestDescription) d key baseHash seed false with
      | .ok (some _) => contestsLog E json b key baseHash seed ds
      | _ => [] := by
  rw [contestsLog]
  unfold PlaintextBallot.voted
  cases b.contests.find? (fun c => c.objectId == d.objectId) <;> rfl

theorem contestsLog_public (hlen : HmacLen E) {json : ContestData → Bytes} {b : PlaintextBallot}
    {key baseHash seed : Nat} (ds : List ContestWithPlaceholders) : ∀ cs,
    encryptContests E json b key baseHash seed false ds = .ok (some cs) →
    contestsLog E json b key baseHash seed ds = cs.flatMap (contestPublic key) := by
  induction ds with
  | nil =>
    intro cs h
    simp only [encryptContests, Except.ok.injEq, Option.some.injEq] at h
    subst h
    rfl
  | cons d ds ih =>
    intro cs h
    rw [encryptContests_cons] at h
    rw [contestsLog_cons]
    simp only [bind, Except.bind, pure, Except.pure] at h ⊢
    generalize b.voted d.toContestDescription = use at h ⊢
    cases he : encryptContest E json use d key baseHash seed false with
    | error _ => rw [he] at h; cases h
    | ok o =>
    cases o with
    | none => rw [he] at h; cases h
    | some e =>
    rw [he] at h
    simp only at h ⊢
    cases hr : encryptContests E json b key baseHash seed false ds with
    | error _ => rw [hr] at h; cases h
    | ok o =>
    cases o with
    | none => rw [hr] at h; cases h
    | some r =>
    rw [hr] at h
    obtain rfl : e :: r = cs := by simpa using h
    rw [contestLog_public hlen he, ih r hr]
    rfl

/-- What encrypting a ballot logs if it succeeds is written down from the encrypted ballot, without any nonce. -/
theorem C115_public (hlen : HmacLen E) (json : ContestData → Bytes) (b : PlaintextBallot) (m : InternalManifest)
    (ctx : Context) (seed nonce : Nat) (now : Int) (enc : CBallot)
    (h : encryptBallot E json b m ctx seed nonce now = .ok (some enc)) :
    ballotLog E json b m ctx seed nonce
      = ballotPublic ctx.elgamalPublicKey enc.manifestHash enc.codeSeed enc.contests := by
  unfold encryptBallot at h
  unfold ballotLog
  simp only [bind, Except.bind, pure, Except.pure] at h
  cases hs : m.getBallotStyle b.styleId with
  | error _ => rw [hs] at h; cases h
  | ok style =>
  rw [hs] at h
  simp only at h ⊢
  split at h
  · cases h
  rename_i hb
  rw [if_neg hb]
  cases hds : m.getContestsFor b.styleId with
  | error _ => rw [hds] at h; cases h
  | ok ds =>
  rw [hds] at h
  simp only at h ⊢
  cases hc : encryptContests E json b ctx.elgamalPublicKey ctx.cryptoExtendedBaseHash
      (nonceSeed E m.manifestHash b.objectId nonce) false ds with
  | error _ => rw [hc] at h; cases h
  | ok o =>
  rw [hc] at h
  cases o with
  | none => cases h
  | some cs =>
  simp only [reduceIte] at h
  obtain rfl : makeBallot E b.objectId b.styleId m.manifestHash (some seed) cs (some nonce) none none now = enc := by
    simpa using h
  rw [contestsLog_public hlen ds cs hc]
  simp only [ballotPublic, makeBallot, Option.getD_some]
  cases cs with
  | nil => rfl
  | cons c cs => simp

/-- The same from the submitted ballot, which is what is published. -/
theorem C115_submitted (hlen : HmacLen E) (json : ContestData → Bytes) (b : PlaintextBallot) (m : InternalManifest)
    (ctx : Context) (seed nonce : Nat) (now : Int) (enc : CBallot) (state : BallotBoxState)
    (h : encryptBallot E json b m ctx seed nonce now = .ok (some enc)) :
    ballotLog E json b m ctx seed nonce = ballotPublic ctx.elgamalPublicKey (submitBallot E enc state).manifestHash
      (submitBallot E enc state).codeSeed (submitBallot E enc state).contests := by
  rw [C115_public hlen json b m ctx seed nonce now enc h]
  have hc : ∀ c : CContest, contestPublic ctx.elgamalPublicKey c.stripNonces = contestPublic ctx.elgamalPublicKey c := by
    intro c
    simp only [contestPublic, CContest.stripNonces, List.flatMap_map]
    rfl
  simp only [ballotPublic, submitBallot, makeSubmittedBallot, Option.getD_some, List.flatMap_map, hc, List.map_eq_nil_iff]

/-- So two ballots, whatever their votes, whose published forms agree have the same log. -/
theorem C115_same (hlen : HmacLen E) (json json' : ContestData → Bytes) (b b' : PlaintextBallot) (m : InternalManifest)
    (ctx : Context) (seed seed' nonce nonce' : Nat) (now now' : Int) (enc enc' : CBallot) (state : BallotBoxState)
    (h : encryptBallot E json b m ctx seed nonce now = .ok (some enc))
    (h' : encryptBallot E json' b' m ctx seed' nonce' now' = .ok (some enc'))
    (he : submitBallot E enc state = submitBallot E enc' state) :
    ballotLog E json b m ctx seed nonce = ballotLog E json' b' m ctx seed' nonce' := by
  rw [C115_submitted hlen json b m ctx seed nonce now enc state h,
    C115_submitted hlen json' b' m ctx seed' nonce' now' enc' state h', he]

/-- The calls of a mediator that encrypt every ballot log what can be written down from the encrypted ballots. -/
theorem C115_session (hlen : HmacLen E) (json : ContestData → Bytes) (m : InternalManifest) (ctx : Context)
    (calls : List (PlaintextBallot × Nat × Int)) : ∀ (seed : Nat) (encs : List CBallot),
    (mediatorRun E json m ctx seed calls).1 = encs.map (fun e => .ok (some e)) →
    mediatorLog E json m ctx seed calls = encs.flatMap (fun e =>
      .encryptId e.objectId :: ballotPublic ctx.elgamalPublicKey e.manifestHash e.codeSeed e.contests) := by
  induction calls with
  | nil =>
    intro seed encs h
    simp only [mediatorRun] at h
    cases encs with
    | nil => rfl
    | cons e es => cases h
  | cons call calls ih =>
    obtain ⟨b, nonce, now⟩ := call
    intro seed encs h
    unfold mediatorRun at h
    unfold mediatorLog
    cases hm : mediatorEncrypt E json m ctx seed b nonce now with
    | error x =>
      rw [hm] at h
      cases encs with
      | nil => cases h
      | cons e es => simp at h
    | ok r =>
      obtain ⟨o, seed'⟩ := r
      rw [hm] at h
      cases encs with
      | nil => cases h
      | cons e es =>
        simp only [List.map_cons, List.cons.injEq, Except.ok.injEq] at h
        obtain ⟨rfl, h⟩ := h
        have he : encryptBallot E json b m ctx seed nonce now = .ok (some e) := by
          unfold mediatorEncrypt at hm
          simp only [bind, Except.bind, pure, Except.pure] at hm
          cases hb : encryptBallot E json b m ctx seed nonce now with
          | error _ => rw [hb] at hm; cases hm
          | ok o => cases o <;> rw [hb] at hm <;> simp_all
        have hid : e.objectId = b.objectId := by
          unfold encryptBallot at he
          simp only [bind, Except.bind, pure, Except.pure] at he
          repeat' split at he
          all_goals try cases he
          all_goals rfl
        simp only [List.flatMap_cons]
        rw [ih seed' es h, C115_public hlen json b m ctx seed nonce now e he, hid]

/-! ### Votes -/

theorem selectionLog_quiet {s : PlaintextSelection} {d : SelectionDescription} {key seed : Nat}
    (hid : s.objectId = d.objectId) (hs : s.vote = 0 ∨ s.vote = 1) :
    ∀ x ∈ selectionLog E s d key seed, ¬ x.ShowsVote := by
  have hv : s.isValid d.objectId = true := by
    unfold PlaintextSelection.isValid
    rw [if_neg (by simpa using hid), if_neg (by omega)]
  unfold selectionLog
  rw [if_neg (by simp [hv])]
  intro x hx
  simp only at hx
  split at hx
  · cases hx
  split at hx
  · cases hx
  rcases List.mem_cons.1 hx with rfl | hx
  · exact id
  unfold elgamalLog at hx
  split at hx
  · simp only [List.mem_singleton] at hx; subst hx; exact id
  · simp only [List.mem_cons, List.not_mem_nil, or_false] at hx
    rcases hx with rfl | rfl | rfl <;> exact id

theorem selectionFrom_vote (d : SelectionDescription) (a b : Bool) :
    (selectionFrom d a b).vote = 0 ∨ (selectionFrom d a b).vote = 1 := by
  cases b
  · exact Or.inl rfl
  · exact Or.inr rfl

theorem realLog_quiet {votes : List PlaintextSelection} {over : Bool} {key baseHash seed : Nat}
    (hv : over = false → ∀ s ∈ votes, s.vote = 0 ∨ s.vote = 1) (ds : List SelectionDescription) :
    ∀ x ∈ realLog E votes over key baseHash seed ds, ¬ x.ShowsVote := by
  induction ds with
  | nil => intro x hx; cases hx
  | cons d ds ih =>
    intro x hx
    unfold realLog at hx
    simp only [List.mem_append] at hx
    rcases hx with hx | hx
    · cases hf : votes.find? (fun s => s.objectId == d.objectId && !over) with
      | none =>
        rw [hf] at hx
        exact selectionLog_quiet rfl (selectionFrom_vote d false false) x hx
      | some s =>
        rw [hf] at hx
        have h1 := List.find?_some hf
        have h2 := List.mem_of_find?_eq_some hf
        simp only [Bool.and_eq_true, beq_iff_eq, Bool.not_eq_true'] at h1
        exact selectionLog_quiet h1.1 (hv h1.2 s h2) x hx
    · split at hx
      · exact ih x hx
      · cases hx

theorem placeholderLog_quiet {n : Int} {key baseHash seed : Nat} (ds : List SelectionDescription) : ∀ (count : Int),
    ∀ x ∈ placeholderLog E n key baseHash seed ds count, ¬ x.ShowsVote := by
  induction ds with
  | nil => intro count x hx; cases hx
  | cons d ds ih =>
    intro count x hx
    unfold placeholderLog at hx
    simp only [List.mem_append] at hx
    rcases hx with hx | hx
    · exact selectionLog_quiet rfl (selectionFrom_vote d true _) x hx
    · split at hx
      · exact ih _ x hx
      · cases hx

theorem hashedLog_quiet {bytes : Bytes} {n key baseHash : Nat} :
    ∀ x ∈ hashedLog E bytes n key baseHash, ¬ x.ShowsVote := by
  intro x hx
  unfold hashedLog at hx
  simp only at hx
  split at hx
  · cases hx
  split at hx
  · cases hx
  split at hx
  · cases hx
  simp only [List.mem_cons, List.not_mem_nil, or_false] at hx
  rcases hx with rfl | rfl | rfl | rfl | rfl <;> exact id

theorem contestLog_quiet {json : ContestData → Bytes} {c : PlaintextContest} {d : ContestWithPlaceholders}
    {key baseHash seed : Nat} (hv : (∃ ids, c.valid d = some (.overVote ids)) ∨ ∀ s ∈ c.ballotSelections, s.vote = 0 ∨ s.vote = 1) :
    ∀ x ∈ contestLog E json c d key baseHash seed, ¬ x.ShowsVote := by
  intro x hx
  unfold contestLog at hx
  rcases List.mem_append.1 hx with hx | hx
  · unfold contestValidLog at hx
    split at hx
    · cases hx
    split at hx
    · simp only [List.mem_singleton] at hx; subst hx; exact id
    · cases hx
  cases hc : contestDataError (c.valid d) with
  | none =>
    rw [hc] at hx
    simp only [List.mem_singleton] at hx; subst hx; exact id
  | some p =>
    obtain ⟨err, ids⟩ := p
    rw [hc] at hx
    simp only at hx
    split at hx
    · cases hx
    rcases List.mem_append.1 hx with hx | hx
    · refine realLog_quiet (fun ho => ?_) _ x hx
      rcases hv with ⟨ids', hv⟩ | hv
      · rw [hv] at hc
        cases hc
        simp at ho
      · exact hv
    split at hx
    · rcases List.mem_append.1 hx with hx | hx
      · exact placeholderLog_quiet _ _ x hx
      split at hx
      · split at hx
        · cases hx
        split at hx
        · cases hx
        rcases List.mem_append.1 hx with hx | hx
        · exact hashedLog_quiet x hx
        split at hx
        · cases hx
        split at hx
        · simp only [List.mem_singleton] at hx; subst hx; exact id
        · cases hx
      · cases hx
    · cases hx

theorem contestsLog_quiet {json : ContestData → Bytes} {b : PlaintextBallot} {key baseHash seed : Nat}
    (ds : List ContestWithPlaceholders)
    (hv : ∀ d ∈ ds, (∃ ids, (b.voted d.toContestDescription).valid d = some (.overVote ids)) ∨
      ∀ s ∈ (b.voted d.toContestDescription).ballotSelections, s.vote = 0 ∨ s.vote = 1) :
    ∀ x ∈ contestsLog E json b key baseHash seed ds, ¬ x.ShowsVote := by
  induction ds with
  | nil => intro x hx; cases hx
  | cons d ds ih =>
    intro x hx
    rw [contestsLog_cons] at hx
    rcases List.mem_append.1 hx with hx | hx
    · exact contestLog_quiet (hv d (List.mem_cons_self ..)) x hx
    · split at hx
      · exact ih (fun d hd => hv d (List.mem_cons_of_mem _ hd)) x hx
      · cases hx

/-- If every vote of the ballot is 0 or 1, nothing that is logged shows a vote: whether the ballot is encrypted,
refused, or an exception is raised. -/
theorem C115_no_votes_partial (json : ContestData → Bytes) (b : PlaintextBallot) (m : InternalManifest)
    (ctx : Context) (seed nonce : Nat)
    (hv : ∀ c ∈ b.contests, ∀ s ∈ c.ballotSelections, s.vote = 0 ∨ s.vote = 1) :
    ∀ x ∈ ballotLog E json b m ctx seed nonce, ¬ x.ShowsVote := by
  intro x hx
  unfold ballotLog at hx
  cases hs : m.getBallotStyle b.styleId with
  | error _ => rw [hs] at hx; cases hx
  | ok style =>
  rw [hs] at hx
  simp only at hx
  have hst : b.styleId = style.objectId := by
    unfold InternalManifest.getBallotStyle at hs
    split at hs
    · rename_i s _ hf
      have hm : s ∈ m.ballotStyles.filter (fun i => i.objectId == b.styleId) := by rw [hf]; exact List.mem_cons_self ..
      cases hs
      exact (by simpa using (List.mem_filter.1 hm).2 : style.objectId = b.styleId).symm
    · cases hs
  rw [if_neg (by unfold PlaintextBallot.isValid; rw [if_neg (by simpa using hst)]; simp)] at hx
  rcases List.mem_append.1 hx with hx | hx
  · simp only [List.mem_cons, List.not_mem_nil, or_false] at hx
    rcases hx with rfl | rfl <;> exact id
  split at hx
  · cases hx
  rcases List.mem_append.1 hx with hx | hx
  · refine contestsLog_quiet _ (fun d _ => Or.inr ?_) x hx
    unfold PlaintextBallot.voted
    cases hf : b.contests.find? (fun c => c.objectId == d.objectId) with
    | some c => exact hv c (List.mem_of_find?_eq_some hf)
    | none =>
      intro s hs
      simp only [List.mem_map] at hs
      obtain ⟨_, -, rfl⟩ := hs
      exact Or.inl rfl
  · split at hx
    · simp only [List.mem_singleton] at hx; subst hx; exact id
    · cases hx

/-- A selection with another vote is refused, and the whole selection is written to the log, twice. -/
theorem C115_refused (s : PlaintextSelection) (d : SelectionDescription) (key baseHash seed : Nat)
    (hid : s.objectId = d.objectId) (hs : ¬ (s.vote = 0 ∨ s.vote = 1)) :
    encryptSelection E s d key baseHash seed = .ok none ∧
    selectionLog E s d key seed = [.badVote s, .malformedSelection s] := by
  have hv : s.isValid d.objectId = false := by
    unfold PlaintextSelection.isValid
    rw [if_neg (by simpa using hid), if_pos (by omega)]
  constructor
  · unfold encryptSelection; rw [if_pos hv]
  · unfold selectionLog selectionValidLog
    rw [if_pos hv, if_neg (by simpa using hid), if_pos (by omega)]
    rfl

/-- A ballot of the toy election. -/
def logBallot (x y z : Int) : PlaintextBallot :=
  ⟨"l", "t", [⟨"c", [⟨"sx", x, false, none⟩, ⟨"sy", y, false, none⟩]⟩, ⟨"d", [⟨"sz", z, false, none⟩]⟩]⟩

/-- Without the restriction on the votes it fails: a ballot that is refused for a vote of `-1` is in the log. -/
theorem C115_vote_logged_fails : ¬ ∀ (b : PlaintextBallot) (seed nonce : Nat),
    ∀ x ∈ ballotLog toyEnv toyJson b toyIM toyCtx seed nonce, ¬ x.ShowsVote := by
  intro h
  have hm : EncMsg.malformedSelection ⟨"sx", -1, false, none⟩
      ∈ ballotLog toyEnv toyJson (logBallot (-1) 0 0) toyIM toyCtx 3 1 := by decide +kernel
  exact h _ _ _ _ hm trivial

/-- The vote that made the toy ballot fail is written, the votes encrypted before are not. -/
example : (ballotLog toyEnv toyJson (logBallot 1 0 (-1)) toyIM toyCtx 3 1).filter (fun x => decide x.ShowsVote)
    = [.badVote ⟨"sz", -1, false, none⟩, .malformedSelection ⟨"sz", -1, false, none⟩] := by decide +kernel

/-- A ballot that is encrypted: two contests, five selections with placeholders, no vote in the log. -/
example : (ballotLog toyEnv toyJson (logBallot 1 0 1) toyIM toyCtx 3 1).length = 32 ∧
    (ballotLog toyEnv toyJson (logBallot 1 0 1) toyIM toyCtx 3 1).all (fun x => !decide x.ShowsVote) = true := by
  decide +kernel

/-- The theorem about encrypted ballots applies to it. -/
example : ∃ enc, encryptBallot toyEnv toyJson (logBallot 1 0 1) toyIM toyCtx 3 1 17 = .ok (some enc) ∧
    ballotLog toyEnv toyJson (logBallot 1 0 1) toyIM toyCtx 3 1
      = ballotPublic toyCtx.elgamalPublicKey enc.manifestHash enc.codeSeed enc.contests := by
  have hs : (match encryptBallot toyEnv toyJson (logBallot 1 0 1) toyIM toyCtx 3 1 17 with
    | .ok (some _) => true
    | _ => false) = true := by decide +kernel
  split at hs
  · rename_i enc he
    exact ⟨enc, he, C115_public (by intro k m; simp [toyEnv]) _ _ _ _ _ _ _ _ he⟩
  · cases hs

end EG
