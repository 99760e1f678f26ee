import Verif.Props.Encrypt

/-!
# C28: exactly when a ballot is encrypted
-/

namespace EG

variable {E : Env}

/-- What `encrypt_selection` needs of the description and the vote: the vote is 0 or 1, the sequence order is not negative,
the derived nonce is not zero, and for a one the first nonce of the prover is not zero. -/
structure SelReady (E : Env) (seed : Nat) (sd : SelectionDescription) (v : Int) : Prop where
  binary : v = 0 ∨ v = 1
  order : 0 ≤ sd.sequenceOrder
  nonce : nonce E (sd.cryptoHash E) [.elem seed] sd.sequenceOrder.toNat ≠ 0
  prover : v = 1 → EG.nonce E (EG.nonce E (sd.cryptoHash E) [.elem seed] 0) disjHeader 0 ≠ 0

/-- The vote that is encrypted for a selection: the first mark on the contest, nothing if there is none or if the contest is
overvoted. -/
def PlaintextContest.voteFor (c : PlaintextContest) (d : ContestWithPlaceholders) (sid : String) : Int :=
  if c.over d then 0
  else match c.ballotSelections.find? (fun s => s.objectId == sid) with
    | some s => s.vote
    | none => 0

/-- What is written about a contest: overvoted with the ids of all that is chosen, blank, undervoted, or nothing; `none` if
the contest is refused, because it is fully voted but more votes are allowed. -/
def PlaintextContest.remark (c : PlaintextContest) (d : ContestWithPlaceholders) :
    Option (Option ContestErrorType × Option (List String)) :=
  if c.over d then some (some .overVote,
    some ((c.ballotSelections.filter (fun s => decide (0 < s.vote))).map PlaintextSelection.objectId))
  else if c.chosen = 0 then some (some .nullVote, none)
  else if c.chosen < d.numberElected then some (some .underVote, none)
  else match d.votesAllowed with
    | some v => if c.chosen < v then none else some (none, none)
    | none => some (none, none)

/-- What `encrypt_contest` needs. -/
structure ContestReady (E : Env) (json : ContestData → Bytes) (c : PlaintextContest) (d : ContestWithPlaceholders)
    (seed : Nat) : Prop where
  belongs : c.Belongs d
  remark : ∃ err data, c.remark d = some (err, data) ∧ (json ⟨err, data, c.writeIns⟩).length ≤ 510
  order : 0 ≤ d.sequenceOrder
  some : d.ballotSelections ++ d.placeholders ≠ []
  real : ∀ sd ∈ d.ballotSelections,
    SelReady E (nonce E (d.cryptoHash E) [.elem seed] d.sequenceOrder.toNat) sd (c.voteFor d sd.objectId)
  fill : ∀ x ∈ d.placeholders.zip (fillVotes d.numberElected
      (d.ballotSelections.map (fun sd => c.voteFor d sd.objectId)).sum d.placeholders.length),
    SelReady E (nonce E (d.cryptoHash E) [.elem seed] d.sequenceOrder.toNat) x.1 x.2

theorem usedVote_voteFor (c : PlaintextContest) (d : ContestWithPlaceholders) (sid : String) :
    usedVote c.ballotSelections (c.over d) sid = c.voteFor d sid := by
  unfold usedVote PlaintextContest.voteFor
  have hnil : c.ballotSelections.find? (fun _ => false) = none := List.find?_eq_none.2 (by simp)
  cases c.over d with
  | true => simp [hnil]
  | false =>
    simp only [Bool.not_false, Bool.and_true, Bool.false_eq_true, if_false]
    cases c.ballotSelections.find? (fun s => s.objectId == sid) <;> rfl

theorem contestDataError_remark {c : PlaintextContest} {d : ContestWithPlaceholders} (h : c.Belongs d) :
    contestDataError (c.valid d) = c.remark d := by
  obtain ⟨h1, h2, h3, h4, h5⟩ := C55_classification_partial c d h
  have hc := c.chosen_nonneg
  have hover : c.over d = true ↔ 0 < c.chosen ∧ (d.numberElected < c.chosen ∨
      c.chosen = d.numberElected ∧ ∃ v, d.votesAllowed = some v ∧ v < c.voteSum) := by
    unfold PlaintextContest.over
    cases d.votesAllowed <;> simp
  unfold PlaintextContest.remark
  cases hval : c.valid d with
  | none =>
    obtain ⟨a, b, e⟩ := h4.1 hval
    have ho : ¬ c.over d = true := by
      rw [hover]
      rintro ⟨-, hh | ⟨-, v, hv, hlt⟩⟩
      · omega
      · have := (e v hv).1; omega
    rw [if_neg ho, if_neg (by omega), if_neg (by omega)]
    cases hva : d.votesAllowed with
    | none => rfl
    | some v => simp only; rw [if_neg (by have := (e v hva).2; omega)]; rfl
  | some e =>
    cases e with
    | nullVote =>
      have := h1.1 hval
      rw [if_neg (by rw [hover]; omega), if_pos this]; rfl
    | underVote =>
      obtain ⟨a, b⟩ := h2.1 hval
      rw [if_neg (by rw [hover]; rintro ⟨-, hh | ⟨hh, -⟩⟩ <;> omega), if_neg (by omega), if_pos b]; rfl
    | overVote ids =>
      obtain ⟨a, b⟩ := (h3 ids).1 hval
      rw [if_pos (hover.2 b), a]; rfl
    | default =>
      obtain ⟨a, b, v, hv, e1, e2⟩ := h5.1 hval
      have ho : ¬ c.over d = true := by
        rw [hover]
        rintro ⟨-, hh | ⟨-, w, hw, hlt⟩⟩
        · omega
        · rw [hv] at hw; cases hw; omega
      rw [if_neg ho, if_neg (by omega), if_neg (by omega), hv]
      simp only
      rw [if_pos e2]; rfl

/-- C28 Exactly when a selection is encrypted. -/
theorem C28_selection_iff (hv : E.P.Valid) (s : PlaintextSelection) (d : SelectionDescription)
    (key baseHash seed : Nat) (ph verify : Bool) (hK : isValidResidue E.P key = true) :
    (∃ e, encryptSelection E s d key baseHash seed ph verify = .ok (some e)) ↔
      s.objectId = d.objectId ∧ SelReady E seed d s.vote := by
  constructor
  · rintro ⟨e, h⟩
    obtain ⟨hid, hb, -⟩ := encryptSelection_some hv hK h
    refine ⟨hid, ?_⟩
    unfold encryptSelection at h
    rw [if_neg (by rw [Bool.not_eq_false]; exact (s.isValid_iff _).2 ⟨hid, hb⟩)] at h
    simp only [bind, Except.bind, pure, Except.pure] at h
    cases hn : nonceAt E (d.cryptoHash E) [.elem seed] d.sequenceOrder with
    | error x => rw [hn] at h; cases h
    | ok n =>
      obtain ⟨ho, hn'⟩ := nonceAt_ok hn
      rw [hn, nonceAt_zero] at h
      simp only at h
      cases hc : elgamalEncrypt E.P s.vote.toNat n key with
      | none => rw [hc] at h; cases h
      | some ct =>
        rw [hc] at h
        obtain ⟨hn0, -⟩ := C01_ciphertext hv _ _ _ _ hc
        refine ⟨hb, ho, by rw [← hn']; exact hn0, fun h1 hz => ?_⟩
        simp only [makeSelection, bind, Except.bind, pure, Except.pure] at h
        have herr : makeDisj E ct n key baseHash (EG.nonce E (d.cryptoHash E) [.elem seed] 0) s.vote = .error .overflow := by
          unfold makeDisj
          rw [h1, if_neg (by omega), if_neg (by omega)]
          unfold makeDisjOne
          simp only [bind, Except.bind]
          rw [hz]
          have : negateQ E.P 0 = .error .overflow := by
            unfold negateQ mkQ
            simp
          rw [this]
        rw [herr] at h
        cases h
  · rintro ⟨hid, h⟩
    exact encryptSelection_ok hv hK hid h.binary h.order h.nonce h.prover

theorem encryptReal_iff (hv : E.P.Valid) {votes : List PlaintextSelection} {over : Bool} {key baseHash seed : Nat}
    {verify : Bool} (hK : isValidResidue E.P key = true) (ds : List SelectionDescription) :
    ∀ (count : Int) (acc : List CSelection),
    (∃ r, encryptReal E votes over key baseHash seed verify ds count acc = .ok (some r)) ↔
      ∀ sd ∈ ds, SelReady E seed sd (usedVote votes over sd.objectId) := by
  induction ds with
  | nil => intro count acc; exact ⟨fun _ => by simp, fun _ => ⟨_, rfl⟩⟩
  | cons d ds ih =>
    intro count acc
    simp only [encryptReal, bind, Except.bind, pure, Except.pure, List.forall_mem_cons]
    cases hf : votes.find? (fun s => s.objectId == d.objectId && !over) with
    | none =>
      have hu : usedVote votes over d.objectId = (selectionFrom d).vote := by simp [usedVote, hf, selectionFrom]
      have hs := C28_selection_iff hv (selectionFrom d) d key baseHash seed false verify hK
      rw [hu]
      simp only
      cases he : encryptSelection E (selectionFrom d) d key baseHash seed false verify with
      | error x =>
        rw [he] at hs
        simp only [reduceCtorEq, exists_false, false_iff] at hs ⊢
        exact fun h => hs ⟨rfl, h.1⟩
      | ok o =>
        rw [he] at hs
        cases o with
        | none =>
          simp only [Except.ok.injEq, reduceCtorEq, exists_false, false_iff] at hs ⊢
          exact fun h => hs ⟨rfl, h.1⟩
        | some e =>
          simp only
          rw [ih]
          exact ⟨fun h => ⟨(hs.1 ⟨e, rfl⟩).2, h⟩, fun h => h.2⟩
    | some s =>
      have hu : usedVote votes over d.objectId = s.vote := by simp [usedVote, hf]
      have hid : s.objectId = d.objectId := by
        have := List.find?_some hf
        simp only [Bool.and_eq_true, beq_iff_eq] at this
        exact this.1
      have hs := C28_selection_iff hv s d key baseHash seed false verify hK
      rw [hu]
      simp only
      cases he : encryptSelection E s d key baseHash seed false verify with
      | error x =>
        rw [he] at hs
        simp only [reduceCtorEq, exists_false, false_iff] at hs ⊢
        exact fun h => hs ⟨hid, h.1⟩
      | ok o =>
        rw [he] at hs
        cases o with
        | none =>
          simp only [Except.ok.injEq, reduceCtorEq, exists_false, false_iff] at hs ⊢
          exact fun h => hs ⟨hid, h.1⟩
        | some e =>
          simp only
          rw [ih]
          exact ⟨fun h => ⟨(hs.1 ⟨e, rfl⟩).2, h⟩, fun h => h.2⟩

theorem encryptPlaceholders_iff (hv : E.P.Valid) {seats : Int} {key baseHash seed : Nat} {verify : Bool}
    (hK : isValidResidue E.P key = true) (ds : List SelectionDescription) :
    ∀ (count : Int) (acc : List CSelection),
    (∃ r, encryptPlaceholders E seats key baseHash seed verify ds count acc = .ok (some r)) ↔
      ∀ x ∈ ds.zip (fillVotes seats count ds.length), SelReady E seed x.1 x.2 := by
  induction ds with
  | nil => intro count acc; exact ⟨fun _ => by simp, fun _ => ⟨_, rfl⟩⟩
  | cons d ds ih =>
    intro count acc
    rw [List.length_cons, fillVotes_cons, List.zip_cons_cons, List.forall_mem_cons]
    simp only [encryptPlaceholders, bind, Except.bind, pure, Except.pure]
    have hs := C28_selection_iff hv (selectionFrom d true (decide (count < seats))) d key baseHash seed true verify hK
    have hvote : (selectionFrom d true (decide (count < seats))).vote =
        (((if count < seats then 1 else 0 : Nat)) : Int) := by
      unfold selectionFrom
      by_cases h : count < seats <;> simp [h]
    have hdec : (if decide (count < seats) = true then count + 1 else count) =
        (if count < seats then count + 1 else count) := by simp
    rw [hvote] at hs
    rw [hdec]
    cases he : encryptSelection E (selectionFrom d true (decide (count < seats))) d key baseHash seed true verify with
    | error x =>
      rw [he] at hs
      simp only [reduceCtorEq, exists_false, false_iff] at hs ⊢
      exact fun h => hs ⟨rfl, h.1⟩
    | ok o =>
      rw [he] at hs
      cases o with
      | none =>
        simp only [Except.ok.injEq, reduceCtorEq, exists_false, false_iff] at hs ⊢
        exact fun h => hs ⟨rfl, h.1⟩
      | some e =>
        simp only
        rw [ih]
        exact ⟨fun h => ⟨(hs.1 ⟨e, rfl⟩).2, h⟩, fun h => h.2⟩

theorem encryptContest_parts {json : ContestData → Bytes} {c : PlaintextContest} {d : ContestWithPlaceholders}
    {key baseHash seed : Nat} {verify : Bool} {enc : CContest}
    (h : encryptContest E json c d key baseHash seed verify = .ok (some enc)) :
    ∃ err data n ss count all bytes ext, contestDataError (c.valid d) = some (err, data) ∧
      nonceAt E (d.cryptoHash E) [.elem seed] d.sequenceOrder = .ok n ∧
      encryptReal E c.ballotSelections (c.over d) key baseHash n verify d.ballotSelections 0 [] = .ok (some (ss, count)) ∧
      encryptPlaceholders E d.numberElected key baseHash n verify d.placeholders count ss = .ok (some all) ∧
      (ContestData.mk err data c.writeIns).toBytes json = .ok bytes ∧
      ∃ cc, makeContest E c.objectId d.sequenceOrder (d.cryptoHash E) all key baseHash
        (EG.nonce E (d.cryptoHash E) [.elem seed] 0) d.numberElected (some n) (some ext) = .ok cc := by
  unfold encryptContest at h
  cases hcd : contestDataError (c.valid d) with
  | none => rw [hcd] at h; cases h
  | some x =>
    obtain ⟨err, data⟩ := x
    obtain ⟨hbel, hov⟩ := contestDataError_some hcd
    rw [hcd] at h
    simp only [bind, Except.bind, pure, Except.pure, hov] at h
    cases hn : nonceAt E (d.cryptoHash E) [.elem seed] d.sequenceOrder with
    | error x => rw [hn] at h; cases h
    | ok n =>
      rw [hn, nonceAt_zero] at h
      simp only at h
      cases hr : encryptReal E c.ballotSelections (c.over d) key baseHash n verify d.ballotSelections 0 [] with
      | error x => rw [hr] at h; cases h
      | ok o =>
        rw [hr] at h
        cases o with
        | none => cases h
        | some sc =>
          obtain ⟨ss, count⟩ := sc
          simp only at h
          cases hp : encryptPlaceholders E d.numberElected key baseHash n verify d.placeholders count ss with
          | error x => rw [hp] at h; cases h
          | ok o =>
            rw [hp] at h
            cases o with
            | none => cases h
            | some all =>
              simp only at h
              cases hb : (ContestData.mk err data c.writeIns).toBytes json with
              | error x => rw [hb] at h; cases h
              | ok bytes =>
                rw [hb, nonceAt_zero] at h
                simp only at h
                cases hx : hashedEncrypt E bytes (EG.nonce E n [.str "constant-extended-data"] 0) key baseHash with
                | error x => rw [hx] at h; cases h
                | ok ext =>
                  rw [hx] at h
                  simp only at h
                  cases hm : makeContest E c.objectId d.sequenceOrder (d.cryptoHash E) all key baseHash
                      (EG.nonce E (d.cryptoHash E) [.elem seed] 0) d.numberElected (some n) (some ext) with
                  | error x => rw [hm] at h; cases h
                  | ok cc => exact ⟨err, data, n, ss, count, all, bytes, ext, rfl, rfl, hr, hp, hb, cc, hm⟩

/-- C28 Exactly when a contest is encrypted, whether its proofs are verified or not. -/
theorem C28_contest_iff (hv : E.P.Valid) (hpq : (E.P.q - 1) * (E.P.q - 1) < E.P.p) (hlen : HmacLen E)
    (json : ContestData → Bytes) (c : PlaintextContest) (d : ContestWithPlaceholders) (key baseHash seed : Nat)
    (verify : Bool) (hK : isValidResidue E.P key = true) (hn1 : d.numberElected < 1000000000)
    (hn2 : d.numberElected < E.P.q) :
    (∃ enc, encryptContest E json c d key baseHash seed verify = .ok (some enc)) ↔ ContestReady E json c d seed := by
  constructor
  · rintro ⟨enc, h⟩
    obtain ⟨err, data, n, ss, count, all, bytes, ext, hcd, hn, hr, hp, hb, cc, hm⟩ := encryptContest_parts h
    obtain ⟨hbel, -⟩ := contestDataError_some hcd
    obtain ⟨ho, hn'⟩ := nonceAt_ok hn
    obtain ⟨real, e1, e2, e3⟩ := encryptReal_some hv hK _ _ _ _ _ hr
    obtain ⟨phs, e4, e5⟩ := encryptPlaceholders_some hv hK _ _ _ _ hp
    have hcount : count = (d.ballotSelections.map (fun sd => c.voteFor d sd.objectId)).sum := by
      rw [e2, zero_add]; simp only [usedVote_voteFor]
    refine ⟨hbel, ⟨err, data, by rw [← contestDataError_remark hbel]; exact hcd, ?_⟩, ho, ?_, ?_, ?_⟩
    · by_contra hc
      have := C20_too_long_raises (json ⟨err, data, c.writeIns⟩) 512 (by omega)
      have hb' : addPadding (json ⟨err, data, c.writeIns⟩) 512 false = .ok bytes := hb
      have := this.symm.trans hb'
      cases this
    · intro hnil
      rw [List.append_eq_nil_iff] at hnil
      have hall : all = [] := by
        rw [hnil.1] at e3
        rw [hnil.2] at e5
        cases e3
        cases e5
        simp [e4, e1]
      rw [hall] at hm
      cases hm
    · intro sd hsd
      rw [← usedVote_voteFor, ← hn']
      exact (encryptReal_iff hv hK d.ballotSelections 0 []).1 ⟨_, hr⟩ sd hsd
    · rw [← hcount, ← hn']
      exact (encryptPlaceholders_iff hv hK d.placeholders count ss).1 ⟨_, hp⟩
  · intro h
    obtain ⟨err, data, hrem, hfit⟩ := h.remark
    have hcd : contestDataError (c.valid d) = some (err, data) := by rw [contestDataError_remark h.belongs]; exact hrem
    obtain ⟨hbel, hov⟩ := contestDataError_some hcd
    unfold encryptContest
    rw [hcd]
    simp only [bind, Except.bind, pure, Except.pure, hov]
    rw [nonceAt_nonneg h.order, nonceAt_zero]
    simp only
    obtain ⟨⟨ss, count⟩, hr⟩ := (encryptReal_iff hv (over := c.over d) (votes := c.ballotSelections) (baseHash := baseHash)
      (verify := verify) hK d.ballotSelections 0 []).2 (fun sd hsd => by rw [usedVote_voteFor]; exact h.real sd hsd)
    obtain ⟨real, e1, e2, e3⟩ := encryptReal_some hv hK _ _ _ _ _ hr
    have hcount : count = (d.ballotSelections.map (fun sd => c.voteFor d sd.objectId)).sum := by
      rw [e2, zero_add]; simp only [usedVote_voteFor]
    rw [hr]
    simp only
    obtain ⟨all, hp⟩ := (encryptPlaceholders_iff hv (seats := d.numberElected) (baseHash := baseHash) (verify := verify) hK
      d.placeholders count ss).2 (by rw [hcount]; exact h.fill)
    rw [hp]
    simp only
    obtain ⟨bytes, hby, hbl, -⟩ := C20_roundtrip (json ⟨err, data, c.writeIns⟩) 512 false (by omega) (by omega)
    have hby' : (ContestData.mk err data c.writeIns).toBytes json = .ok bytes := hby
    rw [hby', nonceAt_zero]
    simp only
    obtain ⟨ext, hd⟩ := hashedEncrypt_ok hlen bytes (EG.nonce E (EG.nonce E (d.cryptoHash E) [.elem seed]
      d.sequenceOrder.toNat) [.str "constant-extended-data"] 0) key baseHash (by rw [hbl]; norm_num)
    rw [hd]
    simp only
    obtain ⟨phs, e4, e5⟩ := encryptPlaceholders_some hv hK _ _ _ _ hp
    have hne : all ≠ [] := by
      intro hnil
      rw [hnil, e1] at e4
      simp only [List.nil_append] at e4
      have e4 := e4.symm
      rw [List.append_eq_nil_iff] at e4
      apply h.some
      rw [List.append_eq_nil_iff]
      refine ⟨List.length_eq_zero_iff.1 (by rw [← e3.length_eq, e4.1]; rfl), List.length_eq_zero_iff.1 ?_⟩
      have := e5.length_eq
      rw [e4.2, List.length_zip] at this
      simp [fillVotes] at this
      simp [this]
    cases hm : makeContest E c.objectId d.sequenceOrder (d.cryptoHash E) all key baseHash
        (EG.nonce E (d.cryptoHash E) [.elem seed] 0) d.numberElected (some (EG.nonce E (d.cryptoHash E) [.elem seed]
      d.sequenceOrder.toNat)) (some ext) with
    | error x =>
      exfalso
      obtain ⟨a, rest, rfl⟩ := List.exists_cons_of_ne_nil hne
      simp [makeContest, accumulateSelections, elgamalAdd, bind, Except.bind, pure, Except.pure] at hm
    | ok cc =>
      simp only
      obtain ⟨real, phs, fill, hspec⟩ := encryptContest_core hv hpq hK hn1 hn2 hbel (nonceAt_nonneg h.order _ _ _)
        hr hp hm
      rw [hspec.valid]
      exact ⟨cc, by split <;> rfl⟩

theorem encryptContests_iff (hv : E.P.Valid) (hpq : (E.P.q - 1) * (E.P.q - 1) < E.P.p) (hlen : HmacLen E)
    {json : ContestData → Bytes} {b : PlaintextBallot} {key baseHash seed : Nat}
    {verify : Bool} (hK : isValidResidue E.P key = true) (ds : List ContestWithPlaceholders)
    (hn : ∀ d ∈ ds, d.numberElected < 1000000000 ∧ d.numberElected < E.P.q) :
    (∃ cs, encryptContests E json b key baseHash seed verify ds = .ok (some cs)) ↔
      ∀ d ∈ ds, ContestReady E json (b.voted d.toContestDescription) d seed := by
  induction ds with
  | nil => exact ⟨fun _ => by simp, fun _ => ⟨[], rfl⟩⟩
  | cons d ds ih =>
    have ih := ih (fun d hd => hn d (by simp [hd]))
    have hc := C28_contest_iff hv hpq hlen json (b.voted d.toContestDescription) d key baseHash seed verify hK
      (hn d (by simp)).1 (hn d (by simp)).2
    rw [List.forall_mem_cons, ← hc, ← ih, encryptContests_cons]
    simp only [bind, Except.bind, pure, Except.pure]
    cases encryptContest E json (b.voted d.toContestDescription) d key baseHash seed verify with
    | error x => simp
    | ok o =>
      cases o with
      | none => simp
      | some c =>
        simp only [Except.ok.injEq, Option.some.injEq, exists_eq', true_and]
        cases encryptContests E json b key baseHash seed verify ds with
        | error x => simp
        | ok o => cases o <;> simp

/-- **C28, exactly.**  `encrypt_ballot` without the check of its result returns a ballot if and only if the manifest has the
ballot's style and every contest of the style is ready; otherwise it returns None or raises.  Nothing is asked of the order
of the manifest. -/
theorem C28_ballot_iff (hv : E.P.Valid) (hpq : (E.P.q - 1) * (E.P.q - 1) < E.P.p) (hlen : HmacLen E)
    (json : ContestData → Bytes) (b : PlaintextBallot) (m : InternalManifest) (ctx : Context) (cseed nonce : Nat)
    (now : Int) (hK : isValidResidue E.P ctx.elgamalPublicKey = true)
    (hn : ∀ d, m.StyleHas b.styleId d → d.numberElected < 1000000000 ∧ d.numberElected < E.P.q) :
    (∃ enc, encryptBallot E json b m ctx cseed nonce now false = .ok (some enc)) ↔
      (∃ s ∈ m.ballotStyles, s.objectId = b.styleId) ∧
      ∀ d, m.StyleHas b.styleId d → ContestReady E json (b.voted d.toContestDescription) d
        (nonceSeed E m.manifestHash b.objectId nonce) := by
  rcases getContestsFor_eq m b.styleId with ⟨hno, hds⟩ | ⟨ds, hds, hmem, -, s, hs⟩
  · constructor
    · rintro ⟨enc, h⟩
      unfold encryptBallot at h
      simp only [bind, Except.bind, getBallotStyle_eq, hno] at h
      cases h
    · rintro ⟨⟨s, hs, hid⟩, -⟩
      exact absurd hid (by simpa using List.find?_eq_none.1 hno s hs)
  · have e2 : s.objectId = b.styleId := by simpa using List.find?_some hs
    have hit := encryptContests_iff hv hpq hlen (json := json) (b := b) (baseHash := ctx.cryptoExtendedBaseHash)
      (seed := nonceSeed E m.manifestHash b.objectId nonce) (verify := false) hK ds (fun d hd => hn d ((hmem d).1 hd))
    have hex : ∃ s ∈ m.ballotStyles, s.objectId = b.styleId := ⟨s, List.mem_of_find?_eq_some hs, e2⟩
    simp only [hex, true_and, ← hmem]
    rw [← hit]
    unfold encryptBallot
    simp only [getBallotStyle_eq, hs, e2, hds, bind, Except.bind, pure, Except.pure, PlaintextBallot.isValid, ne_eq, not_true,
      if_false, reduceCtorEq]
    cases encryptContests E json b ctx.elgamalPublicKey ctx.cryptoExtendedBaseHash
      (nonceSeed E m.manifestHash b.objectId nonce) false ds with
    | error x => simp
    | ok o => cases o <;> simp

/-- C28 With the check of the result, on a manifest in sequence order whose style has a contest, the same condition is the
exact one, and what is returned is the same ballot. -/
theorem C28_checked_iff_partial (hv : E.P.Valid) (hpq : (E.P.q - 1) * (E.P.q - 1) < E.P.p) (hlen : HmacLen E)
    (json : ContestData → Bytes) (b : PlaintextBallot) (m : InternalManifest) (ctx : Context) (cseed nonce : Nat)
    (now : Int) (hK : isValidResidue E.P ctx.elgamalPublicKey = true)
    (hn : ∀ d, m.StyleHas b.styleId d → d.numberElected < 1000000000 ∧ d.numberElected < E.P.q)
    (hsorted : m.contests.Pairwise (fun c d => c.sequenceOrder ≤ d.sequenceOrder))
    (hsome : ∃ d, m.StyleHas b.styleId d) :
    (∃ enc, encryptBallot E json b m ctx cseed nonce now true = .ok (some enc)) ↔
      ∀ d, m.StyleHas b.styleId d → ContestReady E json (b.voted d.toContestDescription) d
        (nonceSeed E m.manifestHash b.objectId nonce) := by
  rcases getContestsFor_eq m b.styleId with ⟨hno, hds⟩ | ⟨ds, hds, hmem, -, s, hs⟩
  · obtain ⟨d, s, us, hs, -⟩ := hsome
    rw [hno] at hs; cases hs
  · have e2 : s.objectId = b.styleId := by simpa using List.find?_some hs
    have hit := encryptContests_iff hv hpq hlen (json := json) (b := b) (baseHash := ctx.cryptoExtendedBaseHash)
      (seed := nonceSeed E m.manifestHash b.objectId nonce) (verify := true) hK ds (fun d hd => hn d ((hmem d).1 hd))
    simp only [← hmem]
    rw [← hit]
    unfold encryptBallot
    simp only [getBallotStyle_eq, hs, e2, hds, bind, Except.bind, pure, Except.pure, PlaintextBallot.isValid, ne_eq, not_true,
      if_false, reduceCtorEq]
    cases hc : encryptContests E json b ctx.elgamalPublicKey ctx.cryptoExtendedBaseHash
      (nonceSeed E m.manifestHash b.objectId nonce) true ds with
    | error x => simp
    | ok o =>
      cases o with
      | none => simp
      | some cs =>
        have hval := (makeBallot_spec (cseed := cseed) (now := now) hv hpq hK hn hds hc).valid hsorted hsome
        simp only [hval, if_true]
        simp

/-- The ballot of the toy election. -/
private def exactBallot (v : Int) : PlaintextBallot :=
  ⟨"b", "t", [⟨"c", [⟨"sx", v, false, none⟩, ⟨"sy", 0, false, none⟩]⟩, ⟨"d", [⟨"sz", 0, false, none⟩]⟩]⟩

private theorem exact_hlen : HmacLen toyEnv := by intro k m; simp [toyEnv]

private theorem exact_small : ∀ d, toyIM.StyleHas "t" d → d.numberElected < 1000000000 ∧ d.numberElected < toyEnv.P.q := by
  rintro d ⟨s, us, -, -, hd, -⟩
  have : ∀ d ∈ toyIM.contests, d.numberElected < 1000000000 ∧ d.numberElected < toyEnv.P.q := by decide +kernel
  exact this d hd

/-- With the nonce 7 the ballot for `sx` is encrypted, so its contests are ready. -/
example : ∀ d, toyIM.StyleHas "t" d → ContestReady toyEnv toyJson ((exactBallot 1).voted d.toContestDescription) d
    (nonceSeed toyEnv toyIM.manifestHash "b" 7) := by
  have h : ((encryptBallot toyEnv toyJson (exactBallot 1) toyIM toyCtx 3 7 17 false).toOption.join).isSome = true := by
    decide +kernel
  refine ((C28_ballot_iff extraSmall_valid (by decide +kernel) exact_hlen toyJson (exactBallot 1) toyIM toyCtx 3 7 17
    (by decide +kernel) exact_small).1 ?_).2
  cases he : encryptBallot toyEnv toyJson (exactBallot 1) toyIM toyCtx 3 7 17 false with
  | error x => rw [he] at h; cases h
  | ok o =>
    rw [he] at h
    cases o with
    | none => cases h
    | some e => exact ⟨e, rfl⟩

private theorem exact_h0 : toyIM.contests ≠ [] := by decide +kernel
private theorem exact_h1 : (toyIM.contests.head exact_h0).ballotSelections ≠ [] := by decide +kernel
private theorem exact_h2 : (toyIM.ballotStyles.find? (fun s => s.objectId == "t")).isSome = true := by decide +kernel
private theorem exact_h3 : ((toyIM.ballotStyles.find? (fun s => s.objectId == "t")).get exact_h2).geopoliticalUnitIds.isSome =
    true := by decide +kernel

/-- With the vote -1 a ballot is not encrypted, whatever the nonce. -/
example (nonce : Nat) : ¬ ∃ enc, encryptBallot toyEnv toyJson (exactBallot (-1)) toyIM toyCtx 3 nonce 17 false =
    .ok (some enc) := by
  rw [C28_ballot_iff extraSmall_valid (by decide +kernel) exact_hlen toyJson (exactBallot (-1)) toyIM toyCtx 3 nonce 17
    (by decide +kernel) exact_small]
  rintro ⟨-, h⟩
  have hd : ∃ d ∈ toyIM.contests, (∃ s us, toyIM.ballotStyles.find? (fun s => s.objectId == "t") = some s ∧
      s.geopoliticalUnitIds = some us ∧ d.electoralDistrictId ∈ us) ∧ ∃ sd ∈ d.ballotSelections,
      ((exactBallot (-1)).voted d.toContestDescription).voteFor d sd.objectId = -1 := by
    exact ⟨toyIM.contests.head exact_h0, List.head_mem exact_h0, ⟨_, _, (Option.some_get exact_h2).symm, (Option.some_get exact_h3).symm,
      by decide +kernel⟩, (toyIM.contests.head exact_h0).ballotSelections.head exact_h1, List.head_mem exact_h1, by decide +kernel⟩
  obtain ⟨d, hd, ⟨s, us, h1, h2, h3⟩, sd, hsd, hv⟩ := hd
  have := ((h d ⟨s, us, h1, h2, hd, h3⟩).real sd hsd).binary
  rw [hv] at this
  omega

end EG
