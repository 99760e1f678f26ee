import Verif.Lemmas.EncryptBallot
import Verif.Lemmas.DecryptBallot
import Verif.Spec.ToyElection

/-!
# C28, C29 and C30: encrypted contests and ballots, and their decryption with the nonce or the secret key
-/

namespace EG

variable {E : Env}

/-- C29 An encrypted contest holds the described selections and then the placeholders, each once and in order.  A
real selection encrypts the voter's mark, zero if the contest is overvoted; every selection encrypts 0 or 1; the
votes including the placeholders add up to `number_elected`, and the proof is about that number. -/
theorem C29_contest (hv : E.P.Valid) (hpq : (E.P.q - 1) * (E.P.q - 1) < E.P.p)
    (json : ContestData → Bytes) (c : PlaintextContest) (d : ContestWithPlaceholders) (key baseHash seed : Nat)
    (verify : Bool) (enc : CContest) (hK : isValidResidue E.P key = true)
    (hn1 : d.numberElected < 1000000000) (hn2 : d.numberElected < E.P.q)
    (h : encryptContest E json c d key baseHash seed verify = .ok (some enc)) :
    enc.objectId = d.objectId ∧ ∃ real phs fill, enc.ballotSelections = real ++ phs ∧
      List.Forall₂ (fun e sd => e.Holds E key sd (c.effective d sd.objectId) false) real d.ballotSelections ∧
      List.Forall₂ (fun e (x : SelectionDescription × Nat) => e.Holds E key x.1 x.2 true) phs
        (d.placeholders.zip fill) ∧
      fill.length = d.placeholders.length ∧
      ((((d.ballotSelections.map (fun sd => c.effective d sd.objectId)).sum + fill.sum : Nat) : Int)
        = d.numberElected) ∧
      ∃ pf, enc.proof = some pf ∧ pf.constant = d.numberElected := by
  obtain ⟨n, real, phs, fill, hs⟩ := encryptContest_some hv hpq hK hn1 hn2 h
  exact ⟨hs.id, real, phs, fill, hs.sels, hs.real.imp (fun _ _ h => h.holds), hs.phs.imp (fun _ _ h => h.holds),
    hs.fillLen, hs.total, hs.proof⟩

/-- C29 A mark outside {0, 1} on a contest that is not overvoted is never encrypted. -/
theorem C29_bad_vote_refused (hv : E.P.Valid) (hpq : (E.P.q - 1) * (E.P.q - 1) < E.P.p)
    (json : ContestData → Bytes) (c : PlaintextContest) (d : ContestWithPlaceholders) (key baseHash seed : Nat)
    (verify : Bool) (hK : isValidResidue E.P key = true)
    (hn1 : d.numberElected < 1000000000) (hn2 : d.numberElected < E.P.q) (hover : c.over d = false)
    (sd : SelectionDescription) (hsd : sd ∈ d.ballotSelections) (s : PlaintextSelection)
    (hs : c.ballotSelections.find? (fun s => s.objectId == sd.objectId) = some s) (hbad : s.vote ≠ 0 ∧ s.vote ≠ 1) :
    ∀ enc, encryptContest E json c d key baseHash seed verify ≠ .ok (some enc) := by
  intro enc h
  obtain ⟨n, real, phs, fill, hspec⟩ := encryptContest_some hv hpq hK hn1 hn2 h
  have := hspec.marks sd hsd
  simp only [usedVote, hover, Bool.not_false, Bool.and_true, hs] at this
  omega

/-- C28 Whatever `encrypt_ballot` returns passes `is_valid_encryption`, if the manifest lists its contests in
sequence order and the ballot's style has a contest. -/
theorem C28_verifies_partial (hv : E.P.Valid) (hpq : (E.P.q - 1) * (E.P.q - 1) < E.P.p)
    (json : ContestData → Bytes) (b : PlaintextBallot) (m : InternalManifest) (ctx : Context) (cseed nonce : Nat)
    (now : Int) (verify : Bool) (enc : CBallot) (hK : isValidResidue E.P ctx.elgamalPublicKey = true)
    (hn : ∀ d, m.StyleHas b.styleId d → d.numberElected < 1000000000 ∧ d.numberElected < E.P.q)
    (hsorted : m.contests.Pairwise (fun c d => c.sequenceOrder ≤ d.sequenceOrder))
    (hsome : ∃ d, m.StyleHas b.styleId d)
    (h : encryptBallot E json b m ctx cseed nonce now verify = .ok (some enc)) :
    enc.isValidEncryption E m.manifestHash ctx.elgamalPublicKey ctx.cryptoExtendedBaseHash = .ok true := by
  obtain ⟨ds, hs⟩ := encryptBallot_some hv hpq hK hn h
  exact hs.valid hsorted hsome

/-- C28 `encrypt_ballot` returns an encryption, whether it verifies its proofs or not, for every ballot whose
contests can be encrypted, on a manifest in sequence order. -/
theorem C28_returns_partial (hv : E.P.Valid) (hpq : (E.P.q - 1) * (E.P.q - 1) < E.P.p) (hlen : HmacLen E)
    (json : ContestData → Bytes) (b : PlaintextBallot) (m : InternalManifest) (ctx : Context) (cseed nonce : Nat)
    (now : Int) (verify : Bool) (hK : isValidResidue E.P ctx.elgamalPublicKey = true)
    (hn : ∀ d, m.StyleHas b.styleId d → d.numberElected < 1000000000 ∧ d.numberElected < E.P.q)
    (hsorted : m.contests.Pairwise (fun c d => c.sequenceOrder ≤ d.sequenceOrder))
    (hsome : ∃ d, m.StyleHas b.styleId d)
    (henc : ∀ d, m.StyleHas b.styleId d → Encryptable E json (b.voted d.toContestDescription) d
      (nonceSeed E m.manifestHash b.objectId nonce)) :
    ∃ enc, encryptBallot E json b m ctx cseed nonce now verify = .ok (some enc) ∧
      enc.isValidEncryption E m.manifestHash ctx.elgamalPublicKey ctx.cryptoExtendedBaseHash = .ok true := by
  rcases getContestsFor_eq m b.styleId with ⟨hno, hds⟩ | ⟨ds, hds, hmem, -, s, hs⟩
  · obtain ⟨d, s, us, hs, -⟩ := hsome
    rw [hno] at hs; cases hs
  obtain ⟨cs, hcs⟩ := encryptContests_ok hv hpq hlen (baseHash := ctx.cryptoExtendedBaseHash) (verify := verify) hK ds
    (fun d hd => hn d ((hmem d).1 hd)) (fun d hd => henc d ((hmem d).1 hd))
  have e1 : m.getBallotStyle b.styleId = .ok s := by rw [getBallotStyle_eq, hs]
  have e2 : s.objectId = b.styleId := by simpa using List.find?_some hs
  have hspec := makeBallot_spec (cseed := cseed) (now := now) hv hpq hK hn hds hcs
  have hval := hspec.valid hsorted hsome
  refine ⟨_, ?_, hval⟩
  unfold encryptBallot
  simp only [e1, e2, hds, hcs, bind, Except.bind, pure, Except.pure, PlaintextBallot.isValid, ne_eq, not_true,
    if_false, reduceCtorEq, hval]
  cases verify <;> rfl

/-- C30 Decrypting with the secret key of the election returns, for every contest of the ballot's style in order,
every described selection with the vote that was encrypted: the voter's mark, zero if absent or overvoted.  Proof
checks may be on or off. -/
theorem C30_secret_partial (hv : E.P.Valid) (hpq : (E.P.q - 1) * (E.P.q - 1) < E.P.p)
    (json : ContestData → Bytes) (b : PlaintextBallot) (m : InternalManifest) (ctx : Context)
    (cseed nonce secret maxE : Nat) (now : Int) (verify suppress : Bool) (enc : CBallot) (hmax : 1 ≤ maxE)
    (hkey : ctx.elgamalPublicKey = E.P.g ^ secret % E.P.p)
    (hn : ∀ d, m.StyleHas b.styleId d → d.numberElected < 1000000000 ∧ d.numberElected < E.P.q)
    (hsorted : m.contests.Pairwise (fun c d => c.sequenceOrder ≤ d.sequenceOrder))
    (hsome : ∃ d, m.StyleHas b.styleId d) (hids : m.UniqueIds)
    (h : encryptBallot E json b m ctx cseed nonce now verify = .ok (some enc)) :
    ∃ ds, m.getContestsFor b.styleId = .ok ds ∧
      decryptBallotWithSecret E maxE enc m ctx.cryptoExtendedBaseHash ctx.elgamalPublicKey secret suppress true
        = .ok (some ⟨b.objectId, b.styleId, ds.map (fun d => ⟨d.objectId, d.ballotSelections.map (fun sd =>
            ⟨sd.objectId, ((b.voted d.toContestDescription).effective d sd.objectId : Int), false, none⟩)⟩)⟩) := by
  have hK : isValidResidue E.P ctx.elgamalPublicKey = true := by
    rw [hkey]; exact gPowP_residue hv secret
  obtain ⟨ds, hs⟩ := encryptBallot_some hv hpq hK hn h
  refine ⟨ds, hs.style, ?_⟩
  rw [decryptBallotWithSecret_of_valid (hs.valid hsorted hsome)]
  simp only [bind, Except.bind, pure, Except.pure]
  rw [decryptContests_spec hids hs.styleContests.2 hs.contests (fun c d hd hh => ?_)]
  · simp [hs.id, hs.styleId]
  · obtain ⟨n, real, phs, fill, hh⟩ := hh
    rw [decryptContestWithSecret_of_valid hh.valid]
    simp only [bind, Except.bind, pure, Except.pure]
    rw [decryptSelections_spec (hids.2 d (hs.styleContests.2.subset hd)) hh (fun s sd v ph hsel => ?_)]
    · simp [hh.id]
    · unfold decryptSelectionWithSecret
      rw [if_neg (by rw [hsel.valid]; simp), hsel.holds.decrypt_secret hv hmax hkey]
      simp [bind, Except.bind, pure, Except.pure, hsel.holds.id, hsel.holds.flag]

/-- C30 Decrypting with the nonce, given again or kept on the ballot, returns the same votes. -/
theorem C30_nonce_partial (hv : E.P.Valid) (hpq : (E.P.q - 1) * (E.P.q - 1) < E.P.p)
    (json : ContestData → Bytes) (b : PlaintextBallot) (m : InternalManifest) (ctx : Context)
    (cseed nonce maxE : Nat) (now : Int) (verify suppress : Bool) (enc : CBallot) (hmax : 1 ≤ maxE)
    (hK : isValidResidue E.P ctx.elgamalPublicKey = true)
    (hn : ∀ d, m.StyleHas b.styleId d → d.numberElected < 1000000000 ∧ d.numberElected < E.P.q)
    (hsorted : m.contests.Pairwise (fun c d => c.sequenceOrder ≤ d.sequenceOrder))
    (hsome : ∃ d, m.StyleHas b.styleId d) (hids : m.UniqueIds)
    (h : encryptBallot E json b m ctx cseed nonce now verify = .ok (some enc))
    (given : Option Nat) (hgiven : given = none ∨ given = some nonce) :
    ∃ ds, m.getContestsFor b.styleId = .ok ds ∧
      decryptBallotWithNonce E maxE enc m ctx.cryptoExtendedBaseHash ctx.elgamalPublicKey given suppress true
        = .ok (some ⟨b.objectId, b.styleId, ds.map (fun d => ⟨d.objectId, d.ballotSelections.map (fun sd =>
            ⟨sd.objectId, ((b.voted d.toContestDescription).effective d sd.objectId : Int), false, none⟩)⟩)⟩) := by
  obtain ⟨ds, hs⟩ := encryptBallot_some hv hpq hK hn h
  refine ⟨ds, hs.style, ?_⟩
  rw [decryptBallotWithNonce_of_valid (sd := nonceSeed E m.manifestHash b.objectId nonce) (hs.valid hsorted hsome)
    (by
      rcases hgiven with rfl | rfl
      · simp [CBallot.hashedBallotNonce, hs.encNonce, hs.manifest, hs.id]
      · simp [hs.id])]
  simp only [bind, Except.bind, pure, Except.pure]
  rw [decryptContests_spec hids hs.styleContests.2 hs.contests (fun c d hd hh => ?_)]
  · simp [hs.id, hs.styleId]
  · obtain ⟨n, real, phs, fill, hh⟩ := hh
    rw [decryptContestWithNonce_of_valid hh.valid (by simp only [contestNonceFor, hh.nonce]; rfl) hh.encNonce]
    simp only [bind, Except.bind, pure, Except.pure]
    rw [decryptSelections_spec (hids.2 d (hs.styleContests.2.subset hd)) hh (fun s sd v ph hsel => ?_)]
    · simp [hh.id]
    · unfold decryptSelectionWithNonce
      obtain ⟨r, hr1, hr2⟩ := hsel.nonce
      rw [if_neg (by rw [hsel.valid]; simp)]
      simp only [bind, Except.bind, pure, Except.pure, selectionNonce, hr1, hr2]
      simp only [ne_eq, reduceCtorEq, not_false_eq_true, not_true, and_false, if_false]
      rw [hsel.holds.decrypt_nonce hv hmax hK hr2]
      simp [hsel.holds.id, hsel.holds.flag]

/-! ## Concrete instances and counterexamples -/

/-- The toy election with its contests listed against their sequence order: a valid manifest. -/
def toyReversed : Manifest := { toyManifest with contests := toyManifest.contests.reverse }

/-- The toy election with two votes allowed for one seat in the first contest: a valid manifest. -/
def toyTwoVotes : Manifest :=
  { toyManifest with contests := toyManifest.contests.map (fun c => { c with votesAllowed := some 2 }) }

/-- The internal manifest of a manifest that has one. -/
def toyInternal (m : Manifest) : InternalManifest :=
  match mkInternalManifest toyEnv m with
  | .ok m => m
  | .error _ => ⟨[], [], [], 0⟩

/-- The context of the toy election for another manifest. -/
def toyContextFor (m : InternalManifest) : Context := makeContext toyEnv 1 1 (16 ^ 5 % 157) 4 m.manifestHash

/-- The encryption of an empty ballot of style `t`. -/
def toyBlank (m : InternalManifest) : CBallot :=
  match encryptBallot toyEnv toyJson ⟨"b", "t", []⟩ m (toyContextFor m) 3 1 17 with
  | .ok (some b) => b
  | _ => toyNoBallot

private theorem toyReversed_some :
    (match encryptBallot toyEnv toyJson ⟨"b", "t", []⟩ (toyInternal toyReversed) (toyContextFor (toyInternal toyReversed))
      3 1 17 with | .ok (some _) => true | _ => false) = true := by
  decide +kernel

private theorem toyReversed_encrypts :
    encryptBallot toyEnv toyJson ⟨"b", "t", []⟩ (toyInternal toyReversed) (toyContextFor (toyInternal toyReversed)) 3 1 17
      = .ok (some (toyBlank (toyInternal toyReversed))) := by
  have h := toyReversed_some
  unfold toyBlank
  split at h
  · rename_i b hb
    rw [hb]
  · cases h

private theorem toyReversed_invalid :
    (toyBlank (toyInternal toyReversed)).isValidEncryption toyEnv (toyInternal toyReversed).manifestHash
      (toyContextFor (toyInternal toyReversed)).elgamalPublicKey
      (toyContextFor (toyInternal toyReversed)).cryptoExtendedBaseHash = .ok false := by
  decide +kernel

/-- C28 fails for a valid manifest whose contests are not listed in sequence order: the encrypted ballot does not
verify, because it is hashed with sorted contests and checked with unsorted ones. -/
theorem C28_contest_order_fails : ∃ (E : Env) (mm : Manifest) (m : InternalManifest) (ctx : Context)
    (json : ContestData → Bytes) (b : PlaintextBallot) (nonce : Nat) (enc : CBallot),
    E.P.Valid ∧ isValidResidue E.P ctx.elgamalPublicKey = true ∧
    mm.isValid = true ∧ mkInternalManifest E mm = .ok m ∧
    encryptBallot E json b m ctx 3 nonce 17 = .ok (some enc) ∧
    enc.isValidEncryption E m.manifestHash ctx.elgamalPublicKey ctx.cryptoExtendedBaseHash = .ok false :=
  ⟨toyEnv, toyReversed, toyInternal toyReversed, toyContextFor (toyInternal toyReversed), toyJson, ⟨"b", "t", []⟩, 1,
    toyBlank (toyInternal toyReversed), extraSmall_valid, by decide +kernel, by decide +kernel, by decide +kernel,
    toyReversed_encrypts, toyReversed_invalid⟩

/-- C28 fails for a contest that allows more votes than seats and is fully voted: the ballot is refused, whatever
the nonce. -/
theorem C28_votes_allowed_fails : ∃ (mm : Manifest) (b : PlaintextBallot), mm.isValid = true ∧
    (∀ c ∈ b.contests, ∀ d ∈ mm.contests, c.objectId = d.objectId → c.isValid d.objectId
      d.ballotSelections.length d.numberElected d.votesAllowed = true) ∧
    ∀ (nonce : Nat) (now : Int), ∃ m, mkInternalManifest toyEnv mm = .ok m ∧
      encryptBallot toyEnv toyJson b m (toyContextFor m) 3 nonce now = .ok none := by
  refine ⟨toyTwoVotes, ⟨"b", "t", [⟨"c", [⟨"sx", 1, false, none⟩]⟩]⟩, by decide +kernel, by decide +kernel, ?_⟩
  intro nonce now
  refine ⟨toyInternal toyTwoVotes, by decide +kernel, ?_⟩
  have hstyle : (toyInternal toyTwoVotes).getBallotStyle "t" = .ok ⟨"t", some ["u", "w"], none, none⟩ := by
    decide +kernel
  have hds : (toyInternal toyTwoVotes).getContestsFor "t" = .ok (toyInternal toyTwoVotes).contests := by decide +kernel
  have hfirst : (toyInternal toyTwoVotes).contests.head?.map (fun d => contestDataError
      (((⟨"b", "t", [⟨"c", [⟨"sx", 1, false, none⟩]⟩]⟩ : PlaintextBallot).voted d.toContestDescription).valid d))
      = some none := by decide +kernel
  unfold encryptBallot
  simp only [hstyle, hds, bind, Except.bind, pure, Except.pure]
  cases hcs : (toyInternal toyTwoVotes).contests with
  | nil => rw [hcs] at hfirst; cases hfirst
  | cons d ds =>
    rw [hcs] at hfirst
    simp only [List.head?_cons, Option.map_some, Option.some.injEq] at hfirst
    have hnone : ∀ key base seed, encryptContests toyEnv toyJson ⟨"b", "t", [⟨"c", [⟨"sx", 1, false, none⟩]⟩]⟩ key base
        seed false (d :: ds) = .ok none := by
      intro key base seed
      rw [encryptContests_cons]
      have : encryptContest toyEnv toyJson ((⟨"b", "t", [⟨"c", [⟨"sx", 1, false, none⟩]⟩]⟩ : PlaintextBallot).voted
          d.toContestDescription) d key base seed false = .ok none := by
        unfold encryptContest
        rw [hfirst]
      rw [this]
      rfl
    rw [hnone]
    rfl

/-- C28 fails for contest data of more than 510 bytes, for example with long write-ins: encryption raises. -/
theorem C28_long_data_fails (json : ContestData → Bytes) (c : PlaintextContest) (d : ContestWithPlaceholders)
    (key baseHash seed : Nat) (verify : Bool) (hlong : ∀ err ids, 510 < (json ⟨err, ids, c.writeIns⟩).length) (enc : CContest) :
    encryptContest E json c d key baseHash seed verify ≠ .ok (some enc) := by
  intro h
  unfold encryptContest at h
  cases hcd : contestDataError (c.valid d) with
  | none => rw [hcd] at h; cases h
  | some x =>
    obtain ⟨err, data⟩ := x
    have hb : (ContestData.mk err data c.writeIns).toBytes json = .error .truncation :=
      C20_too_long_raises _ 512 (by have := hlong err data; omega)
    rw [hcd] at h
    simp only [bind, Except.bind, pure, Except.pure, hb] at h
    repeat' split at h
    all_goals cases h

private theorem toy_contests : toyIM.getContestsFor "t" = .ok toyIM.contests := by decide +kernel

/-- The hypotheses of C28 hold for a ballot of the toy election. -/
example : ∀ d ∈ toyIM.contests, Encryptable toyEnv toyJson
    ((⟨"b", "t", [⟨"c", [⟨"sx", 1, false, none⟩]⟩]⟩ : PlaintextBallot).voted d.toContestDescription) d
    (nonceSeed toyEnv toyIM.manifestHash "b" 7) := by
  intro d hd
  have h1 : ∀ d ∈ toyIM.contests, d.isValid = true ∧ 0 ≤ d.sequenceOrder ∧ d.ballotSelections ++ d.placeholders ≠ [] ∧
      ∀ sd ∈ d.ballotSelections ++ d.placeholders, 0 ≤ sd.sequenceOrder := by decide +kernel
  have h2 : ∀ d ∈ toyIM.contests,
      let c := (⟨"b", "t", [⟨"c", [⟨"sx", 1, false, none⟩]⟩]⟩ : PlaintextBallot).voted d.toContestDescription
      c.objectId = d.objectId ∧ c.ballotSelections.length ≤ d.ballotSelections.length ∧
      (∀ s ∈ c.ballotSelections, ∃ sd ∈ d.ballotSelections, sd.objectId = s.objectId) ∧
      (c.chosen = d.numberElected → 0 < c.chosen → ∀ v ∈ d.votesAllowed, v ≤ c.chosen ∨ v < c.voteSum) ∧
      (∀ s ∈ c.ballotSelections, s.vote = 0 ∨ s.vote = 1) := by decide +kernel
  have h3 : ∀ d ∈ toyIM.contests, ∀ sd ∈ d.ballotSelections ++ d.placeholders,
      nonce toyEnv (sd.cryptoHash toyEnv) [.elem (nonce toyEnv (d.cryptoHash toyEnv)
        [.elem (nonceSeed toyEnv toyIM.manifestHash "b" 7)] d.sequenceOrder.toNat)] sd.sequenceOrder.toNat ≠ 0 ∧
      nonce toyEnv (nonce toyEnv (sd.cryptoHash toyEnv) [.elem (nonce toyEnv (d.cryptoHash toyEnv)
        [.elem (nonceSeed toyEnv toyIM.manifestHash "b" 7)] d.sequenceOrder.toNat)] 0) disjHeader 0 ≠ 0 := by
    decide +kernel
  obtain ⟨a1, a2, a3, a4, a5⟩ := h2 d hd
  exact ⟨⟨a1, a2, (h1 d hd).1, a3⟩, fun e1 e2 v hv => a4 e1 e2 v hv, fun _ => a5, (h1 d hd).2.2.1, (h1 d hd).2.1,
    (h1 d hd).2.2.2, h3 d hd, fun _ _ => by simp [toyJson], fun _ => by simp [toyJson]⟩

/-- The internal manifest of the toy election meets the hypotheses of C28 and C30. -/
example : toyIM.UniqueIds ∧ toyIM.contests.Pairwise (fun c d => c.sequenceOrder ≤ d.sequenceOrder) :=
  ⟨⟨by decide +kernel, by decide +kernel⟩, by decide +kernel⟩

/-- A ballot that votes for `sy` and leaves the second contest blank, decrypted with the secret key 5. -/
example : ((decryptBallotWithSecret toyEnv 10 (toyEncrypt "b" "t" 0 1 0 3) toyIM toyCtx.cryptoExtendedBaseHash
    toyCtx.elgamalPublicKey 5 false true).map (fun o => o.map (fun b => b.contests.map (fun c =>
      c.ballotSelections.map (fun s => (s.objectId, s.vote)))))) =
    .ok (some [[("sx", 0), ("sy", 1)], [("sz", 0)]]) := by
  decide +kernel

end EG
