import Verif.Lemmas.Encrypt
import Verif.Props.HashedElGamal
import Verif.Props.Bytes
import Verif.Lemmas.Sort

/-!
# Lemmas about the encryption of whole ballots
-/

namespace EG

variable {E : Env}

theorem encryptReal_ok (hv : E.P.Valid) {votes : List PlaintextSelection} {over : Bool} {key baseHash seed : Nat}
    {verify : Bool} (hK : isValidResidue E.P key = true) (ds : List SelectionDescription)
    (hb : over = false → ∀ s ∈ votes, s.vote = 0 ∨ s.vote = 1)
    (ho : ∀ sd ∈ ds, 0 ≤ sd.sequenceOrder)
    (hn : ∀ sd ∈ ds, nonce E (sd.cryptoHash E) [.elem seed] sd.sequenceOrder.toNat ≠ 0 ∧
      nonce E (nonce E (sd.cryptoHash E) [.elem seed] 0) disjHeader 0 ≠ 0) :
    ∀ (count : Int) (acc : List CSelection),
    ∃ r, encryptReal E votes over key baseHash seed verify ds count acc = .ok (some r) := by
  induction ds with
  | nil => intro count acc; exact ⟨_, rfl⟩
  | cons d ds ih =>
    intro count acc
    simp only [encryptReal, bind, Except.bind, pure, Except.pure]
    have ih := ih (fun sd h => ho sd (by simp [h])) (fun sd h => hn sd (by simp [h]))
    obtain ⟨n1, n2⟩ := hn d (by simp)
    cases hf : votes.find? (fun s => s.objectId == d.objectId && !over) with
    | none =>
      obtain ⟨e, he⟩ := encryptSelection_ok hv (s := selectionFrom d) (d := d) (baseHash := baseHash) (seed := seed)
        (ph := false) (verify := verify) hK rfl (.inl rfl) (ho d (by simp)) n1 (fun _ => n2)
      simp only [he]
      exact ih _ _
    | some s =>
      have h1 := List.find?_some hf
      simp only [Bool.and_eq_true, beq_iff_eq, Bool.not_eq_true'] at h1
      obtain ⟨e, he⟩ := encryptSelection_ok hv (s := s) (d := d) (baseHash := baseHash) (seed := seed)
        (ph := false) (verify := verify) hK h1.1 (hb h1.2 s (List.mem_of_find?_eq_some hf)) (ho d (by simp)) n1
        (fun _ => n2)
      simp only [he]
      exact ih _ _

theorem encryptPlaceholders_ok (hv : E.P.Valid) {seats : Int} {key baseHash seed : Nat} {verify : Bool}
    (hK : isValidResidue E.P key = true) (ds : List SelectionDescription)
    (ho : ∀ sd ∈ ds, 0 ≤ sd.sequenceOrder)
    (hn : ∀ sd ∈ ds, nonce E (sd.cryptoHash E) [.elem seed] sd.sequenceOrder.toNat ≠ 0 ∧
      nonce E (nonce E (sd.cryptoHash E) [.elem seed] 0) disjHeader 0 ≠ 0) :
    ∀ (count : Int) (acc : List CSelection),
    ∃ r, encryptPlaceholders E seats key baseHash seed verify ds count acc = .ok (some r) := by
  induction ds with
  | nil => intro count acc; exact ⟨_, rfl⟩
  | cons d ds ih =>
    intro count acc
    simp only [encryptPlaceholders, bind, Except.bind, pure, Except.pure]
    have ih := ih (fun sd h => ho sd (by simp [h])) (fun sd h => hn sd (by simp [h]))
    obtain ⟨n1, n2⟩ := hn d (by simp)
    have hvote : (selectionFrom d true (decide (count < seats))).vote = 0 ∨
        (selectionFrom d true (decide (count < seats))).vote = 1 := by
      unfold selectionFrom; cases decide (count < seats) <;> simp
    obtain ⟨e, he⟩ := encryptSelection_ok hv (s := selectionFrom d true (decide (count < seats))) (d := d)
      (baseHash := baseHash) (seed := seed) (ph := true) (verify := verify) hK rfl hvote (ho d (by simp)) n1
      (fun _ => n2)
    simp only [he]
    exact ih _ _

theorem hashedEncrypt_ok (hlen : HmacLen E) (m : Bytes) (r K seed : Nat) (hsmall : m.length < 2 ^ 29 - 31) :
    ∃ c, hashedEncrypt E m r K seed = .ok c := by
  obtain ⟨bs, -, -, -, -, -, -, h⟩ := hashedEncrypt_spec E hlen m r K seed hsmall
  exact ⟨_, h⟩

theorem contestDataError_fits {json : ContestData → Bytes} {c : PlaintextContest} {d : ContestWithPlaceholders} {seed : Nat}
    (h : Encryptable E json c d seed) {err : Option ContestErrorType} {data : Option (List String)}
    (hcd : contestDataError (c.valid d) = some (err, data)) : (json ⟨err, data, c.writeIns⟩).length ≤ 510 := by
  obtain ⟨hbel, hov⟩ := contestDataError_some hcd
  cases hval : c.valid d with
  | none =>
    rw [hval] at hcd
    cases hcd
    exact h.data hov.symm _
  | some e =>
    rw [hval] at hcd
    cases e with
    | default => cases hcd
    | nullVote => cases hcd; exact h.data hov.symm _
    | underVote => cases hcd; exact h.data hov.symm _
    | overVote ids =>
      cases hcd
      have := ((C55_classification_partial c d hbel).2.2.1 ids).1 hval
      rw [this.1]
      exact h.overData hov.symm

theorem encryptContest_ok (hv : E.P.Valid) (hpq : (E.P.q - 1) * (E.P.q - 1) < E.P.p) (hlen : HmacLen E)
    {json : ContestData → Bytes} {c : PlaintextContest} {d : ContestWithPlaceholders} {key baseHash seed : Nat}
    {verify : Bool} (hK : isValidResidue E.P key = true)
    (hn1 : d.numberElected < 1000000000) (hn2 : d.numberElected < E.P.q) (h : Encryptable E json c d seed) :
    ∃ enc, encryptContest E json c d key baseHash seed verify = .ok (some enc) := by
  have hcd : ∃ x, contestDataError (c.valid d) = some x := by
    obtain ⟨-, -, -, -, h5⟩ := C55_classification_partial c d h.belongs
    cases hval : c.valid d with
    | none => exact ⟨_, rfl⟩
    | some e =>
      cases e with
      | default =>
        obtain ⟨k1, k2, v, k3, k4, k5⟩ := h5.1 hval
        rcases h.allowed k2 k1 v k3 with h | h <;> omega
      | _ => exact ⟨_, rfl⟩
  obtain ⟨⟨err, data⟩, hcd⟩ := hcd
  obtain ⟨hbel, hov⟩ := contestDataError_some hcd
  obtain ⟨hlen', hok⟩ := ContestWithPlaceholders.isValid_placeholders hbel.valid
  unfold encryptContest
  rw [hcd]
  simp only [bind, Except.bind, pure, Except.pure, hov]
  rw [nonceAt_nonneg h.contestOrder, nonceAt_zero]
  simp only
  obtain ⟨⟨ss, count⟩, hr⟩ := encryptReal_ok hv (baseHash := baseHash) (verify := verify) hK d.ballotSelections h.binary
    (fun sd hs => h.orders sd (by simp [hs])) (fun sd hs => h.nonces sd (by simp [hs])) 0 []
  rw [hr]
  simp only
  obtain ⟨all, hp⟩ := encryptPlaceholders_ok hv (seats := d.numberElected) (baseHash := baseHash) (verify := verify) hK
    d.placeholders
    (fun sd hs => h.orders sd (by simp [hs])) (fun sd hs => h.nonces sd (by simp [hs])) count ss
  rw [hp]
  simp only
  obtain ⟨bytes, hby, hbl, -⟩ := C20_roundtrip (json ⟨err, data, c.writeIns⟩) 512 false
    (by have := contestDataError_fits h hcd; omega) (by omega)
  have hby' : (ContestData.mk err data c.writeIns).toBytes json = .ok bytes := hby
  rw [hby', nonceAt_zero]
  simp only
  obtain ⟨ext, hd⟩ := hashedEncrypt_ok hlen bytes (EG.nonce E (EG.nonce E (d.cryptoHash E) [.elem seed]
    d.sequenceOrder.toNat) [.str "constant-extended-data"] 0) key baseHash (by rw [hbl]; norm_num)
  rw [hd]
  simp only
  obtain ⟨real, e1, e2, e3⟩ := encryptReal_some hv hK _ _ _ _ _ hr
  obtain ⟨phs, e4, e5⟩ := encryptPlaceholders_some hv hK _ _ _ _ hp
  have hne : all ≠ [] := by
    intro hnil
    rw [hnil, e1] at e4
    simp only [List.nil_append] at e4
    have e4 := e4.symm
    rw [List.append_eq_nil_iff] at e4
    apply h.some
    rw [List.append_eq_nil_iff]
    refine ⟨List.length_eq_zero_iff.1 (by rw [← e3.length_eq, e4.1]; rfl), List.length_eq_zero_iff.1 ?_⟩
    have := e5.length_eq
    rw [e4.2, List.length_zip] at this
    simp [fillVotes] at this
    simp [this]
  cases hm : makeContest E c.objectId d.sequenceOrder (d.cryptoHash E) all key baseHash
      (EG.nonce E (d.cryptoHash E) [.elem seed] 0) d.numberElected (some (EG.nonce E (d.cryptoHash E) [.elem seed]
    d.sequenceOrder.toNat)) (some ext) with
  | error x =>
    exfalso
    obtain ⟨a, rest, rfl⟩ := List.exists_cons_of_ne_nil hne
    simp [makeContest, accumulateSelections, elgamalAdd, bind, Except.bind, pure, Except.pure] at hm
  | ok cc =>
    simp only
    obtain ⟨real, phs, fill, hspec⟩ := encryptContest_core hv hpq hK hn1 hn2 hbel (nonceAt_nonneg h.contestOrder _ _ _)
      hr hp hm
    rw [hspec.valid]
    exact ⟨cc, by split <;> rfl⟩

theorem encryptContests_cons (json : ContestData → Bytes) (b : PlaintextBallot) (key baseHash seed : Nat)
    (verify : Bool) (d : ContestWithPlaceholders) (ds : List ContestWithPlaceholders) :
    encryptContests E json b key baseHash seed verify (d :: ds) = (do
      let enc ← encryptContest E json (b.voted d.toContestDescription) d key baseHash seed verify
      match enc with
      | none => return none
      | some c =>
        let rest ← encryptContests E json b key baseHash seed verify ds
        match rest with
        | none => return none
        | some cs => return some (c :: cs)) := rfl

/-- The contests of the ballot's style, encrypted. -/
theorem encryptContests_some (hv : E.P.Valid) (hpq : (E.P.q - 1) * (E.P.q - 1) < E.P.p)
    {json : ContestData → Bytes} {b : PlaintextBallot} {key baseHash seed : Nat}
    {verify : Bool} (hK : isValidResidue E.P key = true) (ds : List ContestWithPlaceholders)
    (hn : ∀ d ∈ ds, d.numberElected < 1000000000 ∧ d.numberElected < E.P.q) :
    ∀ cs, encryptContests E json b key baseHash seed verify ds = .ok (some cs) →
    List.Forall₂ (fun c d => ∃ n real phs fill,
      ContestSpec E key baseHash seed (b.voted d.toContestDescription) d c n real phs fill) cs ds := by
  induction ds with
  | nil =>
    intro cs h
    simp only [encryptContests, Except.ok.injEq, Option.some.injEq] at h
    subst h; exact .nil
  | cons d ds ih =>
    intro cs h
    rw [encryptContests_cons] at h
    simp only [bind, Except.bind, pure, Except.pure] at h
    cases he : encryptContest E json (b.voted d.toContestDescription) d key baseHash seed verify with
    | error x => rw [he] at h; cases h
    | ok o =>
      rw [he] at h
      cases o with
      | none => cases h
      | some c =>
        simp only at h
        cases hr : encryptContests E json b key baseHash seed verify ds with
        | error x => rw [hr] at h; cases h
        | ok o =>
          rw [hr] at h
          cases o with
          | none => cases h
          | some rest =>
            simp only [Except.ok.injEq, Option.some.injEq] at h
            subst h
            exact .cons (encryptContest_some hv hpq hK (hn d (by simp)).1 (hn d (by simp)).2 he)
              (ih (fun d hd => hn d (by simp [hd])) rest hr)

theorem encryptContests_ok (hv : E.P.Valid) (hpq : (E.P.q - 1) * (E.P.q - 1) < E.P.p) (hlen : HmacLen E)
    {json : ContestData → Bytes} {b : PlaintextBallot} {key baseHash seed : Nat}
    {verify : Bool} (hK : isValidResidue E.P key = true) (ds : List ContestWithPlaceholders)
    (hn : ∀ d ∈ ds, d.numberElected < 1000000000 ∧ d.numberElected < E.P.q)
    (he : ∀ d ∈ ds, Encryptable E json (b.voted d.toContestDescription) d seed) :
    ∃ cs, encryptContests E json b key baseHash seed verify ds = .ok (some cs) := by
  induction ds with
  | nil => exact ⟨[], rfl⟩
  | cons d ds ih =>
    obtain ⟨cs, ih⟩ := ih (fun d hd => hn d (by simp [hd])) (fun d hd => he d (by simp [hd]))
    obtain ⟨c, hc⟩ := encryptContest_ok hv hpq hlen (baseHash := baseHash) (verify := verify) hK (hn d (by simp)).1
      (hn d (by simp)).2 (he d (by simp))
    refine ⟨c :: cs, ?_⟩
    rw [encryptContests_cons, hc, ih]
    rfl

/-- An encrypted ballot: its fields and its contests. -/
structure BallotSpec (E : Env) (b : PlaintextBallot) (m : InternalManifest) (ctx : Context) (cseed nonce : Nat)
    (now : Int) (ds : List ContestWithPlaceholders) (enc : CBallot) : Prop where
  style : m.getContestsFor b.styleId = .ok ds
  id : enc.objectId = b.objectId
  styleId : enc.styleId = b.styleId
  manifest : enc.manifestHash = m.manifestHash
  codeSeed : enc.codeSeed = cseed
  encNonce : enc.nonce = some nonce
  time : enc.timestamp = now
  hash : enc.cryptoHash = createBallotHash E b.objectId m.manifestHash enc.contests
  code : enc.code = getBallotCode E cseed now enc.cryptoHash
  contests : List.Forall₂ (fun c d => ∃ n real phs fill,
    ContestSpec E ctx.elgamalPublicKey ctx.cryptoExtendedBaseHash (nonceSeed E m.manifestHash b.objectId nonce)
      (b.voted d.toContestDescription) d c n real phs fill) enc.contests ds

theorem makeBallot_spec (hv : E.P.Valid) (hpq : (E.P.q - 1) * (E.P.q - 1) < E.P.p)
    {json : ContestData → Bytes} {b : PlaintextBallot} {m : InternalManifest} {ctx : Context} {cseed nonce : Nat}
    {now : Int} {verify : Bool} {ds : List ContestWithPlaceholders} {cs : List CContest}
    (hK : isValidResidue E.P ctx.elgamalPublicKey = true)
    (hn : ∀ d, m.StyleHas b.styleId d → d.numberElected < 1000000000 ∧ d.numberElected < E.P.q)
    (hds : m.getContestsFor b.styleId = .ok ds)
    (hc : encryptContests E json b ctx.elgamalPublicKey ctx.cryptoExtendedBaseHash
      (nonceSeed E m.manifestHash b.objectId nonce) verify ds = .ok (some cs)) :
    BallotSpec E b m ctx cseed nonce now ds
      (makeBallot E b.objectId b.styleId m.manifestHash (some cseed) cs (some nonce) none none now) := by
  have hmem : ∀ d, d ∈ ds ↔ m.StyleHas b.styleId d := by
    rcases getContestsFor_eq m b.styleId with ⟨-, hds'⟩ | ⟨ds', hds', hmem, -⟩
    · rw [hds'] at hds; cases hds
    · rw [hds'] at hds; cases hds; exact hmem
  exact ⟨hds, rfl, rfl, rfl, rfl, rfl, rfl, rfl, rfl,
    encryptContests_some hv hpq hK ds (fun d hd => hn d ((hmem d).1 hd)) cs hc⟩

theorem encryptBallot_some (hv : E.P.Valid) (hpq : (E.P.q - 1) * (E.P.q - 1) < E.P.p)
    {json : ContestData → Bytes} {b : PlaintextBallot} {m : InternalManifest} {ctx : Context} {cseed nonce : Nat}
    {now : Int} {verify : Bool} {enc : CBallot} (hK : isValidResidue E.P ctx.elgamalPublicKey = true)
    (hn : ∀ d, m.StyleHas b.styleId d → d.numberElected < 1000000000 ∧ d.numberElected < E.P.q)
    (h : encryptBallot E json b m ctx cseed nonce now verify = .ok (some enc)) :
    ∃ ds, BallotSpec E b m ctx cseed nonce now ds enc := by
  unfold encryptBallot at h
  simp only [bind, Except.bind, pure, Except.pure] at h
  cases hs : m.getBallotStyle b.styleId with
  | error x => rw [hs] at h; cases h
  | ok style =>
  rw [hs] at h
  simp only at h
  split at h
  · cases h
  rcases getContestsFor_eq m b.styleId with ⟨-, hds⟩ | ⟨ds, hds, hmem, -⟩
  · rw [hds] at h; cases h
  rw [hds] at h
  simp only at h
  cases hc : encryptContests E json b ctx.elgamalPublicKey ctx.cryptoExtendedBaseHash
      (nonceSeed E m.manifestHash b.objectId nonce) verify ds with
  | error x => rw [hc] at h; cases h
  | ok o =>
  rw [hc] at h
  cases o with
  | none => cases h
  | some cs =>
  simp only at h
  have henc : enc = makeBallot E b.objectId b.styleId m.manifestHash (some cseed) cs (some nonce) none none now := by
    split at h
    · simpa using h.symm
    · split at h
      · cases h
      · split at h
        · simpa using h.symm
        · cases h
  subst henc
  exact ⟨ds, makeBallot_spec hv hpq hK hn hds hc⟩

/-- The encrypted selections of a contest, with their descriptions and votes. -/
theorem ContestSpec.selections {key baseHash seed : Nat} {c : PlaintextContest} {d : ContestWithPlaceholders}
    {enc : CContest} {n : Nat} {real phs : List CSelection} {fill : List Nat}
    (h : ContestSpec E key baseHash seed c d enc n real phs fill) :
    ∀ s ∈ enc.ballotSelections, ∃ sd ∈ d.ballotSelections ++ d.placeholders, ∃ v ph, SelSpec E key baseHash n s sd v ph := by
  intro s hs
  rw [h.sels, List.mem_append] at hs
  rcases hs with hs | hs
  · obtain ⟨sd, hsd, hh⟩ := forall₂_left h.real hs
    exact ⟨sd, by simp [hsd], _, _, hh⟩
  · obtain ⟨x, hx, hh⟩ := forall₂_left h.phs hs
    exact ⟨x.1, by simp [(List.of_mem_zip hx).1], _, _, hh⟩

theorem BallotSpec.orders {b : PlaintextBallot} {m : InternalManifest} {ctx : Context} {cseed nonce : Nat} {now : Int}
    {ds : List ContestWithPlaceholders} {enc : CBallot} (h : BallotSpec E b m ctx cseed nonce now ds enc) :
    enc.contests.map CContest.sequenceOrder = ds.map (fun d => d.sequenceOrder) := by
  have := h.contests
  generalize enc.contests = cs at this
  clear h
  induction this with
  | nil => rfl
  | cons hh _ ih =>
    obtain ⟨n, real, phs, fill, hs⟩ := hh
    simp [hs.order, ih]

theorem BallotSpec.ids {b : PlaintextBallot} {m : InternalManifest} {ctx : Context} {cseed nonce : Nat} {now : Int}
    {ds : List ContestWithPlaceholders} {enc : CBallot} (h : BallotSpec E b m ctx cseed nonce now ds enc) :
    enc.contests.map CContest.objectId = ds.map (fun d => d.objectId) := by
  have := h.contests
  generalize enc.contests = cs at this
  clear h
  induction this with
  | nil => rfl
  | cons hh _ ih =>
    obtain ⟨n, real, phs, fill, hs⟩ := hh
    simp [hs.id, ih]

theorem BallotSpec.styleContests {b : PlaintextBallot} {m : InternalManifest} {ctx : Context} {cseed nonce : Nat}
    {now : Int} {ds : List ContestWithPlaceholders} {enc : CBallot}
    (h : BallotSpec E b m ctx cseed nonce now ds enc) :
    (∀ d, d ∈ ds ↔ m.StyleHas b.styleId d) ∧ ds.Sublist m.contests := by
  have hds := h.style
  rcases getContestsFor_eq m b.styleId with ⟨-, hds'⟩ | ⟨ds', hds', hmem, hsub, -⟩
  · rw [hds'] at hds; cases hds
  · rw [hds'] at hds; cases hds; exact ⟨hmem, hsub⟩

theorem BallotSpec.valid {b : PlaintextBallot} {m : InternalManifest} {ctx : Context} {cseed nonce : Nat} {now : Int}
    {ds : List ContestWithPlaceholders} {enc : CBallot} (h : BallotSpec E b m ctx cseed nonce now ds enc)
    (hsorted : m.contests.Pairwise (fun c d => c.sequenceOrder ≤ d.sequenceOrder))
    (hsome : ∃ d, m.StyleHas b.styleId d) :
    enc.isValidEncryption E m.manifestHash ctx.elgamalPublicKey ctx.cryptoExtendedBaseHash = .ok true := by
  obtain ⟨hmem, hsub⟩ := h.styleContests
  rw [CBallot.isValidEncryption_iff]
  refine ⟨h.manifest.symm, ?_, ?_⟩
  · rw [h.hash]
    have hne : enc.contests ≠ [] := by
      intro hnil
      have hcs := h.contests
      rw [hnil] at hcs
      obtain ⟨d, hd⟩ := hsome
      have := (hmem d).2 hd
      cases hcs
      cases this
    have hsort : enc.contests.Pairwise (fun c d => c.sequenceOrder ≤ d.sequenceOrder) := by
      have hp : (ds.map (fun d => d.sequenceOrder)).Pairwise (fun a b : Int => a ≤ b) :=
        List.pairwise_map.2 (hsorted.sublist hsub)
      rw [← h.orders] at hp
      exact List.pairwise_map.1 hp
    unfold createBallotHash CBallot.cryptoHashWith sequenceOrderSort
    rw [sortByInt_eq, keySort_of_sorted _ hsort, if_neg (by rw [List.length_eq_zero_iff]; exact hne), h.id]
  · intro c hc
    obtain ⟨d, hd, n, real, phs, fill, hs⟩ := forall₂_left h.contests hc
    refine ⟨?_, ?_⟩
    · intro s hss
      obtain ⟨sd, -, v, ph, hsel⟩ := hs.selections s hss
      rw [hsel.holds.hash]
      exact hsel.valid
    · rw [hs.hash]; exact hs.valid

end EG
