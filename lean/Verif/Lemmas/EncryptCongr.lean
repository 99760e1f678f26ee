import Verif.Lemmas.EncryptBallot

/-!
# What encryption reads of a plaintext contest
-/

namespace EG

variable {E : Env}

/-- A selection reduced to its id and vote. -/
def PlaintextSelection.bare (s : PlaintextSelection) : PlaintextSelection := ⟨s.objectId, s.vote, false, none⟩

/-- A contest reduced to ids and votes. -/
def PlaintextContest.bare (c : PlaintextContest) : PlaintextContest := ⟨c.objectId, c.ballotSelections.map (·.bare)⟩

theorem totalSelected_bare (c : PlaintextContest) : c.bare.totalSelected = c.totalSelected := by
  unfold PlaintextContest.totalSelected PlaintextContest.bare
  rw [List.foldl_map]
  rfl

theorem totalVotes_bare (c : PlaintextContest) : c.bare.totalVotes = c.totalVotes := by
  unfold PlaintextContest.totalVotes PlaintextContest.bare
  rw [List.foldl_map]
  rfl

theorem selectedIds_bare (c : PlaintextContest) : c.bare.selectedIds = c.selectedIds := by
  unfold PlaintextContest.selectedIds PlaintextContest.bare
  rw [List.filter_map, List.map_map]
  rfl

theorem valid_bare (c : PlaintextContest) (d : ContestWithPlaceholders) : c.bare.valid d = c.valid d := by
  unfold PlaintextContest.valid
  rw [totalSelected_bare, totalVotes_bare, selectedIds_bare]
  have h1 : c.bare.objectId = c.objectId := rfl
  have h2 : c.bare.ballotSelections.length = c.ballotSelections.length := by simp [PlaintextContest.bare]
  have h3 : c.bare.ballotSelections.any (fun s => !decide (s.objectId ∈ d.ballotSelections.map (·.objectId)))
      = c.ballotSelections.any (fun s => !decide (s.objectId ∈ d.ballotSelections.map (·.objectId))) := by
    unfold PlaintextContest.bare
    rw [List.any_map]
    rfl
  rw [h1, h2, h3]

theorem encryptReal_bare (votes : List PlaintextSelection) (over : Bool) (key baseHash seed : Nat) (verify : Bool)
    (ds : List SelectionDescription) (count : Int) (acc : List CSelection) :
    encryptReal E (votes.map (·.bare)) over key baseHash seed verify ds count acc
      = encryptReal E votes over key baseHash seed verify ds count acc := by
  induction ds generalizing count acc with
  | nil => rfl
  | cons d ds ih =>
    unfold encryptReal
    rw [List.find?_map]
    have : ((fun s : PlaintextSelection => s.objectId == d.objectId && !over) ∘ fun x => x.bare)
        = (fun s : PlaintextSelection => s.objectId == d.objectId && !over) := rfl
    rw [this]
    simp only [ih]
    cases votes.find? (fun s => s.objectId == d.objectId && !over) with
    | none => rfl
    | some s => rfl

/-- An encrypted contest without its contest data. -/
def CContest.eraseData (c : CContest) : CContest := { c with extendedData := none }

theorem makeContest_erase {objectId : String} {o : Int} {dh : Nat} {ss : List CSelection} {key baseHash ps : Nat}
    {n : Int} {nonce : Option Nat} {x y : Option HashedCiphertext} {e e' : CContest}
    (h : makeContest E objectId o dh ss key baseHash ps n nonce x = .ok e)
    (h' : makeContest E objectId o dh ss key baseHash ps n nonce y = .ok e') : e.eraseData = e'.eraseData := by
  unfold makeContest at h h'
  simp only [bind, Except.bind, pure, Except.pure] at h h'
  cases ha : accumulateSelections E.P ss with
  | error _ => rw [ha] at h; cases h
  | ok acc =>
    rw [ha] at h h'
    cases h
    cases h'
    rfl

theorem bare_id {c c' : PlaintextContest} (hb : c.bare = c'.bare) : c.objectId = c'.objectId := by
  have : c.bare.objectId = c'.bare.objectId := by rw [hb]
  exact this

theorem encryptReal_congr {c c' : PlaintextContest} (hb : c.bare = c'.bare) (over : Bool) (key baseHash seed : Nat)
    (verify : Bool) (ds : List SelectionDescription) (count : Int) (acc : List CSelection) :
    encryptReal E c.ballotSelections over key baseHash seed verify ds count acc
      = encryptReal E c'.ballotSelections over key baseHash seed verify ds count acc := by
  have : c.bare.ballotSelections = c'.bare.ballotSelections := by rw [hb]
  have h : c.ballotSelections.map (·.bare) = c'.ballotSelections.map (·.bare) := this
  rw [← encryptReal_bare c.ballotSelections, h, encryptReal_bare]

theorem valid_congr {c c' : PlaintextContest} (hb : c.bare = c'.bare) (d : ContestWithPlaceholders) :
    c.valid d = c'.valid d := by
  rw [← valid_bare c, hb, valid_bare]

/-- Contests with the same ids, votes and write-ins are encrypted alike. -/
theorem encryptContest_congr {json : ContestData → Bytes} {c c' : PlaintextContest} (d : ContestWithPlaceholders)
    (key baseHash seed : Nat) (verify : Bool) (hb : c.bare = c'.bare) (hw : c.writeIns = c'.writeIns) :
    encryptContest E json c d key baseHash seed verify = encryptContest E json c' d key baseHash seed verify := by
  unfold encryptContest
  rw [valid_congr hb, hw, bare_id hb]
  simp only [encryptReal_congr hb]

/-- The steps of a successful encryption of a contest. -/
theorem encryptContest_steps {json : ContestData → Bytes} {c : PlaintextContest} {d : ContestWithPlaceholders}
    {key baseHash seed : Nat} {verify : Bool} {e : CContest}
    (h : encryptContest E json c d key baseHash seed verify = .ok (some e)) :
    ∃ err ids n pn ss count all bytes dn data, contestDataError (c.valid d) = some (err, ids) ∧
      nonceAt E (d.cryptoHash E) [.elem seed] d.sequenceOrder = .ok n ∧
      nonceAt E (d.cryptoHash E) [.elem seed] 0 = .ok pn ∧
      encryptReal E c.ballotSelections (decide (err = some ContestErrorType.overVote)) key baseHash n verify
        d.ballotSelections 0 [] = .ok (some (ss, count)) ∧
      encryptPlaceholders E d.numberElected key baseHash n verify d.placeholders count ss = .ok (some all) ∧
      makeContest E c.objectId d.sequenceOrder (d.cryptoHash E) all key baseHash pn d.numberElected (some n) (some data)
        = .ok e ∧
      ContestData.toBytes json ⟨err, ids, c.writeIns⟩ = .ok bytes ∧
      nonceAt E n [.str "constant-extended-data"] 0 = .ok dn ∧ hashedEncrypt E bytes dn key baseHash = .ok data ∧
      (e.isValidEncryption E (d.cryptoHash E) key baseHash = .ok true ∨ e.proof ≠ none) := by
  unfold encryptContest at h
  cases hc : contestDataError (c.valid d) with
  | none => rw [hc] at h; cases h
  | some x =>
    obtain ⟨err, ids⟩ := x
    rw [hc] at h
    simp only [bind, Except.bind, pure, Except.pure] at h
    cases hn : nonceAt E (d.cryptoHash E) [.elem seed] d.sequenceOrder with
    | error _ => rw [hn] at h; cases h
    | ok n =>
      rw [hn] at h
      simp only at h
      cases hp : nonceAt E (d.cryptoHash E) [.elem seed] 0 with
      | error _ => rw [hp] at h; cases h
      | ok pn =>
        rw [hp] at h
        simp only at h
        cases hr : encryptReal E c.ballotSelections (decide (err = some ContestErrorType.overVote)) key baseHash n verify
            d.ballotSelections 0 [] with
        | error _ => rw [hr] at h; cases h
        | ok o =>
          cases o with
          | none => rw [hr] at h; cases h
          | some r =>
            obtain ⟨ss, count⟩ := r
            rw [hr] at h
            simp only at h
            cases ha : encryptPlaceholders E d.numberElected key baseHash n verify d.placeholders count ss with
            | error _ => rw [ha] at h; cases h
            | ok o =>
              cases o with
              | none => rw [ha] at h; cases h
              | some all =>
                rw [ha] at h
                simp only at h
                cases hbts : ContestData.toBytes json ⟨err, ids, c.writeIns⟩ with
                | error _ => rw [hbts] at h; cases h
                | ok bytes =>
                  rw [hbts] at h
                  simp only at h
                  cases hdn : nonceAt E n [.str "constant-extended-data"] 0 with
                  | error _ => rw [hdn] at h; cases h
                  | ok dn =>
                    rw [hdn] at h
                    simp only at h
                    cases hd : hashedEncrypt E bytes dn key baseHash with
                    | error _ => rw [hd] at h; cases h
                    | ok data =>
                      rw [hd] at h
                      simp only at h
                      cases hm : makeContest E c.objectId d.sequenceOrder (d.cryptoHash E) all key baseHash pn
                          d.numberElected (some n) (some data) with
                      | error _ => rw [hm] at h; cases h
                      | ok enc =>
                        rw [hm] at h
                        simp only at h
                        have he : enc = e ∧ (enc.isValidEncryption E (d.cryptoHash E) key baseHash = .ok true ∨
                            enc.proof ≠ none) := by
                          split at h
                          · cases hv : CContest.isValidEncryption E enc (d.cryptoHash E) key baseHash with
                            | error _ => rw [hv] at h; cases h
                            | ok b =>
                              rw [hv] at h
                              cases b with
                              | false => cases h
                              | true => exact ⟨by simpa using h, Or.inl rfl⟩
                          · rename_i hif
                            refine ⟨by simpa using h, Or.inr (fun hc => hif ?_)⟩
                            simp [hc]
                        obtain ⟨rfl, he⟩ := he
                        exact ⟨err, ids, n, pn, ss, count, all, bytes, dn, data, rfl, rfl, rfl, hr, ha, hm, hbts, hdn, hd,
                          he⟩

/-- Contests with the same ids and votes: the encryptions agree but for the contest data. -/
theorem encryptContest_erase {json : ContestData → Bytes} {c c' : PlaintextContest} {d : ContestWithPlaceholders}
    {key baseHash seed : Nat} {verify : Bool} {e e' : CContest} (hb : c.bare = c'.bare)
    (h : encryptContest E json c d key baseHash seed verify = .ok (some e))
    (h' : encryptContest E json c' d key baseHash seed verify = .ok (some e')) : e.eraseData = e'.eraseData := by
  obtain ⟨err, ids, n, pn, ss, count, all, _, _, data, h1, h2, h3, h4, h5, h6, _⟩ := encryptContest_steps h
  obtain ⟨err', ids', n', pn', ss', count', all', _, _, data', g1, g2, g3, g4, g5, g6, _⟩ := encryptContest_steps h'
  rw [valid_congr hb, g1] at h1
  cases h1
  rw [g2] at h2
  cases h2
  rw [g3] at h3
  cases h3
  rw [encryptReal_congr hb, g4] at h4
  cases h4
  rw [g5] at h5
  cases h5
  rw [bare_id hb] at h6
  exact makeContest_erase h6 g6

/-- A selection that was encrypted and verified is the one encrypted without verification. -/
theorem encryptSelection_unverified {s : PlaintextSelection} {d : SelectionDescription} {key baseHash seed : Nat}
    {ph verify : Bool} {e : CSelection} (h : encryptSelection E s d key baseHash seed ph verify = .ok (some e)) :
    encryptSelection E s d key baseHash seed ph false = .ok (some e) := by
  cases verify with
  | false => exact h
  | true =>
    unfold encryptSelection at h ⊢
    split at h
    · cases h
    · rename_i hval
      rw [if_neg hval]
      simp only [bind, Except.bind, pure, Except.pure] at h ⊢
      cases hn : nonceAt E (d.cryptoHash E) [.elem seed] d.sequenceOrder with
      | error _ => rw [hn] at h; cases h
      | ok n =>
        rw [hn] at h
        simp only at h ⊢
        cases hp : nonceAt E (d.cryptoHash E) [.elem seed] 0 with
        | error _ => rw [hp] at h; cases h
        | ok pn =>
          rw [hp] at h
          simp only at h ⊢
          cases hc : elgamalEncrypt E.P s.vote.toNat n key with
          | none => rw [hc] at h; cases h
          | some ct =>
            rw [hc] at h
            simp only at h ⊢
            cases hm : makeSelection E s.objectId d.sequenceOrder (d.cryptoHash E) ct key baseHash pn s.vote ph
                (some n) with
            | error _ => rw [hm] at h; cases h
            | ok enc =>
              rw [hm] at h
              simp only at h ⊢
              split at h
              · cases h
              · rename_i hpf
                rw [if_neg hpf, if_pos trivial]
                rw [if_neg (by decide)] at h
                split at h
                · exact h
                · cases h

theorem encryptReal_unverified {votes : List PlaintextSelection} {over : Bool} {key baseHash seed : Nat} {verify : Bool}
    (ds : List SelectionDescription) (count : Int) (acc : List CSelection) {r : List CSelection × Int}
    (h : encryptReal E votes over key baseHash seed verify ds count acc = .ok (some r)) :
    encryptReal E votes over key baseHash seed false ds count acc = .ok (some r) := by
  induction ds generalizing count acc with
  | nil => exact h
  | cons d ds ih =>
    unfold encryptReal at h ⊢
    simp only [bind, Except.bind, pure, Except.pure] at h ⊢
    cases hf : votes.find? (fun s => s.objectId == d.objectId && !over) with
    | none =>
      rw [hf] at h
      simp only at h ⊢
      cases he : encryptSelection E (selectionFrom d) d key baseHash seed false verify with
      | error _ => rw [he] at h; cases h
      | ok o =>
        cases o with
        | none => rw [he] at h; cases h
        | some e =>
          rw [he] at h
          rw [encryptSelection_unverified he]
          exact ih _ _ h
    | some s =>
      rw [hf] at h
      simp only at h ⊢
      cases he : encryptSelection E s d key baseHash seed false verify with
      | error _ => rw [he] at h; cases h
      | ok o =>
        cases o with
        | none => rw [he] at h; cases h
        | some e =>
          rw [he] at h
          rw [encryptSelection_unverified he]
          exact ih _ _ h

theorem encryptPlaceholders_unverified {seats : Int} {key baseHash seed : Nat} {verify : Bool}
    (ds : List SelectionDescription) (count : Int) (acc : List CSelection) {r : List CSelection}
    (h : encryptPlaceholders E seats key baseHash seed verify ds count acc = .ok (some r)) :
    encryptPlaceholders E seats key baseHash seed false ds count acc = .ok (some r) := by
  induction ds generalizing count acc with
  | nil => exact h
  | cons d ds ih =>
    unfold encryptPlaceholders at h ⊢
    simp only [bind, Except.bind, pure, Except.pure] at h ⊢
    cases he : encryptSelection E (selectionFrom d true (decide (count < seats))) d key baseHash seed true verify with
    | error _ => rw [he] at h; cases h
    | ok o =>
      cases o with
      | none => rw [he] at h; cases h
      | some e =>
        rw [he] at h
        rw [encryptSelection_unverified he]
        exact ih _ _ h

/-- A contest that was encrypted and verified is the one encrypted without verification. -/
theorem encryptContest_unverified {json : ContestData → Bytes} {c : PlaintextContest} {d : ContestWithPlaceholders}
    {key baseHash seed : Nat} {verify : Bool} {e : CContest}
    (h : encryptContest E json c d key baseHash seed verify = .ok (some e)) :
    encryptContest E json c d key baseHash seed false = .ok (some e) := by
  obtain ⟨err, ids, n, pn, ss, count, all, bytes, dn, data, h1, h2, h3, h4, h5, h6, h7, h8, h9, h10⟩ :=
    encryptContest_steps h
  unfold encryptContest
  rw [h1]
  simp only [bind, Except.bind, pure, Except.pure, h2, h3, encryptReal_unverified _ _ _ h4,
    encryptPlaceholders_unverified _ _ _ h5, h7, h8, h9, h6, Bool.false_or]
  rcases h10 with h10 | h10
  · rw [h10]
    simp
  · simp [h10]

theorem encryptContests_unverified {json : ContestData → Bytes} {b : PlaintextBallot} {key baseHash seed : Nat}
    {verify : Bool} (ds : List ContestWithPlaceholders) {cs : List CContest}
    (h : encryptContests E json b key baseHash seed verify ds = .ok (some cs)) :
    encryptContests E json b key baseHash seed false ds = .ok (some cs) := by
  induction ds generalizing cs with
  | nil => exact h
  | cons d ds ih =>
    rw [encryptContests_cons] at h ⊢
    simp only [bind, Except.bind, pure, Except.pure] at h ⊢
    cases he : encryptContest E json (b.voted d.toContestDescription) d key baseHash seed verify with
    | error _ => rw [he] at h; cases h
    | ok o =>
      cases o with
      | none => rw [he] at h; cases h
      | some e =>
        rw [he] at h
        rw [encryptContest_unverified he]
        simp only at h ⊢
        cases hr : encryptContests E json b key baseHash seed verify ds with
        | error _ => rw [hr] at h; cases h
        | ok o =>
          cases o with
          | none => rw [hr] at h; cases h
          | some rest =>
            rw [hr] at h
            rw [ih hr]
            exact h

/-- Ballots whose contests agree in ids and votes, one by one. -/
def SameBare (b b' : PlaintextBallot) : Prop := b.contests.map (·.bare) = b'.contests.map (·.bare)

theorem find?_bare (l l' : List PlaintextContest) (h : l.map (·.bare) = l'.map (·.bare)) (i : String) :
    (l.find? (fun c => c.objectId == i)).map (·.bare) = (l'.find? (fun c => c.objectId == i)).map (·.bare) := by
  have key : ∀ l : List PlaintextContest, (l.find? (fun c => c.objectId == i)).map (·.bare)
      = (l.map (·.bare)).find? (fun c => c.objectId == i) := by
    intro l
    rw [List.find?_map]
    rfl
  rw [key, key, h]

theorem voted_bare {b b' : PlaintextBallot} (h : SameBare b b') (d : ContestDescription) :
    (b.voted d).bare = (b'.voted d).bare := by
  have := find?_bare _ _ h d.objectId
  unfold PlaintextBallot.voted
  cases h1 : b.contests.find? (fun c => c.objectId == d.objectId) with
  | none =>
    cases h2 : b'.contests.find? (fun c => c.objectId == d.objectId) with
    | none => rfl
    | some c' => rw [h1, h2] at this; cases this
  | some c =>
    cases h2 : b'.contests.find? (fun c => c.objectId == d.objectId) with
    | none => rw [h1, h2] at this; cases this
    | some c' => rw [h1, h2] at this; simpa using this

theorem encryptContests_erase {json : ContestData → Bytes} {b b' : PlaintextBallot} {key baseHash seed : Nat}
    {verify : Bool} (hb : SameBare b b') (ds : List ContestWithPlaceholders) {cs cs' : List CContest}
    (h : encryptContests E json b key baseHash seed verify ds = .ok (some cs))
    (h' : encryptContests E json b' key baseHash seed verify ds = .ok (some cs')) :
    cs.map (·.eraseData) = cs'.map (·.eraseData) := by
  induction ds generalizing cs cs' with
  | nil => cases h; cases h'; rfl
  | cons d ds ih =>
    rw [encryptContests_cons] at h h'
    simp only [bind, Except.bind, pure, Except.pure] at h h'
    cases he : encryptContest E json (b.voted d.toContestDescription) d key baseHash seed verify with
    | error _ => rw [he] at h; cases h
    | ok o =>
      cases o with
      | none => rw [he] at h; cases h
      | some e =>
        cases he' : encryptContest E json (b'.voted d.toContestDescription) d key baseHash seed verify with
        | error _ => rw [he'] at h'; cases h'
        | ok o =>
          cases o with
          | none => rw [he'] at h'; cases h'
          | some e' =>
            rw [he] at h
            rw [he'] at h'
            simp only at h h'
            cases hr : encryptContests E json b key baseHash seed verify ds with
            | error _ => rw [hr] at h; cases h
            | ok o =>
              cases o with
              | none => rw [hr] at h; cases h
              | some rest =>
                cases hr' : encryptContests E json b' key baseHash seed verify ds with
                | error _ => rw [hr'] at h'; cases h'
                | ok o =>
                  cases o with
                  | none => rw [hr'] at h'; cases h'
                  | some rest' =>
                    rw [hr] at h
                    rw [hr'] at h'
                    cases h
                    cases h'
                    rw [List.map_cons, List.map_cons, ih hr hr',
                      encryptContest_erase (voted_bare hb d.toContestDescription) he he']

/-- Ballots with the same votes and without write-ins are encrypted alike. -/
theorem encryptContests_congr {json : ContestData → Bytes} {b b' : PlaintextBallot} (key baseHash seed : Nat)
    (verify : Bool) (hb : SameBare b b') (hw : ∀ c ∈ b.contests, c.writeIns = none)
    (hw' : ∀ c ∈ b'.contests, c.writeIns = none) (ds : List ContestWithPlaceholders) :
    encryptContests E json b key baseHash seed verify ds = encryptContests E json b' key baseHash seed verify ds := by
  have hn : ∀ (b : PlaintextBallot) (d : ContestDescription), (∀ c ∈ b.contests, c.writeIns = none) →
      (b.voted d).writeIns = none := by
    intro b d h
    unfold PlaintextBallot.voted
    cases hf : b.contests.find? (fun c => c.objectId == d.objectId) with
    | some c => exact h c (List.mem_of_find?_eq_some hf)
    | none =>
      simp only [PlaintextContest.writeIns, List.foldl_map]
      have : ∀ (l : List SelectionDescription) (d : List (String × String)),
          l.foldl (fun x _ => x) d = d := by
        intro l
        induction l with
        | nil => intros; rfl
        | cons _ _ ih => intro d; exact ih d
      rw [this]
      rfl
  induction ds with
  | nil => rfl
  | cons d ds ih =>
    rw [encryptContests_cons, encryptContests_cons, ih,
      encryptContest_congr d key baseHash seed verify (voted_bare hb d.toContestDescription)
        (by rw [hn b _ hw, hn b' _ hw'])]

end EG
