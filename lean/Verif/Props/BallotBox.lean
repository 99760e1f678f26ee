import Verif.Lemmas.Dict
import Verif.Lemmas.Submit
import Verif.Spec.ToyElection

/-!
# C33 and C34: the ballot box and submitted ballots
-/

namespace EG

/-- A submission of a ballot: `cast` and `spoil` are the two states offered by `BallotBox`. -/
structure BoxOp where
  ballot : CBallot
  state : BallotBoxState

/-- The store after a sequence of submissions. -/
def runBox (E : Env) (m : InternalManifest) (ctx : Context) : Store SBallot → List BoxOp → Store SBallot
  | store, [] => store
  | store, op :: ops => runBox E m ctx (submitBallotToBox E op.ballot op.state m ctx store).2 ops

/-- C33: a call that does not return a ballot leaves the store unchanged. -/
theorem C33_rejected_changes_nothing (E : Env) (b : CBallot) (st : BallotBoxState) (m : InternalManifest)
    (ctx : Context) (store : Store SBallot)
    (h : ∀ sb, (submitBallotToBox E b st m ctx store).1 ≠ .ok (some sb)) :
    (submitBallotToBox E b st m ctx store).2 = store := by
  unfold submitBallotToBox at h ⊢
  cases hv : ballotIsValidForElection E b m ctx true with
  | error e => rfl
  | ok r =>
    cases r with
    | false => rfl
    | true =>
      cases hg : store.get b.objectId with
      | some x => simp only
      | none =>
        simp only [hv, hg] at h
        exfalso
        refine h (submitBallot E b st) ?_
        show Except.ok (dget (dset store _ _) _) = _
        rw [dget_dset, if_pos rfl]

/-- C33: a call that returns a ballot was given a valid ballot with an id that was not stored; it stores and
returns this ballot in the requested state, and changes no other entry. -/
theorem C33_accepted (E : Env) (b : CBallot) (st : BallotBoxState) (m : InternalManifest) (ctx : Context)
    (store : Store SBallot) (sb : SBallot) (h : (submitBallotToBox E b st m ctx store).1 = .ok (some sb)) :
    ballotIsValidForElection E b m ctx true = .ok true ∧ store.get b.objectId = none ∧
      sb = submitBallot E b st ∧ sb.objectId = b.objectId ∧ sb.state = st ∧
      (submitBallotToBox E b st m ctx store).2.get b.objectId = some sb ∧
      ∀ id, id ≠ b.objectId → (submitBallotToBox E b st m ctx store).2.get id = store.get id := by
  unfold submitBallotToBox at h ⊢
  cases hv : ballotIsValidForElection E b m ctx true with
  | error e => rw [hv] at h; cases h
  | ok r =>
    cases r with
    | false => rw [hv] at h; cases h
    | true =>
      cases hg : store.get b.objectId with
      | some x => simp only [hv, hg] at h; cases h
      | none =>
        simp only [hv, hg] at h ⊢
        have hs : sb = submitBallot E b st := by
          have h' : Except.ok (dget (dset store (submitBallot E b st).objectId (submitBallot E b st)) _)
            = (Except.ok (some sb) : R _) := h
          rw [dget_dset, if_pos rfl] at h'
          cases h'; rfl
        subst hs
        refine ⟨trivial, trivial, rfl, rfl, rfl, ?_, fun id hid => ?_⟩
        · show dget (dset store b.objectId _) _ = _
          rw [dget_dset, if_pos rfl]
        · show dget (dset store _ _) _ = _
          rw [dget_dset, if_neg (fun h => hid h.symm)]; rfl

/-- C33: exactly the valid ballots with a new id are accepted. -/
theorem C33_accepts_iff (E : Env) (b : CBallot) (st : BallotBoxState) (m : InternalManifest) (ctx : Context)
    (store : Store SBallot) :
    (∃ sb, (submitBallotToBox E b st m ctx store).1 = .ok (some sb)) ↔
      ballotIsValidForElection E b m ctx true = .ok true ∧ store.get b.objectId = none := by
  constructor
  · rintro ⟨sb, h⟩
    have := C33_accepted E b st m ctx store sb h
    exact ⟨this.1, this.2.1⟩
  · rintro ⟨h1, h2⟩
    refine ⟨submitBallot E b st, ?_⟩
    unfold submitBallotToBox
    simp only [h1, h2]
    show Except.ok (dget (dset store _ _) _) = _
    rw [dget_dset, if_pos rfl]

private theorem step_keeps (E : Env) (m : InternalManifest) (ctx : Context) (store : Store SBallot) (op : BoxOp)
    (id : String) (sb : SBallot) (h : store.get id = some sb) :
    (submitBallotToBox E op.ballot op.state m ctx store).2.get id = some sb := by
  by_cases hr : ∃ x, (submitBallotToBox E op.ballot op.state m ctx store).1 = .ok (some x)
  · obtain ⟨x, hx⟩ := hr
    obtain ⟨-, h2, -, -, -, -, h7⟩ := C33_accepted _ _ _ _ _ _ _ hx
    rw [h7 id (by rintro rfl; rw [h2] at h; cases h), h]
  · rw [C33_rejected_changes_nothing E _ _ m ctx store (fun x hx => hr ⟨x, hx⟩), h]

/-- C33: a stored ballot, including its state, is the same after any further submissions. -/
theorem C33_never_changes (E : Env) (m : InternalManifest) (ctx : Context) (ops : List BoxOp)
    (store : Store SBallot) (id : String) (sb : SBallot) (h : store.get id = some sb) :
    (runBox E m ctx store ops).get id = some sb := by
  induction ops generalizing store with
  | nil => exact h
  | cons op ops ih => exact ih _ (step_keeps E m ctx store op id sb h)

/-- C33: after a ballot was accepted and any further submissions, submitting a ballot with the same id is rejected
and changes nothing. -/
theorem C33_accepted_once (E : Env) (m : InternalManifest) (ctx : Context) (store : Store SBallot) (b b' : CBallot)
    (st st' : BallotBoxState) (sb : SBallot) (ops : List BoxOp)
    (h : (submitBallotToBox E b st m ctx store).1 = .ok (some sb)) (hid : b'.objectId = b.objectId) :
    let later := runBox E m ctx (submitBallotToBox E b st m ctx store).2 ops
    (∀ x, (submitBallotToBox E b' st' m ctx later).1 ≠ .ok (some x)) ∧
      (submitBallotToBox E b' st' m ctx later).2 = later := by
  have hs : (runBox E m ctx (submitBallotToBox E b st m ctx store).2 ops).get b'.objectId = some sb := by
    rw [hid]
    exact C33_never_changes E m ctx ops _ _ _ (C33_accepted _ _ _ _ _ _ _ h).2.2.2.2.2.1
  have hn : ∀ x, (submitBallotToBox E b' st' m ctx
      (runBox E m ctx (submitBallotToBox E b st m ctx store).2 ops)).1 ≠ .ok (some x) := by
    intro x hx
    have := (C33_accepted _ _ _ _ _ _ _ hx).2.1
    rw [hs] at this; cases this
  exact ⟨hn, C33_rejected_changes_nothing _ _ _ _ _ _ hn⟩

/-- C33: everything in the box is the submitted form, in the state asked for, of a ballot that was submitted and
passed validation, stored under its own id.  Partial: the stored ballot itself need not pass validation
(`C33_stored_invalid_fails`). -/
theorem C33_only_valid_partial (E : Env) (m : InternalManifest) (ctx : Context) (ops : List BoxOp) (id : String)
    (sb : SBallot) (h : (runBox E m ctx [] ops).get id = some sb) :
    ∃ op ∈ ops, op.ballot.objectId = id ∧ ballotIsValidForElection E op.ballot m ctx true = .ok true ∧
      sb = submitBallot E op.ballot op.state := by
  have gen : ∀ (ops : List BoxOp) (store : Store SBallot), (runBox E m ctx store ops).get id = some sb →
      store.get id = some sb ∨ ∃ op ∈ ops, op.ballot.objectId = id ∧
        ballotIsValidForElection E op.ballot m ctx true = .ok true ∧ sb = submitBallot E op.ballot op.state := by
    intro ops
    induction ops with
    | nil => intro store h; exact Or.inl h
    | cons op ops ih =>
      intro store h
      rcases ih _ h with h' | ⟨op', hm, h'⟩
      · by_cases hr : ∃ x, (submitBallotToBox E op.ballot op.state m ctx store).1 = .ok (some x)
        · obtain ⟨x, hx⟩ := hr
          obtain ⟨h1, h2, h3, -, -, h6, h7⟩ := C33_accepted _ _ _ _ _ _ _ hx
          by_cases hid : id = op.ballot.objectId
          · subst hid
            right
            rw [h6] at h'; cases h'
            exact ⟨op, List.mem_cons_self, rfl, h1, h3⟩
          · left; rw [← h7 id hid, h']
        · left
          rw [C33_rejected_changes_nothing E _ _ m ctx store (fun x hx => hr ⟨x, hx⟩)] at h'
          exact h'
      · exact Or.inr ⟨op', List.mem_cons_of_mem _ hm, h'⟩
  rcases gen ops [] h with h' | h'
  · cases h'
  · exact h'

/-- C33: casting and spoiling accept the same ballots, the valid ones with a new id; a cast ballot is stored as cast, a spoiled
ballot as spoiled. -/
theorem C33_cast_and_spoil (E : Env) (m : InternalManifest) (ctx : Context) (store : Store SBallot) (b : CBallot) :
    ((∃ sb, (boxCast E m ctx store b).1 = .ok (some sb)) ↔
      ballotIsValidForElection E b m ctx true = .ok true ∧ store.get b.objectId = none) ∧
    ((∃ sb, (boxSpoil E m ctx store b).1 = .ok (some sb)) ↔
      ballotIsValidForElection E b m ctx true = .ok true ∧ store.get b.objectId = none) ∧
    (∀ sb, (boxCast E m ctx store b).1 = .ok (some sb) → sb.state = .cast ∧ sb.objectId = b.objectId ∧
      (boxCast E m ctx store b).2.get b.objectId = some sb) ∧
    (∀ sb, (boxSpoil E m ctx store b).1 = .ok (some sb) → sb.state = .spoiled ∧ sb.objectId = b.objectId ∧
      (boxSpoil E m ctx store b).2.get b.objectId = some sb) := by
  refine ⟨C33_accepts_iff E b .cast m ctx store, C33_accepts_iff E b .spoiled m ctx store, fun sb h => ?_, fun sb h => ?_⟩
  · obtain ⟨-, -, -, h4, h5, h6, -⟩ := C33_accepted E b .cast m ctx store sb h
    exact ⟨h5, h4, h6⟩
  · obtain ⟨-, -, -, h4, h5, h6, -⟩ := C33_accepted E b .spoiled m ctx store sb h
    exact ⟨h5, h4, h6⟩

/-- C33: the listing by state returns exactly the stored ballots in this state. -/
theorem C33_get_ballots (store : Store SBallot) (st : Option BallotBoxState) (e : String × SBallot) :
    e ∈ getBallots store st ↔ e ∈ store ∧ ∀ s, st = some s → e.2.state = s := by
  unfold getBallots
  rw [List.mem_filter]
  cases st <;> simp

example :
    let b := toyEncrypt "b" "t" 1 0 1 0
    let r := boxCast toyEnv toyIM toyCtx [] b
    (r.1.toOption.map (fun o => o.map (fun sb => (sb.objectId, sb.state)))) = some (some ("b", .cast)) ∧
    r.2.len = 1 ∧
    (boxSpoil toyEnv toyIM toyCtx r.2 b).1.toOption.map Option.isSome = some false ∧
    ((boxSpoil toyEnv toyIM toyCtx r.2 b).2.get "b").map (·.state) = some .cast ∧
    (boxSpoil toyEnv toyIM toyCtx r.2 (toyEncrypt "b2" "s" 0 1 0 3)).2.len = 2 := by decide +kernel

/-- C34: the submitted ballot has the requested state, no nonces anywhere, and apart from the nonces and the
recomputed hash all data of the original, contest by contest and selection by selection. -/
theorem C34_content (E : Env) (b : CBallot) (st : BallotBoxState) :
    let sb := submitBallot E b st
    sb.state = st ∧ sb.nonce = none ∧
    sb.objectId = b.objectId ∧ sb.styleId = b.styleId ∧ sb.manifestHash = b.manifestHash ∧
    sb.codeSeed = b.codeSeed ∧ sb.code = b.code ∧ sb.timestamp = b.timestamp ∧
    List.Forall₂ (fun c c' : CContest => c'.nonce = none ∧ c'.objectId = c.objectId ∧
      c'.sequenceOrder = c.sequenceOrder ∧ c'.descriptionHash = c.descriptionHash ∧
      c'.ciphertextAccumulation = c.ciphertextAccumulation ∧ c'.cryptoHash = c.cryptoHash ∧ c'.proof = c.proof ∧
      c'.extendedData = c.extendedData ∧
      List.Forall₂ (fun s s' : CSelection => s'.nonce = none ∧ s'.objectId = s.objectId ∧
        s'.sequenceOrder = s.sequenceOrder ∧ s'.descriptionHash = s.descriptionHash ∧
        s'.ciphertext = s.ciphertext ∧ s'.cryptoHash = s.cryptoHash ∧ s'.isPlaceholder = s.isPlaceholder ∧
        s'.proof = s.proof) c.ballotSelections c'.ballotSelections) b.contests sb.contests := by
  refine ⟨rfl, rfl, rfl, rfl, rfl, rfl, rfl, rfl, ?_⟩
  show List.Forall₂ _ b.contests (b.contests.map CContest.stripNonces)
  rw [List.forall₂_map_right_iff]
  refine List.forall₂_same.2 (fun c _ => ⟨rfl, rfl, rfl, rfl, rfl, rfl, rfl, rfl, ?_⟩)
  show List.Forall₂ _ c.ballotSelections (c.ballotSelections.map _)
  rw [List.forall₂_map_right_iff]
  exact List.forall₂_same.2 (fun s _ => ⟨rfl, rfl, rfl, rfl, rfl, rfl, rfl, rfl⟩)

/-- C34: the hash of the submitted ballot is the hash `make_ciphertext_ballot` gives a ballot with the same id,
manifest and contests. -/
theorem C34_hash (E : Env) (b : CBallot) (st : BallotBoxState) :
    (submitBallot E b st).cryptoHash = createBallotHash E b.objectId b.manifestHash b.contests := rfl

/-- C34: submitting a valid ballot with its contests in sequence order gives a valid ballot.  Partial: without the
order the claim is false, see `C34_unsorted_fails`. -/
theorem C34_validity_partial (E : Env) (b : CBallot) (st : BallotBoxState) (m : InternalManifest) (ctx : Context)
    (hne : b.contests ≠ []) (hs : b.contests.Pairwise (fun c d => c.sequenceOrder ≤ d.sequenceOrder))
    (h : ballotIsValidForElection E b m ctx true = .ok true) :
    ballotIsValidForElection E (submitBallot E b st).toCBallot m ctx true = .ok true := by
  obtain ⟨h1, h2⟩ := ballotIsValidForElection_true E b m ctx true h
  have h2 := (CBallot.isValidEncryption_iff _ _ _ _ _).1 (h2 rfl)
  refine ballotIsValidForElection_of E _ m ctx true ?_ (fun _ => ?_)
  · rcases ballotIsValidForStyle_cases E b m with ⟨-, h'⟩ | ⟨-, r, h', hr⟩
    · rw [h'] at h1; cases h1
    · rw [h1] at h'; cases h'
      rcases ballotIsValidForStyle_cases E (submitBallot E b st).toCBallot m with ⟨h3, -⟩ | ⟨-, r', h4, hr'⟩
      · have hx : ballotIsValidForStyle E b m = .error .index := by
          rcases ballotIsValidForStyle_cases E b m with ⟨-, h'⟩ | ⟨⟨s, hs⟩, -⟩
          · exact h'
          · have : m.ballotStyles.find? (fun s => s.objectId == b.styleId) = none := h3
            rw [hs] at this; cases this
        rw [hx] at h1; cases h1
      · rw [h4]
        have hm := hr.1 rfl
        congr 1
        rw [hr']
        intro d hd
        obtain ⟨c, hc, hcm⟩ := hm d hd
        refine ⟨c.stripNonces, ?_, hcm.hash, ?_, ?_⟩
        · show (b.contests.map CContest.stripNonces).find? _ = _
          rw [List.find?_map]
          have : ((fun c : CContest => c.objectId == d.objectId) ∘ CContest.stripNonces)
              = (fun c : CContest => c.objectId == d.objectId) := rfl
          rw [this, hc]; rfl
        · rw [← hcm.count]; simp [CContest.stripNonces]
        · intro sd hsd
          obtain ⟨s, hs, hh⟩ := hcm.selections sd hsd
          refine ⟨{ s with nonce := none }, ?_, hh⟩
          show (c.ballotSelections.map _).find? _ = _
          rw [List.find?_map]
          have : ((fun s : CSelection => s.objectId == sd.objectId) ∘ (fun s : CSelection => { s with nonce := none }))
              = (fun s : CSelection => s.objectId == sd.objectId) := rfl
          rw [this, hs]; rfl
  · rw [submitBallot_valid_iff]
    left
    refine ⟨h2.1, hne, ?_, h2.2.2⟩
    unfold createBallotHash sequenceOrderSort
    rw [sortByInt_eq, keySort_of_sorted _ hs, h2.1]

example : let b := toyEncrypt "b" "t" 1 0 1 0
    b.contests ≠ [] ∧ b.contests.Pairwise (fun c d => c.sequenceOrder ≤ d.sequenceOrder) ∧
    ballotIsValidForElection toyEnv b toyIM toyCtx true = .ok true := by decide +kernel

/-- A valid ballot whose contests are not in sequence order. -/
def toyUnsorted : CBallot :=
  let b := toyEncrypt "b" "t" 1 0 1 0
  let b' := { b with contests := b.contests.reverse }
  { b' with cryptoHash := b'.cryptoHashWith toyEnv b'.manifestHash }

private theorem toyUnsorted_valid : ballotIsValidForElection toyEnv toyUnsorted toyIM toyCtx true = .ok true := by
  decide +kernel

private theorem toyUnsorted_submitted :
    ballotIsValidForElection toyEnv (submitBallot toyEnv toyUnsorted .cast).toCBallot toyIM toyCtx true = .ok false := by
  decide +kernel

/-- C34 fails for a ballot whose contests are not in sequence order: it is valid, but submitting it gives an
invalid ballot. -/
theorem C34_unsorted_fails : ∃ (E : Env) (b : CBallot) (m : InternalManifest) (ctx : Context),
    E.P.Valid ∧ ballotIsValidForElection E b m ctx true = .ok true ∧
    ballotIsValidForElection E (submitBallot E b .cast).toCBallot m ctx true = .ok false :=
  ⟨toyEnv, toyUnsorted, toyIM, toyCtx, extraSmall_valid, toyUnsorted_valid, toyUnsorted_submitted⟩

/-- C33 fails in this sense: the box can hold a ballot that is not valid. -/
theorem C33_stored_invalid_fails : ∃ (E : Env) (b : CBallot) (m : InternalManifest) (ctx : Context) (sb : SBallot),
    E.P.Valid ∧ (boxCast E m ctx [] b).1 = .ok (some sb) ∧ (boxCast E m ctx [] b).2.get b.objectId = some sb ∧
    ballotIsValidForElection E sb.toCBallot m ctx true = .ok false := by
  obtain ⟨E, b, m, ctx, hv, h1, h2⟩ := C34_unsorted_fails
  obtain ⟨sb, hsb⟩ := (C33_accepts_iff E b .cast m ctx []).2 ⟨h1, rfl⟩
  have h := C33_accepted E b .cast m ctx [] sb hsb
  refine ⟨E, b, m, ctx, sb, hv, hsb, h.2.2.2.2.2.1, ?_⟩
  rw [h.2.2.1, h2]

end EG
