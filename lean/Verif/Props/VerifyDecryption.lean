import Verif.Spec.Verify
import Verif.Props.ShareProofs

/-!
# C57, C63: the decryption verifier
-/

namespace EG

variable {E : Env}

/-! ### What the verifier decides -/

theorem verifyLoop_true {α : Type} (f : α → R Bool) (l : List α) :
    verifyLoop f l = .ok true ↔ ∀ a ∈ l, f a = .ok true := by
  induction l with
  | nil => simp [verifyLoop]
  | cons a l ih =>
    unfold verifyLoop
    cases h : f a with
    | error e => simp [bind, Except.bind, h]
    | ok r =>
      cases r with
      | false => simp [bind, Except.bind, pure, Except.pure, h]
      | true => simp [bind, Except.bind, ih, h]

/-- If nothing fails other than by the exception `e`, and something does, the loop raises `e`. -/
theorem verifyLoop_error {α : Type} (f : α → R Bool) (e : Err) (l : List α)
    (h : ∀ a ∈ l, f a = .ok true ∨ f a = .error e) (h' : ∃ a ∈ l, f a = .error e) : verifyLoop f l = .error e := by
  induction l with
  | nil => simp at h'
  | cons a l ih =>
    unfold verifyLoop
    rcases h a List.mem_cons_self with ha | ha
    · simp only [ha, bind, Except.bind, Bool.true_eq_false, if_false]
      refine ih (fun b hb => h b (List.mem_cons_of_mem _ hb)) ?_
      obtain ⟨b, hb, hbe⟩ := h'
      rcases List.mem_cons.1 hb with rfl | hb
      · rw [ha] at hbe; cases hbe
      · exact ⟨b, hb, hbe⟩
    · simp [ha, bind, Except.bind]

/-- A share of a selection in a plaintext tally, with the ciphertext of the selection. -/
def PlaintextTally.HasShare (pt : PlaintextTally) (message : Ciphertext) (s : DecSelection) : Prop :=
  ∃ c ∈ pt.contests, ∃ x ∈ c.2.selections, x.2.message = message ∧ s ∈ x.2.shares

theorem verifyShare_true (keys : List (String × ElectionPublicKey)) (baseHash : Nat) (message : Ciphertext)
    (s : DecSelection) : verifyShare E keys baseHash message s = .ok true ↔
      ∃ k pf, dget keys s.guardianId = some k ∧ s.proof = some pf ∧
        pf.isValid E message k.key s.share baseHash = true := by
  unfold verifyShare
  cases dget keys s.guardianId with
  | none => simp
  | some k =>
    cases s.proof with
    | none => simp
    | some pf => simp

/-- C57 Success means exactly: every share in the plaintext tally names a guardian whose key is given and carries a proof that
is valid for the ciphertext, this key and the value of the share. -/
theorem C57_success_iff (pt : PlaintextTally) (keys : List (String × ElectionPublicKey)) (ctx : Context) :
    verifyDecryption E pt keys ctx = .ok true ↔ ∀ message s, pt.HasShare message s →
      ∃ k pf, dget keys s.guardianId = some k ∧ s.proof = some pf ∧
        pf.isValid E message k.key s.share ctx.cryptoExtendedBaseHash = true := by
  unfold verifyDecryption
  simp only [verifyLoop_true, verifyShare_true]
  constructor
  · rintro h message s ⟨c, hc, x, hx, rfl, hs⟩
    exact h c hc x hx s hs
  · intro h c hc x hx s hs
    exact h _ s ⟨c, hc, x, hx, rfl, hs⟩

theorem verifyLoop_cases {α : Type} (f : α → R Bool) (e : Err) (l : List α)
    (h : ∀ a ∈ l, f a = .ok true ∨ f a = .error e) : verifyLoop f l = .ok true ∨ verifyLoop f l = .error e := by
  by_cases h' : ∃ a ∈ l, f a = .error e
  · exact Or.inr (verifyLoop_error f e l h h')
  · refine Or.inl ((verifyLoop_true f l).2 fun a ha => ?_)
    rcases h a ha with h1 | h1
    · exact h1
    · exact absurd ⟨a, ha, h1⟩ h'

/-- C57 does not hold once a share was reconstructed: if all shares are in order except that some have recovered parts in
place of a proof, the verifier raises `AttributeError`. -/
theorem C57_reconstructed_fails (pt : PlaintextTally) (keys : List (String × ElectionPublicKey)) (ctx : Context)
    (h : ∀ message s, pt.HasShare message s → s.proof = none ∨ ∃ k pf, dget keys s.guardianId = some k ∧
      s.proof = some pf ∧ pf.isValid E message k.key s.share ctx.cryptoExtendedBaseHash = true)
    (h' : ∃ message s, pt.HasShare message s ∧ s.proof = none) :
    verifyDecryption E pt keys ctx = .error .attribute := by
  have hshare : ∀ message s, pt.HasShare message s →
      verifyShare E keys ctx.cryptoExtendedBaseHash message s = .ok true ∨
      verifyShare E keys ctx.cryptoExtendedBaseHash message s = .error .attribute := by
    intro message s hs
    rcases h message s hs with hp | hp
    · right
      unfold verifyShare
      rw [hp]
      cases dget keys s.guardianId <;> rfl
    · exact Or.inl ((verifyShare_true _ _ _ _).2 hp)
  obtain ⟨message, s, ⟨c, hc, x, hx, rfl, hs⟩, hp⟩ := h'
  unfold verifyDecryption
  have hsel : ∀ c ∈ pt.contests, ∀ x ∈ c.2.selections,
      verifyLoop (verifyShare E keys ctx.cryptoExtendedBaseHash x.2.message) x.2.shares = .ok true ∨
      verifyLoop (verifyShare E keys ctx.cryptoExtendedBaseHash x.2.message) x.2.shares = .error .attribute :=
    fun c hc x hx => verifyLoop_cases _ _ _ (fun s hs => hshare _ s ⟨c, hc, x, hx, rfl, hs⟩)
  refine verifyLoop_error _ _ _ (fun c hc => verifyLoop_cases _ _ _ (hsel c hc)) ⟨c, hc, ?_⟩
  refine verifyLoop_error _ _ _ (hsel c hc) ⟨x, hx, ?_⟩
  refine verifyLoop_error _ _ _ (fun s hs => hshare _ s ⟨c, hc, x, hx, rfl, hs⟩) ⟨s, hs, ?_⟩
  unfold verifyShare
  rw [hp]
  cases dget keys s.guardianId <;> rfl

/-! ### Tallies that the mediator returns -/

theorem getShares_origin (sid : String) (shares : List (String × DecShare)) (e : String × (Nat × DecSelection))
    (he : e ∈ getSharesForSelection sid shares) :
    ∃ sh ∈ shares, ∃ x ∈ sh.2.allSelections, x.objectId = sid ∧ e = (sh.2.guardianId, (sh.2.publicKey, x)) := by
  have inner : ∀ (sh : DecShare) (l : List DecSelection) (d : List (String × (Nat × DecSelection))),
      e ∈ l.foldl (fun d s => if s.objectId = sid then dset d sh.guardianId (sh.publicKey, s) else d) d →
      e ∈ d ∨ ∃ x ∈ l, x.objectId = sid ∧ e = (sh.guardianId, (sh.publicKey, x)) := by
    intro sh l
    induction l with
    | nil => exact fun d h => Or.inl h
    | cons a l ih =>
      intro d h
      rw [List.foldl_cons] at h
      rcases ih _ h with h | ⟨x, hx, h1, h2⟩
      · split at h
        · rename_i hid
          rcases mem_dset h with h | h
          · exact Or.inr ⟨a, List.mem_cons_self, hid, h⟩
          · exact Or.inl h
        · exact Or.inl h
      · exact Or.inr ⟨x, List.mem_cons_of_mem _ hx, h1, h2⟩
  have outer : ∀ (l : List (String × DecShare)) (d : List (String × (Nat × DecSelection))),
      e ∈ l.foldl (fun d sh => sharesFrom sid sh.2 d) d →
      e ∈ d ∨ ∃ sh ∈ l, ∃ x ∈ sh.2.allSelections, x.objectId = sid ∧ e = (sh.2.guardianId, (sh.2.publicKey, x)) := by
    intro l
    induction l with
    | nil => exact fun d h => Or.inl h
    | cons a l ih =>
      intro d h
      rw [List.foldl_cons] at h
      rcases ih _ h with h | ⟨sh, hsh, h1⟩
      · rw [sharesFrom_eq] at h
        rcases inner a.2 _ _ h with h | h
        · exact Or.inl h
        · exact Or.inr ⟨a, List.mem_cons_self, h⟩
      · exact Or.inr ⟨sh, List.mem_cons_of_mem _ hsh, h1⟩
  rcases outer shares [] he with h | h
  · cases h
  · exact h

/-- A selection of the result of a decryption with shares: it keeps the ciphertext, and its shares passed the check with
the keys inside the shares. -/
def Checked (E : Env) (shares : List (String × DecShare)) (baseHash : Nat) (s : PTSelection) : Prop :=
  ∀ d ∈ s.shares, ∃ sh ∈ shares, d ∈ sh.2.allSelections ∧ d.isValid E s.message sh.2.publicKey baseHash = true

theorem decryptSelection_checked {maxE : Nat} {s : CtSelection} {shares : List (String × DecShare)} {baseHash : Nat}
    {p : PTSelection}
    (h : decryptSelectionWithShares E maxE s (getSharesForSelection s.objectId shares) baseHash = .ok (some p)) :
    Checked E shares baseHash p := by
  unfold decryptSelectionWithShares at h
  split at h
  · cases h
  · rename_i hc
    simp only [true_and, Bool.not_eq_false] at hc
    rw [List.all_eq_true] at hc
    simp only [bind, Except.bind, pure, Except.pure] at h
    cases hd : divP E.P s.ciphertext.data
        (multPs E.P ((getSharesForSelection s.objectId shares).map (fun e => e.2.2.share))) with
    | error e => rw [hd] at h; cases h
    | ok v =>
      rw [hd] at h
      simp only at h
      cases hl : dlog E.P maxE v with
      | error e => rw [hl] at h; cases h
      | ok n =>
        rw [hl] at h
        simp only [Except.ok.injEq, Option.some.injEq] at h
        subst h
        intro d hd
        obtain ⟨e, he, rfl⟩ := List.mem_map.1 hd
        obtain ⟨sh, hsh, x, hx, -, rfl⟩ := getShares_origin _ _ _ he
        exact ⟨sh, hsh, hx, hc _ he⟩

theorem decryptSelectionsLoop_checked (maxE : Nat) (shares : List (String × DecShare)) (baseHash : Nat)
    (ids : List String) (rp : Bool) (l : List CtSelection) (d r : List (String × PTSelection))
    (h : decryptSelectionsLoop E maxE shares baseHash ids rp l d = .ok (some r))
    (hd : ∀ e ∈ d, Checked E shares baseHash e.2) : ∀ e ∈ r, Checked E shares baseHash e.2 := by
  induction l generalizing d with
  | nil =>
    simp only [decryptSelectionsLoop, Except.ok.injEq, Option.some.injEq] at h
    subst h; exact hd
  | cons s l ih =>
    unfold decryptSelectionsLoop at h
    split at h
    · exact ih _ h hd
    · simp only [bind, Except.bind, pure, Except.pure] at h
      cases hp : decryptSelectionWithShares E maxE s (getSharesForSelection s.objectId shares) baseHash with
      | error e => rw [hp] at h; cases h
      | ok o =>
        cases o with
        | none => rw [hp] at h; cases h
        | some p =>
          rw [hp] at h
          refine ih _ h (fun e he => ?_)
          rcases mem_dset he with rfl | he
          · exact decryptSelection_checked hp
          · exact hd e he

theorem decryptContestsLoop_checked (maxE : Nat) (shares : List (String × DecShare)) (baseHash : Nat)
    (m : Manifest) (rp : Bool) (cs : List CtContest) (d r : List (String × PTContest))
    (h : decryptContestsLoop E maxE shares baseHash m rp cs d = .ok (some r))
    (hd : ∀ c ∈ d, ∀ e ∈ c.2.selections, Checked E shares baseHash e.2) :
    ∀ c ∈ r, ∀ e ∈ c.2.selections, Checked E shares baseHash e.2 := by
  induction cs generalizing d with
  | nil =>
    simp only [decryptContestsLoop, Except.ok.injEq, Option.some.injEq] at h
    subst h; exact hd
  | cons c cs ih =>
    unfold decryptContestsLoop at h
    split at h
    · exact ih _ h hd
    · simp only [decryptContestWithShares, bind, Except.bind, pure, Except.pure] at h
      rename_i desc _
      cases hp : decryptSelectionsLoop E maxE shares baseHash (desc.ballotSelections.map (fun s => s.objectId)) rp
          c.selections [] with
      | error e => rw [hp] at h; cases h
      | ok o =>
        cases o with
        | none => rw [hp] at h; cases h
        | some x =>
          rw [hp] at h
          refine ih _ h (fun e he => ?_)
          rcases mem_dset he with rfl | he
          · exact decryptSelectionsLoop_checked _ _ _ _ _ _ _ _ hp (by simp)
          · exact hd e he

/-- The share is one that a guardian whose key is in `keys` computed itself: it has a proof for every selection. -/
def OwnShare (keys : List (String × ElectionPublicKey)) (sh : DecShare) : Prop :=
  ∀ x ∈ sh.allSelections, x.proof.isSome = true ∧ ∃ k, dget keys x.guardianId = some k ∧ k.key = sh.publicKey

theorem verify_own (maxE : Nat) (shares : List (String × DecShare)) (ctx : Context) (m : Manifest) (rp : Bool)
    (cs : List CtContest) (r : List (String × PTContest)) (id : String) (keys : List (String × ElectionPublicKey))
    (h : decryptContestsLoop E maxE shares ctx.cryptoExtendedBaseHash m rp cs [] = .ok (some r))
    (hown : ∀ sh ∈ shares, OwnShare keys sh.2) : verifyDecryption E ⟨id, r⟩ keys ctx = .ok true := by
  rw [C57_success_iff]
  rintro message s ⟨c, hc, x, hx, rfl, hs⟩
  obtain ⟨sh, hsh, hin, hval⟩ := decryptContestsLoop_checked maxE shares _ m rp cs [] r h (by simp) c hc x hx s hs
  obtain ⟨hp, k, hk, hkey⟩ := hown sh hsh s hin
  obtain ⟨pf, hpf⟩ := Option.isSome_iff_exists.1 hp
  refine ⟨k, pf, hk, hpf, ?_⟩
  unfold DecSelection.isValid at hval
  rw [hpf] at hval
  cases hr : s.recovered with
  | none => rw [hr] at hval; rw [hkey]; exact hval
  | some parts => rw [hr] at hval; cases hval

theorem collectById_mem {α : Type} (key : α → String) (xs : List (Option α)) (d r : List (String × α))
    (h : collectById key xs d = some r) : ∀ e ∈ r, e ∈ d ∨ some e.2 ∈ xs := by
  induction xs generalizing d with
  | nil =>
    simp only [collectById, Option.some.injEq] at h
    subst h; exact fun e he => Or.inl he
  | cons x xs ih =>
    cases x with
    | none => cases h
    | some x =>
      intro e he
      rcases ih _ h e he with h1 | h1
      · rcases mem_dset h1 with rfl | h1
        · exact Or.inr List.mem_cons_self
        · exact Or.inl h1
      · exact Or.inr (List.mem_cons_of_mem _ h1)

/-- A share that a guardian computes has proofs for all its selections, and names the guardian. -/
theorem shareForContests_own (up : Bool) (kp : ElectionKeyPair) (id : String) (cs : List CtContest) (ctx : Context)
    (seeds : Nat → Nat → Nat) (sh : DecShare) (h : shareForContests E up kp id cs ctx seeds = some sh)
    (keys : List (String × ElectionPublicKey)) (hk : ∃ k, dget keys kp.ownerId = some k ∧ k.key = kp.keyPair.pub) :
    OwnShare keys sh := by
  unfold shareForContests at h
  rw [Option.map_eq_some_iff] at h
  obtain ⟨r, hr, rfl⟩ := h
  intro x hx
  obtain ⟨c, hc, hx⟩ := List.mem_flatMap.1 hx
  obtain ⟨e, he, rfl⟩ := List.mem_map.1 hx
  rcases collectById_mem _ _ _ _ hr c hc with h1 | h1
  · cases h1
  · obtain ⟨⟨ct, i⟩, -, h2⟩ := List.mem_map.1 h1
    unfold shareForContest at h2
    rw [Option.map_eq_some_iff] at h2
    obtain ⟨d, hd, hc2⟩ := h2
    rw [← hc2] at he
    rcases collectById_mem _ _ _ _ hd e he with h3 | h3
    · cases h3
    · unfold schedule at h3
      split at h3
      · obtain ⟨⟨s, j⟩, -, h4⟩ := List.mem_map.1 h3
        unfold shareForSelection at h4
        simp only at h4
        split at h4
        · rw [Option.some.injEq] at h4
          rw [← h4]
          exact ⟨rfl, hk⟩
        · cases h4
      · cases h3

/-- A call of the mediator in which every announced share of the tally was computed by a guardian whose key is in `keys`, and
which does not reconstruct shares. -/
def OwnOp (E : Env) (t : Tally) (ctx : Context) (keys : List (String × ElectionPublicKey)) : DMOp → Prop
  | .announce _ sh _ => ∃ kp up seeds, computeTallyShare E up kp t ctx seeds = some sh ∧
      ∃ k, dget keys kp.ownerId = some k ∧ k.key = kp.keyPair.pub
  | .reconstructTally _ => False
  | _ => True

theorem run_own (t : Tally) (ctx : Context) (keys : List (String × ElectionPublicKey)) (ops : List DMOp)
    (h : ∀ op ∈ ops, OwnOp E t ctx keys op) : ∀ e ∈ (DM.run E.P ops).tallyShares, OwnShare keys e.2 := by
  induction ops using List.reverseRecOn with
  | nil => intro e he; cases he
  | append_singleton ops op ih =>
    have hi := ih (fun o ho => h o (List.mem_append_left _ ho))
    have hop := h op (by simp)
    rw [DM.run_concat]
    generalize DM.run E.P ops = s at hi
    cases op with
    | announce k sh bs =>
      simp only [DM.step]
      by_cases hk : k.ownerId ∈ dkeys s.available
      · rw [DM.announce_of_mem s k sh bs hk]; exact hi
      · rw [(DM.announce_fields s k sh bs hk).2.2.1]
        intro e he
        rcases mem_dset he with rfl | he
        · obtain ⟨kp, up, seeds, h1, h2⟩ := hop
          exact shareForContests_own up kp _ _ ctx seeds sh h1 keys h2
        · exact hi e he
    | announceMissing k =>
      simp only [DM.step]
      rw [(DM.announceMissing_fields s k).2.1]
      exact hi
    | validateMissing ks => exact hi
    | receiveTallyComp c => exact hi
    | receiveBallotComp cs => exact hi
    | reconstructTally t => exact hop.elim
    | reconstructBallots bs =>
      simp only [DM.step]
      rw [(DM.reconstructBallots_fields (P := E.P) s bs).2.2.1]
      exact hi

/-- C57 Every tally that the mediator returns after calls with shares that guardians computed themselves, none of them
reconstructed, is accepted by `verify_decryption`.  Missing for the full claim: reconstructed shares, for which the
verifier raises (`C57_reconstructed_fails`, `C57_missing_guardian_fails`). -/
theorem C57_accepts_partial (maxE : Nat) (t : Tally) (m : Manifest) (ctx : Context)
    (keys : List (String × ElectionPublicKey)) (ops : List DMOp) (h : ∀ op ∈ ops, OwnOp E t ctx keys op)
    (pt : PlaintextTally) (hpt : (DM.run E.P ops).plaintextTally E maxE ctx t m = .ok (some pt)) :
    verifyDecryption E pt keys ctx = .ok true := by
  have hown := run_own t ctx keys ops h
  generalize DM.run E.P ops = s at hown hpt
  unfold DM.plaintextTally at hpt
  split at hpt
  · cases hpt
  · simp only [decryptTally, bind, Except.bind, pure, Except.pure] at hpt
    cases hl : decryptContestsLoop E maxE s.tallyShares ctx.cryptoExtendedBaseHash m true t.toCts [] with
    | error e => rw [hl] at hpt; cases hpt
    | ok o =>
      rw [hl] at hpt
      cases o with
      | none => cases hpt
      | some r =>
        simp only [Option.map_some, Except.ok.injEq, Option.some.injEq] at hpt
        subst hpt
        exact verify_own maxE _ ctx m true _ r t.objectId keys hl hown

/-- C57 For all guardians together: the tally is decrypted, correct, and accepted. -/
theorem C57_all_present_partial (hv : E.P.Valid) (maxE : Nat) (kps : List ElectionKeyPair)
    (hk : ∀ kp ∈ kps, kp.keyPair.pub = E.P.g ^ kp.keyPair.secret % E.P.p)
    (hid : (kps.map (fun kp => kp.ownerId)).Nodup) (t : Tally) (m : Manifest) (ctx : Context)
    (hh : ctx.cryptoExtendedBaseHash < E.P.q) (seeds : ElectionKeyPair → Nat → Nat → Nat)
    (hdec : Decryptable E.P maxE (combinePublicKeys E.P (kps.map (fun kp => kp.keyPair.pub))) m t.toCts) :
    ∃ f : ElectionKeyPair → DecShare,
      (∀ kp ∈ kps, computeTallyShare E true kp t ctx (seeds kp) = some (f kp)) ∧
      ∃ pt, decryptTally E maxE t (kps.map (fun kp => (kp.ownerId, f kp))) ctx.cryptoExtendedBaseHash m
        = .ok (some pt) ∧
      pt.Correct E.P (combinePublicKeys E.P (kps.map (fun kp => kp.keyPair.pub))) m t.toCts ∧
      verifyDecryption E pt (kps.map (fun kp => (kp.ownerId, kp.share))) ctx = .ok true := by
  obtain ⟨f, h1, pt, h2, h3, h4⟩ := C14_tally hv maxE kps hk hid t m ctx hh seeds hdec
  refine ⟨f, h1, pt, h2, h4, ?_⟩
  simp only [decryptTally, bind, Except.bind, pure, Except.pure] at h2
  cases hl : decryptContestsLoop E maxE (kps.map (fun kp => (kp.ownerId, f kp))) ctx.cryptoExtendedBaseHash m true
      t.toCts [] with
  | error e => rw [hl] at h2; cases h2
  | ok o =>
    rw [hl] at h2
    cases o with
    | none => cases h2
    | some r =>
      simp only [Option.map_some, Except.ok.injEq, Option.some.injEq] at h2
      subst h2
      refine verify_own maxE _ ctx m true _ r t.objectId _ hl ?_
      intro sh hsh
      obtain ⟨kp, hkp, rfl⟩ := List.mem_map.1 hsh
      refine shareForContests_own true kp _ _ ctx (seeds kp) _ (h1 kp hkp) _ ⟨kp.share, ?_, rfl⟩
      refine dget_of_mem ?_ (List.mem_map.2 ⟨kp, hkp, rfl⟩)
      simpa only [dkeys, List.map_map, Function.comp_def] using hid

/-! ### Witnesses -/

/-- The verifier's answer for the tally decrypted after some calls. -/
def toyVerify (ops : List DMOp) : Option (R Bool) :=
  match (DM.run extraSmall (ops ++ [.reconstructTally (toyDTally "sz")])).plaintextTally toyEnv 12 toyDCtx
    (toyDTally "sz") toyManifest with
  | .ok (some pt) => some (verifyDecryption toyEnv pt (toyPairs.map (fun kp => (kp.ownerId, kp.share))) toyDCtx)
  | _ => none

/-- With all guardians present the decrypted tally is accepted. -/
example : toyVerify (toyCalls [toyPair "b" 2, toyPair "a" 1, toyPair "c" 3] [] []) = some (.ok true) := by
  decide +kernel

/-- C57 does not hold with a missing guardian: the quorum decrypts the tally correctly, and the verifier raises
`AttributeError` for it. -/
theorem C57_missing_guardian_fails :
    let ops := toyCalls [toyPair "b" 2, toyPair "a" 1] [toyPair "c" 3]
      [(toyPair "a" 1, toyPair "c" 3), (toyPair "b" 2, toyPair "c" 3)]
    toyDecrypt ops = some [("c", [("sx", 2), ("sy", 1)]), ("d", [("sz", 3)])] ∧
    toyVerify ops = some (.error .attribute) := by decide +kernel

/-! ### C63: what success does not mean -/

/-- C63 What success does mean: whenever a share of an accepted tally does not have the value `pad ^ secret` for the secret
key of the guardian it names, its proof hit the one challenge, fixed by the share, the ciphertext and the commitments, for
which this is possible.  Missing for the full claim: that there is a share of every guardian and that the number
reported follows from the shares, see `C63_any_numbers_fails`. -/
theorem C63_shares_partial (hv : E.P.Valid) (pt : PlaintextTally) (keys : List (String × ElectionPublicKey))
    (ctx : Context) (secret : String → Nat) (hk : ∀ i k, dget keys i = some k → k.key = E.P.g ^ secret i % E.P.p)
    (message : Ciphertext) (a b share : Nat) (i : String) (hwrong : share ≠ message.pad ^ secret i % E.P.p) :
    ∃ star, ∀ (E' : Env) (s : DecSelection) (pf : CPProof), E'.P = E.P →
      verifyDecryption E' pt keys ctx = .ok true → pt.HasShare message s → s.guardianId = i → s.share = share →
      s.proof = some pf → pf.a = a → pf.b = b →
      hashElems E' (cpHashArgs ctx.cryptoExtendedBaseHash message a b share) = star := by
  obtain ⟨star, hstar⟩ := C08_single_challenge E.P hv (secret i) share message hwrong a b
  refine ⟨star, ?_⟩
  rintro E' s pf hE h hs rfl rfl hpf ha hb
  rw [C57_success_iff] at h
  obtain ⟨k, pf', h1, h2, h3⟩ := h message s hs
  rw [hpf] at h2
  cases h2
  rw [hk _ k h1] at h3
  exact hstar E' _ pf hE ha hb h3

/-- The plaintext tally with other numbers, values and ids, and without some of the shares. -/
def PlaintextTally.alter (pt : PlaintextTally) (number value : String → Nat) (keep : DecSelection → Bool) :
    PlaintextTally := { pt with
  contests := pt.contests.map (fun c => (c.1, { c.2 with
    selections := c.2.selections.map (fun s => (s.1, { s.2 with
      tally := number s.1
      value := value s.1
      shares := s.2.shares.filter keep })) })) }

/-- C63 does not hold: whatever tally is accepted, it is accepted too with all numbers replaced by any others and with any
of the shares left out. -/
theorem C63_any_numbers_fails (pt : PlaintextTally) (keys : List (String × ElectionPublicKey)) (ctx : Context)
    (h : verifyDecryption E pt keys ctx = .ok true) (number value : String → Nat) (keep : DecSelection → Bool) :
    verifyDecryption E (pt.alter number value keep) keys ctx = .ok true := by
  rw [C57_success_iff] at h ⊢
  rintro message s ⟨c, hc, x, hx, rfl, hs⟩
  obtain ⟨c0, hc0, rfl⟩ := List.mem_map.1 hc
  obtain ⟨x0, hx0, rfl⟩ := List.mem_map.1 hx
  exact h _ s ⟨c0, hc0, x0, hx0, rfl, (List.mem_filter.1 hs).1⟩

end EG
