import Verif.Spec.BallotCode
import Verif.Lemmas.ManifestHash
import Verif.Lemmas.Validator
import Verif.Lemmas.Sort
import Verif.Props.ElGamal

/-!
# C50 and C51: ballot codes and ballot hashes
-/

namespace EG

variable {E : Env}

theorem encryptBallot_chain {json : ContestData → Bytes} {b : PlaintextBallot} {m : InternalManifest} {ctx : Context}
    {seed nonce : Nat} {now : Int} {verify : Bool} {enc : CBallot}
    (h : encryptBallot E json b m ctx seed nonce now verify = .ok (some enc)) :
    enc.objectId = b.objectId ∧ enc.timestamp = now ∧ enc.codeSeed = seed ∧
      enc.code = hashElems E [.elem seed, .int now, .elem enc.cryptoHash] := by
  unfold encryptBallot at h
  simp only [bind, Except.bind, pure, Except.pure] at h
  cases hs : m.getBallotStyle b.styleId with
  | error x => rw [hs] at h; cases h
  | ok style =>
  rw [hs] at h
  simp only at h
  split at h
  · cases h
  cases hds : m.getContestsFor b.styleId with
  | error x => rw [hds] at h; cases h
  | ok ds =>
  rw [hds] at h
  simp only at h
  cases hc : encryptContests E json b ctx.elgamalPublicKey ctx.cryptoExtendedBaseHash
      (nonceSeed E m.manifestHash b.objectId nonce) verify ds with
  | error x => rw [hc] at h; cases h
  | ok o =>
  rw [hc] at h
  cases o with
  | none => cases h
  | some cs =>
    simp only at h
    split at h
    · cases h; exact ⟨rfl, rfl, rfl, rfl⟩
    · split at h
      · cases h
      · split at h
        · cases h; exact ⟨rfl, rfl, rfl, rfl⟩
        · cases h

/-- C50 In every session on a device, with any number of calls of which any may fail, the returned ballots form a
chain that starts from the hash of the device: each ballot records the code of the previous returned ballot, and
its code is the hash of that code, its timestamp and its ballot hash.  The state of the mediator is the last code. -/
theorem C50_chain (json : ContestData → Bytes) (m : InternalManifest) (ctx : Context) (d : Device)
    (calls : List (PlaintextBallot × Nat × Int)) :
    CodeChain E (hashElems E [.int d.deviceId, .int d.sessionId, .int d.launchCode, .str d.location])
      (returned (mediatorSession E json m ctx d calls).1) ∧
    (mediatorSession E json m ctx d calls).2
      = lastCode E (hashElems E [.int d.deviceId, .int d.sessionId, .int d.launchCode, .str d.location])
          ((returned (mediatorSession E json m ctx d calls).1).map (fun b => (b.timestamp, b.cryptoHash))) := by
  have hd : hashElems E [.int d.deviceId, .int d.sessionId, .int d.launchCode, .str d.location] = d.getHash E := rfl
  rw [hd]
  unfold mediatorSession
  generalize d.getHash E = seed
  induction calls generalizing seed with
  | nil => exact ⟨trivial, rfl⟩
  | cons call calls ih =>
    obtain ⟨b, nonce, now⟩ := call
    rw [mediatorRun]
    cases he : encryptBallot E json b m ctx seed nonce now with
    | error x =>
      have : mediatorEncrypt E json m ctx seed b nonce now = .error x := by
        simp [mediatorEncrypt, he, bind, Except.bind]
      rw [this]
      exact ih seed
    | ok o =>
      cases o with
      | none =>
        have : mediatorEncrypt E json m ctx seed b nonce now = .ok (none, seed) := by
          simp [mediatorEncrypt, he, bind, Except.bind, pure, Except.pure]
        rw [this]
        exact ih seed
      | some enc =>
        have : mediatorEncrypt E json m ctx seed b nonce now = .ok (some enc, enc.code) := by
          simp [mediatorEncrypt, he, bind, Except.bind, pure, Except.pure]
        rw [this]
        obtain ⟨_, h1, h2, h3⟩ := encryptBallot_chain he
        have := ih enc.code
        refine ⟨⟨h2, by rw [h1]; exact h3, this.1⟩, ?_⟩
        simp only [returned, List.map_cons, lastCode]
        rw [h1, ← h3]
        exact this.2

/-- C50 Each call returns a ballot with its own id and time, or fails; a failing call leaves the state as it was, so
the rest of the session is as if it had not been made. -/
theorem C50_failed_call_ignored (json : ContestData → Bytes) (m : InternalManifest) (ctx : Context) (seed : Nat)
    (b : PlaintextBallot) (nonce : Nat) (now : Int) (calls : List (PlaintextBallot × Nat × Int)) :
    (∃ enc, encryptBallot E json b m ctx seed nonce now = .ok (some enc) ∧ enc.objectId = b.objectId ∧
      enc.timestamp = now ∧
      mediatorRun E json m ctx seed ((b, nonce, now) :: calls)
        = (.ok (some enc) :: (mediatorRun E json m ctx enc.code calls).1, (mediatorRun E json m ctx enc.code calls).2)) ∨
    (∃ r, encryptBallot E json b m ctx seed nonce now = r ∧ (∀ enc, r ≠ .ok (some enc)) ∧
      mediatorRun E json m ctx seed ((b, nonce, now) :: calls)
        = (r :: (mediatorRun E json m ctx seed calls).1, (mediatorRun E json m ctx seed calls).2)) := by
  rw [mediatorRun]
  cases he : encryptBallot E json b m ctx seed nonce now with
  | error x =>
    right
    refine ⟨_, rfl, by simp, ?_⟩
    simp [mediatorEncrypt, he, bind, Except.bind]
  | ok o =>
    cases o with
    | none =>
      right
      refine ⟨_, rfl, by simp, ?_⟩
      simp [mediatorEncrypt, he, bind, Except.bind, pure, Except.pure]
    | some enc =>
      left
      obtain ⟨h0, h1, -, -⟩ := encryptBallot_chain he
      refine ⟨enc, rfl, h0, h1, ?_⟩
      simp [mediatorEncrypt, he, bind, Except.bind, pure, Except.pure]

theorem lastCode_append (s : Nat) (l l' : List (Int × Nat)) :
    lastCode E s (l ++ l') = lastCode E (lastCode E s l) l' := by
  induction l generalizing s with
  | nil => rfl
  | cons e l ih => simp only [List.cons_append, lastCode, ih]

theorem codeTexts_append (s : Nat) (l l' : List (Int × Nat)) :
    codeTexts E s (l ++ l') = codeTexts E s l ++ codeTexts E (lastCode E s l) l' := by
  induction l generalizing s with
  | nil => rfl
  | cons e l ih => simp only [List.cons_append, lastCode, codeTexts, ih]

theorem count_bar_tok {a : HArg} (h : noBar a) : (tok E a).count '|' = 0 :=
  List.count_eq_zero.2 (tok_noBar E a h)

theorem device_text_ne (d : Device) (prev : Nat) (e : Int × Nat) :
    d.text E ≠ hashText E [.elem prev, .int e.1, .elem e.2] := by
  intro h
  have h1 := congrArg (List.count '|') h
  simp only [Device.text, hashText, encs, List.count_cons, List.count_append, List.count_nil, beq_self_eq_true,
    if_true] at h1
  rw [count_bar_tok (by simp [noBar]), count_bar_tok (by simp [noBar]), count_bar_tok (by simp [noBar]),
    count_bar_tok (a := .elem prev) (by simp [noBar]), count_bar_tok (a := .int e.1) (by simp [noBar]),
    count_bar_tok (a := .elem e.2) (by simp [noBar])] at h1
  omega

theorem lastCode_bind {T : List Char → Prop} (hE : Distinct E T) (d : Device) (hd : T (d.text E))
    (l l' : List (Int × Nat)) (hl : ∀ t ∈ codeTexts E (d.getHash E) l, T t)
    (hl' : ∀ t ∈ codeTexts E (d.getHash E) l', T t)
    (h : lastCode E (d.getHash E) l = lastCode E (d.getHash E) l') : l = l' := by
  induction l using List.reverseRecOn generalizing l' with
  | nil =>
    induction l' using List.reverseRecOn with
    | nil => rfl
    | append_singleton l' e' _ =>
      rw [lastCode_append] at h
      rw [codeTexts_append] at hl'
      exact absurd (hE _ _ hd (hl' _ (by simp [codeTexts])) h) (device_text_ne d _ _)
  | append_singleton l e ih =>
    induction l' using List.reverseRecOn with
    | nil =>
      rw [lastCode_append] at h
      rw [codeTexts_append] at hl
      exact absurd (hE _ _ hd (hl _ (by simp [codeTexts])) h.symm) (device_text_ne d _ _)
    | append_singleton l' e' _ =>
      rw [lastCode_append, lastCode_append] at h
      rw [codeTexts_append] at hl hl'
      have h1 := hash_inj hE (l := [.elem (lastCode E (d.getHash E) l), .int e.1, .elem e.2])
        (l' := [.elem (lastCode E (d.getHash E) l'), .int e'.1, .elem e'.2])
        (by simp [sameKinds, sameKind])
        (by intro t ht; refine hl t ?_; simpa [hashTexts, argsTexts, argTexts, codeTexts] using Or.inr ht)
        (by intro t ht; refine hl' t ?_; simpa [hashTexts, argsTexts, argTexts, codeTexts] using Or.inr ht) h
      simp only [List.cons.injEq, HArg.elem.injEq, HArg.int.injEq, and_true] at h1
      obtain ⟨h1, h2, h3⟩ := h1
      rw [ih l' (fun t ht => hl t (by simp [ht])) (fun t ht => hl' t (by simp [ht])) h1]
      congr 2
      exact Prod.ext h2 h3

/-- C50 Tamper evidence: if two chains of ballots on one device end with the same code, then they have the same
ballots — the same number, in the same order, with the same timestamps and ballot hashes — or two of the texts
hashed for them collide.  So changing, removing or reordering a ballot changes every later code. -/
theorem C50_tamper_evident (d : Device) (bs bs' : List CBallot) (hc : CodeChain E (d.getHash E) bs)
    (hc' : CodeChain E (d.getHash E) bs') (b b' : CBallot) (hb : bs.getLast? = some b) (hb' : bs'.getLast? = some b')
    (h : b.code = b'.code) :
    bs.map (fun b => (b.timestamp, b.cryptoHash)) = bs'.map (fun b => (b.timestamp, b.cryptoHash)) ∨
    CollisionIn E (d.text E :: codeTexts E (d.getHash E) (bs.map (fun b => (b.timestamp, b.cryptoHash)))
      ++ codeTexts E (d.getHash E) (bs'.map (fun b => (b.timestamp, b.cryptoHash)))) := by
  have last : ∀ (bs : List CBallot) (s : Nat) (b : CBallot), CodeChain E s bs → bs.getLast? = some b →
      lastCode E s (bs.map (fun b => (b.timestamp, b.cryptoHash))) = b.code := by
    intro bs
    induction bs with
    | nil => intro s b _ hl; simp at hl
    | cons x xs ih =>
      intro s b hc hl
      obtain ⟨-, h2, h3⟩ := hc
      simp only [List.map_cons, lastCode]
      rw [← h2]
      cases xs with
      | nil => simp at hl; rw [← hl]; rfl
      | cons y ys =>
        rw [List.getLast?_cons_cons] at hl
        exact ih _ _ h3 hl
  refine or_collision _ fun hE => lastCode_bind hE d (by simp) _ _ (fun t ht => by simp [ht])
    (fun t ht => by simp [ht]) ?_
  rw [last bs _ b hc hb, last bs' _ b' hc' hb', h]

end EG
