import Verif.Spec.Serialize
import Verif.Lemmas.SerializeRead
import Verif.Lemmas.Encrypt
import Verif.Lemmas.ElGamal
import Verif.Model.BallotBox

/-!
# What encryption returns has its elements in range
-/

namespace EG

variable {E : Env}

theorem mkQ_lt {P : Params} {v : Int} {n : Nat} (h : mkQ P v = .ok n) : n < P.q := by
  unfold mkQ at h
  split at h
  · cases h; omega
  · cases h

theorem makeDisj_typed (hp : 1 < E.P.p) (hq : 0 < E.P.q) {m : Ciphertext} {r k q seed : Nat} {v : Int} {pf : DisjProof}
    (h : makeDisj E m r k q seed v = .ok pf) : pf.Typed E.P := by
  have hp0 : 0 < E.P.p := by omega
  unfold makeDisj at h
  split at h
  · cases h
  · split at h
    · cases h
      exact ⟨⟨gPowP_lt hp0 _, powP_lt hp0 _ _, gPowP_lt hp0 _, multP_lt hp _ _⟩, aMinusBQ_lt hq _ _, nonce_lt hq _ _ _,
        hashElems_lt hq _, aPlusBCQ_lt hq _ _ _, aPlusBCQ_lt hq _ _ _⟩
    · rw [makeDisjOne, bindOk] at h
      obtain ⟨c0, h0, h⟩ := h
      cases h
      exact ⟨⟨gPowP_lt hp0 _, multP_lt hp _ _, gPowP_lt hp0 _, powP_lt hp0 _ _⟩, mkQ_lt h0, addQ_lt hq _ _,
        hashElems_lt hq _, aPlusBCQ_lt hq _ _ _, aPlusBCQ_lt hq _ _ _⟩

theorem nonceAt_lt (hq : 0 < E.P.q) {s n : Nat} {hs : List HArg} {i : Int} (h : nonceAt E s hs i = .ok n) : n < E.P.q := by
  unfold nonceAt nonceGetWithHeaders at h
  split at h
  · cases h
  · cases h; exact hashElems_lt hq _

theorem makeSelection_typed (hp : 1 < E.P.p) (hq : 0 < E.P.q) {id : String} {so : Int} {dh : Nat} {ct : Ciphertext}
    {key bh seed : Nat} {v : Int} {ph : Bool} {n : Nat} {s : CSelection} (hd : dh < E.P.q) (hc : ct.Typed E.P) (hn : n < E.P.q)
    (h : makeSelection E id so dh ct key bh seed v ph (some n) = .ok s) : s.Typed E.P := by
  simp only [makeSelection, bindOk, pureOk] at h
  obtain ⟨pf', h1, _, rfl, rfl⟩ := h
  exact ⟨hd, hc, hashElems_lt hq _, by simpa using hn, by simpa using makeDisj_typed hp hq h1⟩

theorem encryptSelection_typed (hp : 1 < E.P.p) (hq : 0 < E.P.q) {s : PlaintextSelection} {d : SelectionDescription}
    {key bh seed : Nat} {ph verify : Bool} {c : CSelection} (h : encryptSelection E s d key bh seed ph verify = .ok (some c)) :
    c.Typed E.P := by
  have hp0 : 0 < E.P.p := by omega
  unfold encryptSelection at h
  split at h
  · cases h
  · simp only [bindOk] at h
    obtain ⟨n, hn, pn, hpn, h⟩ := h
    split at h
    · cases h
    · rename_i ct hct
      rw [bindOk] at h
      obtain ⟨e, he, h⟩ := h
      have ht : ct.Typed E.P := by
        unfold elgamalEncrypt at hct
        split at hct
        · cases hct
        · cases hct
          exact ⟨gPowP_lt hp0 _, multP_lt hp _ _⟩
      have hty := makeSelection_typed hp hq (hashElems_lt hq _) ht (nonceAt_lt hq hn) he
      split at h
      · cases h
      · split at h
        · cases h; exact hty
        · split at h
          · cases h; exact hty
          · cases h

theorem encryptReal_typed (hp : 1 < E.P.p) (hq : 0 < E.P.q) {votes : List PlaintextSelection} {over : Bool} {key bh seed : Nat}
    {verify : Bool} (ds : List SelectionDescription) {count : Int} {acc : List CSelection} {r : List CSelection × Int}
    (ha : ∀ c ∈ acc, c.Typed E.P) (h : encryptReal E votes over key bh seed verify ds count acc = .ok (some r)) :
    ∀ c ∈ r.1, c.Typed E.P := by
  induction ds generalizing count acc with
  | nil => cases h; exact ha
  | cons d ds ih =>
    rw [encryptReal] at h
    have key : ∀ (s : PlaintextSelection) (count' : Int), (do
        let enc ← encryptSelection E s d key bh seed false verify
        match enc with
        | none => return none
        | some e => encryptReal E votes over key bh seed verify ds count' (acc ++ [e])) = .ok (some r) → ∀ c ∈ r.1, c.Typed E.P := by
      intro s count' h
      rw [bindOk] at h
      obtain ⟨e, he, h⟩ := h
      cases e with
      | none => cases h
      | some e =>
        refine ih (fun c hc => ?_) h
        rcases List.mem_append.1 hc with hc | hc
        · exact ha c hc
        · rw [List.mem_singleton] at hc
          subst hc
          exact encryptSelection_typed hp hq he
    cases hf : votes.find? (fun s => s.objectId == d.objectId && !over) with
    | none => rw [hf] at h; exact key _ _ h
    | some s => rw [hf] at h; exact key _ _ h

theorem encryptPlaceholders_typed (hp : 1 < E.P.p) (hq : 0 < E.P.q) {ne : Int} {key bh seed : Nat}
    {verify : Bool} (ds : List SelectionDescription) {count : Int} {acc r : List CSelection}
    (ha : ∀ c ∈ acc, c.Typed E.P) (h : encryptPlaceholders E ne key bh seed verify ds count acc = .ok (some r)) :
    ∀ c ∈ r, c.Typed E.P := by
  induction ds generalizing count acc with
  | nil => cases h; exact ha
  | cons d ds ih =>
    rw [encryptPlaceholders, bindOk] at h
    obtain ⟨e, he, h⟩ := h
    cases e with
    | none => cases h
    | some e =>
      refine ih (fun c hc => ?_) h
      rcases List.mem_append.1 hc with hc | hc
      · exact ha c hc
      · rw [List.mem_singleton] at hc
        subst hc
        exact encryptSelection_typed hp hq he

theorem hashedEncrypt_typed (hp : 0 < E.P.p) {m : Bytes} {n key seed : Nat} {c : HashedCiphertext} (h : hashedEncrypt E m n key seed = .ok c) :
    c.Typed E.P := by
  simp only [hashedEncrypt, bindOk, pureOk] at h
  obtain ⟨_, _, _, _, _, _, rfl⟩ := h
  exact gPowP_lt hp _

theorem makeContest_typed (hp : 1 < E.P.p) (hq : 0 < E.P.q) {id : String} {so : Int} {dh : Nat} {ss : List CSelection}
    {key bh seed : Nat} {ne : Int} {n : Nat} {data : HashedCiphertext} {c : CContest} (hd : dh < E.P.q) (hs : ∀ s ∈ ss, s.Typed E.P)
    (hn : n < E.P.q) (hda : data.Typed E.P) (h : makeContest E id so dh ss key bh seed ne (some n) (some data) = .ok c) :
    c.Typed E.P := by
  have hp0 : 0 < E.P.p := by omega
  simp only [makeContest, bindOk, pureOk] at h
  obtain ⟨acc, hacc, rfl⟩ := h
  refine ⟨hd, hs, elgamalAdd_lt hp (fun x hx => ?_) hacc, ?_, by simpa using hn, ?_, by simpa using hda⟩
  · obtain ⟨s, hs', rfl⟩ := List.mem_map.1 hx
    exact (hs s hs').2.1
  · show contestCryptoHash .. < _
    unfold contestCryptoHash
    split
    · exact hq
    · exact hashElems_lt hq _
  · intro pf hpf
    obtain ⟨ag, -, rfl⟩ := Option.mem_map.1 hpf
    exact ⟨gPowP_lt hp0 _, powP_lt hp0 _ _, hashElems_lt hq _, aPlusBCQ_lt hq _ _ _⟩

theorem encryptContest_typed (hp : 1 < E.P.p) (hq : 0 < E.P.q) {json : ContestData → Bytes} {c : PlaintextContest}
    {d : ContestWithPlaceholders} {key bh seed : Nat} {verify : Bool} {e : CContest}
    (h : encryptContest E json c d key bh seed verify = .ok (some e)) : e.Typed E.P := by
  have hp0 : 0 < E.P.p := by omega
  unfold encryptContest at h
  split at h
  · cases h
  · rename_i error errorData herr
    simp only [bindOk] at h
    obtain ⟨cn, hcn, pn, hpn, real, hreal, h⟩ := h
    cases real with
    | none => cases h
    | some r =>
      obtain ⟨ss, count⟩ := r
      simp only [bindOk] at h
      obtain ⟨all, hall, h⟩ := h
      cases all with
      | none => cases h
      | some all =>
        simp only [bindOk] at h
        obtain ⟨bytes, hb, dn, hdn, data, hdata, enc, henc, h⟩ := h
        have h1 := encryptReal_typed hp hq _ (by simp) hreal
        have h2 := encryptPlaceholders_typed hp hq _ h1 hall
        have h3 := makeContest_typed hp hq (hashElems_lt hq _) h2 (nonceAt_lt hq hcn) (hashedEncrypt_typed hp0 hdata) henc
        split at h
        · rw [bindOk] at h
          obtain ⟨ok, hok, h⟩ := h
          split at h
          · cases h; exact h3
          · cases h
        · cases h; exact h3

theorem encryptContests_typed (hp : 1 < E.P.p) (hq : 0 < E.P.q) {json : ContestData → Bytes} {b : PlaintextBallot}
    {key bh seed : Nat} {verify : Bool} (ds : List ContestWithPlaceholders) {cs : List CContest}
    (h : encryptContests E json b key bh seed verify ds = .ok (some cs)) : ∀ c ∈ cs, c.Typed E.P := by
  induction ds generalizing cs with
  | nil => cases h; intro c hc; cases hc
  | cons d ds ih =>
    rw [encryptContests, bindOk] at h
    obtain ⟨e, he, h⟩ := h
    cases e with
    | none => cases h
    | some e =>
      simp only [bindOk] at h
      obtain ⟨rest, hrest, h⟩ := h
      cases rest with
      | none => cases h
      | some rest =>
        cases h
        intro c hc
        rcases List.mem_cons.1 hc with rfl | hc
        · exact encryptContest_typed hp hq he
        · exact ih hrest c hc

/-- What `encrypt_ballot` returns is a ballot with its elements in range. -/
theorem encryptBallot_typed (hp : 1 < E.P.p) (hq : 0 < E.P.q) {json : ContestData → Bytes} {b : PlaintextBallot} {m : InternalManifest}
    {ctx : Context} {seed nonce : Nat} {now : Int} {verify : Bool} {c : CBallot} (hm : m.manifestHash < E.P.q) (hs : seed < E.P.q)
    (hn : nonce < E.P.q) (h : encryptBallot E json b m ctx seed nonce now verify = .ok (some c)) : c.Typed E.P := by
  simp only [encryptBallot, bindOk] at h
  obtain ⟨style, -, h⟩ := h
  split at h
  · cases h
  · simp only [bindOk] at h
    obtain ⟨ds, -, cs, hcs, h⟩ := h
    cases cs with
    | none => cases h
    | some cs =>
      have h1 : CBallot.Typed E.P (makeBallot E b.objectId b.styleId m.manifestHash (some seed) cs (some nonce) none none now) :=
        ⟨hm, hs, encryptContests_typed hp hq _ hcs, hashElems_lt hq _, hashElems_lt hq _, by simpa [makeBallot] using hn⟩
      simp only at h
      split at h
      · cases h; exact h1
      · rw [bindOk] at h
        obtain ⟨ok, -, h⟩ := h
        split at h
        · cases h; exact h1
        · cases h

/-- It has the hash of the manifest. -/
theorem encryptBallot_hash {json : ContestData → Bytes} {b : PlaintextBallot} {m : InternalManifest}
    {ctx : Context} {seed nonce : Nat} {now : Int} {verify : Bool} {c : CBallot}
    (h : encryptBallot E json b m ctx seed nonce now verify = .ok (some c)) : c.manifestHash = m.manifestHash := by
  simp only [encryptBallot, bindOk] at h
  obtain ⟨style, -, h⟩ := h
  split at h
  · cases h
  · simp only [bindOk] at h
    obtain ⟨ds, -, cs, hcs, h⟩ := h
    cases cs with
    | none => cases h
    | some cs =>
      simp only at h
      split at h
      · cases h; rfl
      · rw [bindOk] at h
        obtain ⟨ok, -, h⟩ := h
        split at h
        · cases h; rfl
        · cases h

theorem stripNonces_typed {P : Params} {c : CContest} (h : c.Typed P) : c.stripNonces.Typed P := by
  obtain ⟨h1, h2, h3, h4, -, h6, h7⟩ := h
  refine ⟨h1, fun s hs => ?_, h3, h4, by simp [CContest.stripNonces], h6, h7⟩
  obtain ⟨s', hs', rfl⟩ := List.mem_map.1 hs
  obtain ⟨k1, k2, k3, -, k5⟩ := h2 s' hs'
  exact ⟨k1, k2, k3, by simp, k5⟩

/-- Submitting keeps the elements in range. -/
theorem submitBallot_typed (hq : 0 < E.P.q) {b : CBallot} (h : b.Typed E.P) (st : BallotBoxState) :
    (submitBallot E b st).toCBallot.Typed E.P := by
  obtain ⟨h1, h2, h3, h4, -, -⟩ := h
  refine ⟨h1, h2, fun c hc => ?_, h4, hashElems_lt hq _, by simp [submitBallot, makeSubmittedBallot]⟩
  obtain ⟨c', hc', rfl⟩ := List.mem_map.1 hc
  exact stripNonces_typed (h3 c' hc')

end EG
