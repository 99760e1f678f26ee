import Verif.Lemmas.EncryptBallot
import Verif.Model.DecryptSecrets

/-!
# Lemmas about decrypting ballots with the nonce or the secret key
-/

namespace EG

variable {E : Env}

theorem CSelection.Holds.decrypt_secret (hv : E.P.Valid) {key maxE secret : Nat} {e : CSelection}
    {sd : SelectionDescription} {v : Nat} {ph : Bool} (h : e.Holds E key sd v ph) (hmax : 1 ≤ maxE)
    (hkey : key = E.P.g ^ secret % E.P.p) : e.ciphertext.decrypt E.P maxE secret = .ok v := by
  have : Fact E.P.p.Prime := ⟨hv.p_prime⟩
  obtain ⟨r, -, he⟩ := h.vote
  obtain ⟨_, _, h3, h4⟩ := (encryptsWith_iff_cast hv).1 he
  have hb := h.binary
  have hq := hv.q_prime.two_le
  refine decryptKnownProduct_spec hv (by omega) (by omega) ?_ ?_
  · rw [powP_cast, h3]; exact pow_ne_zero _ (pow_ne_zero _ (g_cast_ne_zero hv))
  · rw [h4, powP_cast, h3, hkey, ZMod.natCast_mod]
    push_cast
    rw [← pow_mul, ← pow_mul, mul_comm r]

theorem CSelection.Holds.decrypt_nonce (hv : E.P.Valid) {key maxE r : Nat} {e : CSelection}
    {sd : SelectionDescription} {v : Nat} {ph : Bool} (h : e.Holds E key sd v ph) (hmax : 1 ≤ maxE)
    (hK : isValidResidue E.P key = true) (hr : e.nonce = some r) :
    e.ciphertext.decryptKnownNonce E.P maxE key r = .ok v := by
  have : Fact E.P.p.Prime := ⟨hv.p_prime⟩
  obtain ⟨r', hr', he⟩ := h.vote
  rw [hr] at hr'; cases hr'
  obtain ⟨_, _, h3, h4⟩ := (encryptsWith_iff_cast hv).1 he
  have hb := h.binary
  have hq := hv.q_prime.two_le
  refine decryptKnownProduct_spec hv (by omega) (by omega) ?_ ?_
  · rw [powP_cast]
    refine pow_ne_zero _ (fun h0 => ?_)
    have := ((isValidResidue_iff hv key).1 hK).2
    rw [h0, zero_pow hv.q_prime.ne_zero] at this
    exact zero_ne_one this
  · rw [h4, powP_cast]

theorem decryptContestWithSecret_of_valid {maxE : Nat} {c : CContest} {d : ContestWithPlaceholders}
    {key secret baseHash : Nat} {suppress remove : Bool}
    (h : c.isValidEncryption E (d.cryptoHash E) key baseHash = .ok true) :
    decryptContestWithSecret E maxE c d key secret baseHash suppress remove = (do
      let ps ← decryptSelections d
        (fun s sd => decryptSelectionWithSecret E maxE s sd key secret baseHash suppress) remove c.ballotSelections []
      return ps.map (fun ps => ⟨c.objectId, ps⟩)) := by
  cases suppress
  · unfold decryptContestWithSecret; rw [h]; rfl
  · rfl

theorem decryptContestWithNonce_of_valid {maxE : Nat} {c : CContest} {d : ContestWithPlaceholders}
    {key baseHash : Nat} {seed : Option Nat} {suppress remove : Bool} {n : Nat}
    (h : c.isValidEncryption E (d.cryptoHash E) key baseHash = .ok true)
    (hn : contestNonceFor E c d seed = .ok (some n)) (hc : c.nonce = some n) :
    decryptContestWithNonce E maxE c d key baseHash seed suppress remove = (do
      let ps ← decryptSelections d
        (fun s sd => decryptSelectionWithNonce E maxE s sd key baseHash (some n) suppress) remove c.ballotSelections []
      return ps.map (fun ps => ⟨c.objectId, ps⟩)) := by
  cases suppress
  · unfold decryptContestWithNonce; rw [h]
    simp [bind, Except.bind, pure, Except.pure, hn, hc]
  · unfold decryptContestWithNonce
    simp [bind, Except.bind, pure, Except.pure, hn, hc]

theorem decryptBallotWithSecret_of_valid {maxE : Nat} {b : CBallot} {m : InternalManifest}
    {key secret baseHash : Nat} {suppress remove : Bool}
    (h : b.isValidEncryption E m.manifestHash key baseHash = .ok true) :
    decryptBallotWithSecret E maxE b m baseHash key secret suppress remove = (do
      let cs ← decryptContests m
        (fun c d => decryptContestWithSecret E maxE c d key secret baseHash suppress remove) b.contests
      return cs.map (fun cs => ⟨b.objectId, b.styleId, cs⟩)) := by
  cases suppress
  · unfold decryptBallotWithSecret; rw [h]; rfl
  · rfl

theorem decryptBallotWithNonce_of_valid {maxE : Nat} {b : CBallot} {m : InternalManifest}
    {key baseHash : Nat} {given : Option Nat} {suppress remove : Bool} {sd : Nat}
    (h : b.isValidEncryption E m.manifestHash key baseHash = .ok true)
    (hsd : (match given with
      | none => b.hashedBallotNonce E
      | some n => some (nonceSeed E m.manifestHash b.objectId n)) = some sd) :
    decryptBallotWithNonce E maxE b m baseHash key given suppress remove = (do
      let cs ← decryptContests m
        (fun c d => decryptContestWithNonce E maxE c d key baseHash (some sd) suppress remove) b.contests
      return cs.map (fun cs => ⟨b.objectId, b.styleId, cs⟩)) := by
  cases given with
  | none =>
    simp only at hsd
    cases suppress
    · unfold decryptBallotWithNonce; rw [h]
      simp [bind, Except.bind, pure, Except.pure, hsd]
    · unfold decryptBallotWithNonce
      simp [bind, Except.bind, pure, Except.pure, hsd]
  | some n =>
    simp only [Option.some.injEq] at hsd
    cases suppress
    · unfold decryptBallotWithNonce; rw [h]
      simp [bind, Except.bind, pure, Except.pure, hsd]
    · unfold decryptBallotWithNonce
      simp [bind, Except.bind, pure, Except.pure, hsd]

theorem selectionFor_of_mem {d : ContestWithPlaceholders}
    (hids : ((d.ballotSelections ++ d.placeholders).map SelectionDescription.objectId).Nodup)
    {sd : SelectionDescription} (h : sd ∈ d.ballotSelections ++ d.placeholders) :
    d.selectionFor sd.objectId = some sd := by
  have hfil : ∀ l : List SelectionDescription, (l.map SelectionDescription.objectId).Nodup → sd ∈ l →
      l.filter (fun i => i.objectId == sd.objectId) = [sd] := by
    intro l hl hmem
    induction l with
    | nil => cases hmem
    | cons a l ih =>
      rw [List.map_cons, List.nodup_cons] at hl
      rcases List.mem_cons.1 hmem with rfl | hmem
      · rw [List.filter_cons_of_pos (by simp)]
        congr 1
        rw [List.filter_eq_nil_iff]
        intro x hx hh
        exact hl.1 (List.mem_map.2 ⟨x, hx, by simpa using hh⟩)
      · rw [List.filter_cons_of_neg, ih hl.2 hmem]
        intro hh
        apply hl.1
        rw [beq_iff_eq] at hh
        rw [hh]
        exact List.mem_map.2 ⟨sd, hmem, rfl⟩
  have hall := hfil _ hids h
  rw [List.filter_append] at hall
  unfold ContestWithPlaceholders.selectionFor
  cases h1 : d.ballotSelections.filter (fun i => i.objectId == sd.objectId) with
  | nil =>
    rw [h1, List.nil_append] at hall
    rw [hall]
  | cons a l =>
    rw [h1] at hall
    simp only [List.cons_append, List.cons.injEq] at hall
    rw [hall.1]

/-- Decrypting the selections of an encrypted contest, given that one selection decrypts to its vote. -/
theorem decryptSelections_step {d : ContestWithPlaceholders} {key baseHash n : Nat}
    {dec : CSelection → SelectionDescription → R (Option PlaintextSelection)}
    (hids : ((d.ballotSelections ++ d.placeholders).map SelectionDescription.objectId).Nodup)
    (hdec : ∀ s sd v ph, SelSpec E key baseHash n s sd v ph →
      dec s sd = .ok (some ⟨sd.objectId, (v : Int), ph, none⟩)) (remove : Bool)
    (xs : List (SelectionDescription × Nat × Bool)) (hmem : ∀ x ∈ xs, x.1 ∈ d.ballotSelections ++ d.placeholders) :
    ∀ (ss : List CSelection) (acc : List PlaintextSelection),
    List.Forall₂ (fun s (x : SelectionDescription × Nat × Bool) => SelSpec E key baseHash n s x.1 x.2.1 x.2.2) ss xs →
    decryptSelections d dec remove ss acc = .ok (some (acc ++ (xs.filter (fun x => !remove || !x.2.2)).map
      (fun x => ⟨x.1.objectId, (x.2.1 : Int), x.2.2, none⟩))) := by
  induction xs with
  | nil => intro ss acc h; cases h; simp [decryptSelections]
  | cons x xs ih =>
    intro ss acc h
    obtain ⟨sd, v, ph⟩ := x
    cases h with
    | cons hs hrest =>
      have ih := fun acc => ih (fun x hx => hmem x (by simp [hx])) _ acc hrest
      simp only at hs
      simp only [decryptSelections, bind, Except.bind, pure, Except.pure]
      rw [hs.holds.id, selectionFor_of_mem hids (hmem (sd, v, ph) (by simp))]
      simp only [getOptional, hdec _ _ _ _ hs]
      by_cases hc : remove = false ∨ ph = false
      · rw [if_pos hc, ih, List.filter_cons_of_pos (by rcases hc with rfl | rfl <;> simp)]
        simp
      · rw [if_neg hc, ih, List.filter_cons_of_neg (by simpa [not_or] using hc)]

theorem decryptSelections_spec {c : PlaintextContest} {d : ContestWithPlaceholders} {enc : CContest}
    {key baseHash seed n : Nat} {real phs : List CSelection} {fill : List Nat}
    {dec : CSelection → SelectionDescription → R (Option PlaintextSelection)}
    (hids : ((d.ballotSelections ++ d.placeholders).map SelectionDescription.objectId).Nodup)
    (h : ContestSpec E key baseHash seed c d enc n real phs fill)
    (hdec : ∀ s sd v ph, SelSpec E key baseHash n s sd v ph →
      dec s sd = .ok (some ⟨sd.objectId, (v : Int), ph, none⟩)) :
    decryptSelections d dec true enc.ballotSelections [] = .ok (some (d.ballotSelections.map (fun sd =>
      ⟨sd.objectId, (c.effective d sd.objectId : Int), false, none⟩))) := by
  have := decryptSelections_step hids hdec true
    (d.ballotSelections.map (fun sd => (sd, c.effective d sd.objectId, false))
      ++ (d.placeholders.zip fill).map (fun x => (x.1, x.2, true))) ?_ (real ++ phs) [] ?_
  · rw [h.sels, this, List.filter_append, List.filter_map, List.filter_map]
    simp [Function.comp_def]
  · intro x hx
    rw [List.mem_append, List.mem_map, List.mem_map] at hx
    rcases hx with ⟨sd, hsd, rfl⟩ | ⟨y, hy, rfl⟩
    · simp [hsd]
    · simp [(List.of_mem_zip hy).1]
  · refine List.rel_append ?_ ?_
    · rw [List.forall₂_map_right_iff]; exact h.real
    · rw [List.forall₂_map_right_iff]; exact h.phs

theorem contestFor_of_mem {m : InternalManifest} (hids : (m.contests.map (fun d => d.objectId)).Nodup)
    {d : ContestWithPlaceholders} (h : d ∈ m.contests) : m.contestFor d.objectId = some d := by
  have hfil : ∀ l : List ContestWithPlaceholders, (l.map (fun d => d.objectId)).Nodup → d ∈ l →
      l.filter (fun i => i.objectId == d.objectId) = [d] := by
    intro l hl hmem
    induction l with
    | nil => cases hmem
    | cons a l ih =>
      rw [List.map_cons, List.nodup_cons] at hl
      rcases List.mem_cons.1 hmem with rfl | hmem
      · rw [List.filter_cons_of_pos (by simp)]
        congr 1
        rw [List.filter_eq_nil_iff]
        intro x hx hh
        exact hl.1 (List.mem_map.2 ⟨x, hx, by simpa using hh⟩)
      · rw [List.filter_cons_of_neg, ih hl.2 hmem]
        intro hh
        apply hl.1
        rw [beq_iff_eq] at hh
        rw [hh]
        exact List.mem_map.2 ⟨d, hmem, rfl⟩
  unfold InternalManifest.contestFor
  rw [hfil _ hids h]

theorem decryptContests_spec {m : InternalManifest} (hids : m.UniqueIds) {b : PlaintextBallot} {key baseHash seed : Nat}
    {dec : CContest → ContestWithPlaceholders → R (Option PlaintextContest)} {ds : List ContestWithPlaceholders}
    {cs : List CContest} (hsub : ds.Sublist m.contests)
    (h : List.Forall₂ (fun c d => ∃ n real phs fill,
      ContestSpec E key baseHash seed (b.voted d.toContestDescription) d c n real phs fill) cs ds)
    (hdec : ∀ c d, d ∈ ds → (∃ n real phs fill,
      ContestSpec E key baseHash seed (b.voted d.toContestDescription) d c n real phs fill) →
      dec c d = .ok (some ⟨d.objectId, d.ballotSelections.map (fun sd =>
        ⟨sd.objectId, ((b.voted d.toContestDescription).effective d sd.objectId : Int), false, none⟩)⟩)) :
    decryptContests m dec cs = .ok (some (ds.map (fun d => ⟨d.objectId, d.ballotSelections.map (fun sd =>
        ⟨sd.objectId, ((b.voted d.toContestDescription).effective d sd.objectId : Int), false, none⟩)⟩))) := by
  induction h with
  | nil => rfl
  | @cons c d cs ds hh _ ih =>
    have ih := ih ((List.sublist_cons_self d ds).trans hsub) (fun c d hd => hdec c d (by simp [hd]))
    have hid : c.objectId = d.objectId := by obtain ⟨_, _, _, _, hh⟩ := hh; exact hh.id
    simp only [decryptContests, bind, Except.bind, pure, Except.pure, hid,
      contestFor_of_mem hids.1 (hsub.subset (by simp : d ∈ d :: ds)), getOptional, hdec c d (by simp) hh, ih,
      List.map_cons]

end EG
