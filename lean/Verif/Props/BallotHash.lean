import Verif.Props.BallotCode
import Verif.Spec.ToyElection

/-!
# C51: the ballot hash detects tampering
-/

namespace EG

variable {E : Env}

theorem CSelection.bind {T : List Char → Prop} (hE : Distinct E T) {key base key' base' : Nat} (s s' : CSelection)
    (hs : s.isValidEncryption E s.descriptionHash key base = true)
    (hs' : s'.isValidEncryption E s'.descriptionHash key' base' = true)
    (hp : '|' ∉ s.objectId.toList) (hp' : '|' ∉ s'.objectId.toList)
    (ht : ∀ t ∈ s.texts E, T t) (ht' : ∀ t ∈ s'.texts E, T t) (h : s.cryptoHash = s'.cryptoHash) :
    s.content = s'.content := by
  rw [((CSelection.isValidEncryption_iff E s _ key base).1 hs).2.1,
    ((CSelection.isValidEncryption_iff E s' _ key' base').1 hs').2.1] at h
  unfold CSelection.cryptoHashWith selectionCryptoHash at h
  have h1 := hash_inj hE (by simp [sameKinds, sameKind, hp, hp'])
    (by intro t htt; refine ht t ?_; simp [hashTexts, argsTexts, argTexts] at htt; simp [CSelection.texts, htt])
    (by intro t htt; refine ht' t ?_; simp [hashTexts, argsTexts, argTexts] at htt; simp [CSelection.texts, htt]) h
  simp only [List.cons.injEq, HArg.elem.injEq, HArg.str.injEq, and_true] at h1
  obtain ⟨e1, e2, e3⟩ := h1
  have h2 := hash_inj hE (by simp [sameKinds, sameKind])
    (by intro t htt; refine ht t ?_; simp [hashTexts, argsTexts, argTexts] at htt; simp [CSelection.texts, htt])
    (by intro t htt; refine ht' t ?_; simp [hashTexts, argsTexts, argTexts] at htt; simp [CSelection.texts, htt]) e3
  simp only [List.cons.injEq, HArg.elem.injEq, and_true] at h2
  have e4 : s.ciphertext = s'.ciphertext := by
    cases hc : s.ciphertext; cases hc' : s'.ciphertext
    rw [hc, hc'] at h2
    simp_all
  simp [CSelection.content, e1, e2, e4]

theorem sameKinds_elems {α : Type} (f : α → Nat) : (l l' : List α) →
    sameKinds (l.map (fun x => HArg.elem (f x))) (l'.map (fun x => HArg.elem (f x)))
  | [], [] => by simp [sameKinds]
  | [], b :: l' => by
    have := sameKinds_elems f [] l'
    simp only [List.map_nil, List.map_cons, sameKinds, noBar, true_and] at this ⊢
    exact this
  | a :: l, [] => by
    have := sameKinds_elems f l []
    simp only [List.map_nil, List.map_cons, sameKinds, noBar, true_and] at this ⊢
    exact this
  | a :: l, b :: l' => by
    simp only [List.map_cons, sameKinds, sameKind, true_and]
    exact sameKinds_elems f l l'

theorem argsTexts_elems {α : Type} (f : α → Nat) (l : List α) :
    argsTexts E (l.map (fun x => HArg.elem (f x))) = [] := by
  induction l with
  | nil => rfl
  | cons a l ih => simp [argsTexts, argTexts, ih]

theorem map_elem_inj {α β : Type} {f : α → Nat} {g : β → Nat} {l : List α} {l' : List β}
    (h : l.map (fun x => HArg.elem (f x)) = l'.map (fun x => HArg.elem (g x))) : l.map f = l'.map g := by
  induction l generalizing l' with
  | nil => cases l' <;> simp_all
  | cons a l ih =>
    cases l' with
    | nil => simp at h
    | cons b l' =>
      simp only [List.map_cons, List.cons.injEq, HArg.elem.injEq] at h ⊢
      exact ⟨h.1, ih h.2⟩

theorem CContest.bind {T : List Char → Prop} (hE : Distinct E T) (hp1 : 1 < E.P.p) {key base key' base' : Nat}
    (c c' : CContest)
    (hc : c.isValidEncryption E c.descriptionHash key base = .ok true)
    (hc' : c'.isValidEncryption E c'.descriptionHash key' base' = .ok true)
    (hs : ∀ s ∈ c.ballotSelections, s.isValidEncryption E s.descriptionHash key base = true)
    (hs' : ∀ s ∈ c'.ballotSelections, s.isValidEncryption E s.descriptionHash key' base' = true)
    (hp : '|' ∉ c.objectId.toList) (hp' : '|' ∉ c'.objectId.toList)
    (hq : ∀ s ∈ c.ballotSelections, '|' ∉ s.objectId.toList) (hq' : ∀ s ∈ c'.ballotSelections, '|' ∉ s.objectId.toList)
    (ht : ∀ t ∈ c.texts E, T t) (ht' : ∀ t ∈ c'.texts E, T t) (h : c.cryptoHash = c'.cryptoHash) :
    SameVotes c c' := by
  obtain ⟨-, e, pf, -, ha, -⟩ := (CContest.isValidEncryption_iff E c _ key base).1 hc
  obtain ⟨-, e', pf', -, ha', -⟩ := (CContest.isValidEncryption_iff E c' _ key' base').1 hc'
  have ne : ∀ c : CContest, accumulateSelections E.P c.ballotSelections = .ok c.ciphertextAccumulation →
      c.ballotSelections.length ≠ 0 := by
    intro c h h0
    rw [List.length_eq_zero_iff.1 h0] at h
    cases h
  rw [e, e'] at h
  unfold CContest.cryptoHashWith contestCryptoHash at h
  rw [if_neg (ne c ha), if_neg (ne c' ha')] at h
  have h1 := hash_inj hE
    (by
      simp only [sameKinds, sameKind, true_and]
      exact ⟨⟨hp, hp'⟩, sameKinds_elems _ _ _⟩)
    (by
      intro t htt; refine ht t ?_
      simp only [hashTexts, argsTexts, argTexts, argsTexts_elems, List.nil_append, List.mem_singleton] at htt
      simp [CContest.texts, htt])
    (by
      intro t htt; refine ht' t ?_
      simp only [hashTexts, argsTexts, argTexts, argsTexts_elems, List.nil_append, List.mem_singleton] at htt
      simp [CContest.texts, htt]) h
  simp only [List.cons.injEq, HArg.elem.injEq, HArg.str.injEq] at h1
  obtain ⟨e1, e2, e3⟩ := h1
  have e4 := map_elem_inj e3
  have perm := keySort_perm CSelection.sequenceOrder c.ballotSelections
  have perm' := keySort_perm CSelection.sequenceOrder c'.ballotSelections
  have e5 := map_inj_on (g := CSelection.content)
    (clean := fun s => (∃ key base, s.isValidEncryption E s.descriptionHash key base = true) ∧
      '|' ∉ s.objectId.toList ∧ ∀ t ∈ s.texts E, T t)
    (by
      rintro a b ⟨⟨k, bs, h1⟩, h2, h3⟩ ⟨⟨k', bs', h1'⟩, h2', h3'⟩ hab
      exact CSelection.bind hE a b h1 h1' h2 h2' h3 h3' hab)
    (by
      intro s hs0
      have hs1 := perm.mem_iff.1 hs0
      refine ⟨⟨key, base, hs s hs1⟩, hq s hs1, fun t htt => ht t ?_⟩
      simp only [CContest.texts, List.mem_cons, List.mem_flatMap]
      exact .inr ⟨s, hs1, htt⟩)
    (by
      intro s hs0
      have hs1 := perm'.mem_iff.1 hs0
      refine ⟨⟨key', base', hs' s hs1⟩, hq' s hs1, fun t htt => ht' t ?_⟩
      simp only [CContest.texts, List.mem_cons, List.mem_flatMap]
      exact .inr ⟨s, hs1, htt⟩) e4
  have hperm : (c.ballotSelections.map CSelection.content).Perm (c'.ballotSelections.map CSelection.content) := by
    refine ((perm.map CSelection.content).symm.trans ?_).trans (perm'.map CSelection.content)
    exact List.Perm.of_eq e5
  refine ⟨e1, e2, hperm, ?_⟩
  have hcts : (c.ballotSelections.map (·.ciphertext)).Perm (c'.ballotSelections.map (·.ciphertext)) := by
    have := hperm.map (fun x : String × Nat × Ciphertext => x.2.2)
    simpa [List.map_map, Function.comp_def, CSelection.content] using this
  have h2 := C02_order_independent hp1 hcts
  unfold accumulateSelections at ha ha'
  rw [h2, ha'] at ha
  injection ha with ha
  exact ha.symm

/-- C51 Two ballots that both pass `is_valid_encryption` (under whatever keys) and carry the same ballot hash are the
same ballot in everything that matters for the count: same ballot id and manifest hash, contest by contest the same
id, description hash and accumulation, and the same selections with the same ids, description hashes and
ciphertexts — or two of the texts hashed while checking them collide.  So after any change to these the check with
the old ballot hash fails.  Missing from the full claim: the ballot style id, which the hash does not cover
(`C51_style_fails`), and ids that contain the separator of the hash encoding. -/
theorem C51_tamper_evident_partial (hv : E.P.Valid) (b b' : CBallot) (seed seed' key key' base base' : Nat)
    (hb : b.isValidEncryption E seed key base = .ok true) (hb' : b'.isValidEncryption E seed' key' base' = .ok true)
    (hp : b.PlainIds) (hp' : b'.PlainIds) (h0 : b.cryptoHash ≠ 0) (h : b.cryptoHash = b'.cryptoHash) :
    (b.objectId = b'.objectId ∧ b.manifestHash = b'.manifestHash ∧ List.Forall₂ SameVotes b.contests b'.contests) ∨
    CollisionIn E (b.texts E ++ b'.texts E) := by
  refine or_collision _ fun hE => ?_
  obtain ⟨m, e, hc⟩ := (CBallot.isValidEncryption_iff E b seed key base).1 hb
  obtain ⟨m', e', hc'⟩ := (CBallot.isValidEncryption_iff E b' seed' key' base').1 hb'
  have ne : b.contests.length ≠ 0 := by
    intro hl; apply h0; rw [e]; simp [CBallot.cryptoHashWith, hl]
  have ne' : b'.contests.length ≠ 0 := by
    intro hl; apply h0; rw [h, e']; simp [CBallot.cryptoHashWith, hl]
  rw [e, e'] at h
  unfold CBallot.cryptoHashWith at h
  rw [if_neg ne, if_neg ne', m, m'] at h
  have h1 := hash_inj hE
    (by
      simp only [sameKinds, sameKind, true_and]
      exact ⟨⟨hp.1, hp'.1⟩, sameKinds_elems _ _ _⟩)
    (by
      intro t htt
      simp only [hashTexts, argsTexts, argTexts, argsTexts_elems, List.nil_append, List.mem_singleton] at htt
      simp [CBallot.texts, htt])
    (by
      intro t htt
      simp only [hashTexts, argsTexts, argTexts, argsTexts_elems, List.nil_append, List.mem_singleton] at htt
      simp [CBallot.texts, htt]) h
  simp only [List.cons.injEq, HArg.elem.injEq, HArg.str.injEq] at h1
  obtain ⟨e1, e2, e3⟩ := h1
  refine ⟨e1, e2, ?_⟩
  have e4 := map_elem_inj e3
  have key1 : ∀ c ∈ b.contests, ∀ c' ∈ b'.contests, c.cryptoHash = c'.cryptoHash → SameVotes c c' := by
    intro c hcm c' hcm' hcc
    refine CContest.bind hE hv.one_lt_p c c' (hc c hcm).2 (hc' c' hcm').2 (hc c hcm).1 (hc' c' hcm').1
      (hp.2 c hcm).1 (hp'.2 c' hcm').1 (hp.2 c hcm).2 (hp'.2 c' hcm').2 ?_ ?_ hcc
    · intro t ht
      simp only [CBallot.texts, List.mem_append, List.mem_cons, List.mem_flatMap]
      exact .inl (.inr ⟨c, hcm, ht⟩)
    · intro t ht
      simp only [CBallot.texts, List.mem_append, List.mem_cons, List.mem_flatMap]
      exact .inr (.inr ⟨c', hcm', ht⟩)
  clear h0 h e e' hc hc' ne ne' hp hp' hb hb' e3 hE
  revert e4 key1
  generalize b.contests = l
  generalize b'.contests = l'
  intro e4 key1
  induction l generalizing l' with
  | nil =>
    cases l' with
    | nil => exact .nil
    | cons => simp at e4
  | cons c l ih =>
    cases l' with
    | nil => simp at e4
    | cons c' l' =>
      simp only [List.map_cons, List.cons.injEq] at e4
      exact .cons (key1 c (by simp) c' (by simp) e4.1)
        (ih l' e4.2 (fun a ha a' ha' => key1 a (by simp [ha]) a' (by simp [ha'])))

/-- The toy ballot under another style id. -/
def toyRestyled : CBallot := { toyEncrypt "b" "t" 1 0 1 7 with styleId := "s" }

/-- C51 (negative) The style id can be changed without any check noticing: same hash, still valid. -/
theorem C51_style_fails : ∃ (E : Env) (b b' : CBallot) (seed key base : Nat), b.PlainIds ∧ b'.PlainIds ∧
    b.isValidEncryption E seed key base = .ok true ∧ b'.isValidEncryption E seed key base = .ok true ∧
    b.cryptoHash = b'.cryptoHash ∧ b.styleId ≠ b'.styleId :=
  ⟨toyEnv, toyEncrypt "b" "t" 1 0 1 7, toyRestyled, toyIM.manifestHash, toyCtx.elgamalPublicKey,
    toyCtx.cryptoExtendedBaseHash, by unfold CBallot.PlainIds; decide +kernel,
    by unfold CBallot.PlainIds; decide +kernel, by decide +kernel, by decide +kernel, by decide +kernel,
    by decide +kernel⟩

/-- The toy ballot whose first contest hides its first selection in the contest id: the id continues with the
separator and the description hash, and the hash of the first selection stands in the place of the description
hash. -/
def toyHidden : CBallot :=
  let b := toyEncrypt "b" "t" 1 0 1 7
  match b.contests with
  | c :: cs =>
    match c.ballotSelections with
    | s :: ss =>
      match makeContest toyEnv (c.objectId ++ "|" ++ String.ofList (toHex c.descriptionHash)) c.sequenceOrder
          s.cryptoHash ss toyCtx.elgamalPublicKey toyCtx.cryptoExtendedBaseHash 5 0 c.nonce c.extendedData with
      | .ok c' => { b with contests := c' :: cs }
      | .error _ => toyNoBallot
    | [] => toyNoBallot
  | [] => toyNoBallot

/-- C51 (negative) With the separator in a contest id a selection can be removed from the ballot without changing the
ballot hash, and the ballot still passes `is_valid_encryption`. -/
theorem C51_separator_fails : ∃ (E : Env) (b b' : CBallot) (seed key base : Nat), b.PlainIds ∧
    b.isValidEncryption E seed key base = .ok true ∧ b'.isValidEncryption E seed key base = .ok true ∧
    b.cryptoHash = b'.cryptoHash ∧ b.cryptoHash ≠ 0 ∧
    b.contests.map (fun c => c.ballotSelections.length) = [3, 2] ∧
    b'.contests.map (fun c => c.ballotSelections.length) = [2, 2] :=
  ⟨toyEnv, toyEncrypt "b" "t" 1 0 1 7, toyHidden, toyIM.manifestHash, toyCtx.elgamalPublicKey,
    toyCtx.cryptoExtendedBaseHash, by unfold CBallot.PlainIds; decide +kernel, by decide +kernel, by decide +kernel,
    by decide +kernel, by decide +kernel, by decide +kernel, by decide +kernel⟩

/-- A session with three calls, of which the second fails (an unknown style): two ballots in a chain. -/
example : ((mediatorSession toyEnv toyJson toyIM toyCtx ⟨1, 2, 3, "here"⟩
      [(⟨"a", "t", []⟩, 3, 17), (⟨"x", "?", []⟩, 7, 18), (⟨"b", "t", [⟨"c", [⟨"sx", 1, false, none⟩]⟩]⟩, 3, 19)]).1.map
        (fun r => match r with | .ok (some b) => b.objectId | _ => "")) = ["a", "", "b"] := by
  decide +kernel

end EG
