import Verif.Lemmas.Manifest
import Verif.Lemmas.ManifestHash
import Verif.Spec.Toy

/-!
# C40, C41 and C42: placeholders, manifest validity and the manifest hash
-/

namespace EG

/-- C41: `is_valid` accepts exactly the manifests that satisfy the specification `ManifestOk`.  Partial: parties
named by ballot styles and candidates named by selections are not looked up (see the `_fails` theorems). -/
theorem C41_iff_partial (m : Manifest) : m.isValid = true ↔ ManifestOk m := by
  unfold Manifest.isValid
  simp only [Bool.and_eq_true, beq_iff_eq, pySetOf_length_map_iff, foldl_and_iff, decide_eq_true_eq,
    ContestDescription.isValid_iff, true_and]
  constructor
  · rintro ⟨⟨⟨⟨h1, h2, h3⟩, h4⟩, h5, h6⟩, ⟨⟨⟨h7, h8⟩, h9⟩, h10⟩, h11⟩
    rw [ballotStyleLoop_fst _ _ _ _ h3] at h2
    refine ⟨h1, (pySetOf_length_map_iff _ _).1 h2, h4, h5, h7, h8, ?_, ?_, h9, ?_, ?_⟩
    · intro s hs
      obtain ⟨us, hus, hu⟩ := ((ballotStyleLoop_snd _ _ _ _).1 h3).2 s hs
      exact ⟨us, hus, fun u hu' => (hasUnit_iff m u).2 (hu u hu')⟩
    · intro c hc p hp
      have := h6 c hc
      rw [hp] at this
      exact (hasParty_iff m p).2 (by simpa using this)
    · intro c hc; exact (hasUnit_iff m _).2 (h10 c hc)
    · intro c hc ps hps p hp; exact (hasParty_iff m p).2 (((primary_fold _ _ _).1 h11).2 c hc ps hps p hp)
  · intro h
    have h3 : (ballotStyleLoop (pySetOf (m.geopoliticalUnits.map (·.objectId))) m.ballotStyles [] true).2
        = true := by
      rw [ballotStyleLoop_snd]
      refine ⟨rfl, ?_⟩
      intro s hs
      obtain ⟨us, hus, hu⟩ := h.styleUnits s hs
      exact ⟨us, hus, fun u hu' => (hasUnit_iff m u).1 (hu u hu')⟩
    refine ⟨⟨⟨⟨h.unitIds, ?_, h3⟩, h.partyIds⟩, h.candidateIds, ?_⟩, ⟨⟨⟨h.contestIds, h.contestOrders⟩,
      h.contests⟩, ?_⟩, ?_⟩
    · rw [ballotStyleLoop_fst _ _ _ _ h3]
      exact (pySetOf_length_map_iff _ _).2 h.styleIds
    · intro c hc
      cases hp : c.partyId with
      | none => rfl
      | some p => simpa using (hasParty_iff m p).1 (h.candidateParty c hc p hp)
    · intro c hc; exact (hasUnit_iff m _).1 (h.district c hc)
    · exact (primary_fold _ _ _).2
        ⟨rfl, fun c hc ps hps p hp => (hasParty_iff m p).1 (h.primaryParty c hc ps hps p hp)⟩

/-- A small manifest for the examples. -/
def exManifest : Manifest where
  electionScopeId := "e"
  specVersion := "1"
  type := "general"
  startDate := "a"
  endDate := "b"
  geopoliticalUnits := [⟨"u", "unit", "county", none⟩]
  parties := [⟨"p", ⟨[]⟩, none, none, none⟩]
  candidates := [⟨"x", ⟨[]⟩, some "p", none, none⟩, ⟨"y", ⟨[]⟩, none, none, none⟩]
  contests := [⟨"c", 0, "u", .one_of_m, 1, some 1, "contest", [⟨"sx", 0, "x"⟩, ⟨"sy", 1, "y"⟩], none, none, none⟩]
  ballotStyles := [⟨"s", some ["u"], none, none⟩]
  name := none
  contactInformation := none

example : exManifest.isValid = true ∧ { exManifest with parties := [] }.isValid = false := by decide

/-- C41 fails for ballot styles: a manifest whose ballot style names a party that does not exist is accepted. -/
theorem C41_style_party_fails : ∃ m : Manifest, m.isValid = true ∧
    ∃ s ∈ m.ballotStyles, ∃ ps, s.partyIds = some ps ∧ ∃ p ∈ ps, ¬ m.HasParty p := by
  refine ⟨{ exManifest with ballotStyles := [⟨"s", some ["u"], some ["nobody"], none⟩] }, by decide, _,
    List.mem_singleton.2 rfl, ["nobody"], rfl, "nobody", List.mem_singleton.2 rfl, ?_⟩
  rw [hasParty_iff]
  decide

/-- A related gap: a manifest whose selection names a candidate that does not exist is accepted. -/
theorem C41_selection_candidate_fails : ∃ m : Manifest, m.isValid = true ∧
    ∃ c ∈ m.contests, ∃ s ∈ c.ballotSelections, ∀ x ∈ m.candidates, x.objectId ≠ s.candidateId := by
  refine ⟨{ exManifest with candidates := [] }, by decide, _, List.mem_singleton.2 rfl, ⟨"sx", 0, "x"⟩, ?_, ?_⟩
  · exact List.mem_cons_self
  · simp

/-- A related gap: two contests of a valid manifest may use the same selection id. -/
theorem C41_selection_ids_not_unique_fails : ∃ m : Manifest, m.isValid = true ∧
    ∃ c ∈ m.contests, ∃ c' ∈ m.contests, c.objectId ≠ c'.objectId ∧
      ∃ s ∈ c.ballotSelections, ∃ s' ∈ c'.ballotSelections, s.objectId = s'.objectId := by
  let c : ContestDescription := ⟨"c", 0, "u", .one_of_m, 1, some 1, "contest", [⟨"sx", 0, "x"⟩], none, none, none⟩
  let c' : ContestDescription := ⟨"d", 1, "u", .one_of_m, 1, some 1, "contest", [⟨"sx", 0, "x"⟩], none, none, none⟩
  refine ⟨{ exManifest with contests := [c, c'] }, by decide, c, by simp, c', by simp, by decide, _,
    List.mem_cons_self, _, List.mem_cons_self, rfl⟩

/-- The placeholder at a given sequence order. -/
private def phAt (c : ContestDescription) (seq : Int) : SelectionDescription :=
  ⟨c.objectId ++ "-" ++ decStr seq ++ "-placeholder", seq, c.objectId ++ "-" ++ decStr seq ++ "-candidate"⟩

private theorem phAt_id_inj (c : ContestDescription) {i j : Int} (h : (phAt c i).objectId = (phAt c j).objectId) :
    i = j := by
  simp only [phAt] at h
  have h' := congrArg String.toList h
  simp only [String.toList_append, List.append_assoc, List.append_cancel_left_eq] at h'
  have h2 := List.append_cancel_right h'
  simp only [decStr, String.toList_ofList] at h2
  exact decInt_inj h2

private theorem generatePlaceholders_eq (c : ContestDescription) (n : Int) (hne : c.ballotSelections ≠ []) :
    ∃ m, (∀ s ∈ c.ballotSelections, s.sequenceOrder ≤ m) ∧
      generatePlaceholders c n = .ok ((List.range n.toNat).map (fun i : Nat => phAt c (m + 1 + (i : Int)))) := by
  unfold generatePlaceholders
  cases hm : pyMax (c.ballotSelections.map (·.sequenceOrder)) with
  | error e =>
    exfalso
    cases hb : c.ballotSelections with
    | nil => exact hne hb
    | cons s ss => rw [hb] at hm; simp [pyMax] at hm
  | ok m =>
    have hle : ∀ s ∈ c.ballotSelections, s.sequenceOrder ≤ m := fun s hs =>
      pyMax_spec hm _ (List.mem_map_of_mem hs)
    refine ⟨m, hle, ?_⟩
    simp only [bind, Except.bind]
    have hg : ∀ i : Nat, getOptional (generatePlaceholder c (m + 1 + (i : Int))) = .ok (phAt c (m + 1 + (i : Int))) := by
      intro i
      have : m + 1 + (i : Int) ∉ c.ballotSelections.map (·.sequenceOrder) := by
        intro hc
        obtain ⟨s, hs, he⟩ := List.mem_map.1 hc
        have := hle s hs
        omega
      simp [generatePlaceholder, this, getOptional, phAt, String.append_assoc]
    have : ∀ l : List Nat, l.mapM (fun i : Nat => getOptional (generatePlaceholder c (m + 1 + (i : Int))))
        = .ok (l.map (fun i : Nat => phAt c (m + 1 + (i : Int)))) := by
      intro l
      induction l with
      | nil => rfl
      | cons x xs ih => rw [List.mapM_cons, hg, ih]; rfl
    exact this _

/-- C40: for every contest with at least one selection the generation of placeholders succeeds, with
`number_elected` placeholders (none for a negative number), in orders after all real selections, with
distinct orders and ids. -/
theorem C40_generation (c : ContestDescription) (n : Int) (hne : c.ballotSelections ≠ []) :
    ∃ ps, generatePlaceholders c n = .ok ps ∧ ps.length = n.toNat ∧
      (ps.map SelectionDescription.sequenceOrder).Nodup ∧ (ps.map SelectionDescription.objectId).Nodup ∧
      (∀ p ∈ ps, ∀ s ∈ c.ballotSelections, s.sequenceOrder < p.sequenceOrder) ∧
      ∀ p ∈ ps, p.objectId = c.objectId ++ "-" ++ decStr p.sequenceOrder ++ "-placeholder" := by
  obtain ⟨m, hm, h⟩ := generatePlaceholders_eq c n hne
  refine ⟨_, h, by simp, ?_, ?_, ?_, ?_⟩
  · rw [List.map_map]
    refine (List.nodup_range).map ?_
    intro i j hij
    simp only [Function.comp, phAt] at hij
    omega
  · rw [List.map_map]
    refine (List.nodup_range).map ?_
    intro i j hij
    have := phAt_id_inj c hij
    omega
  · intro p hp s hs
    obtain ⟨i, _, rfl⟩ := List.mem_map.1 hp
    have := hm s hs
    simp only [phAt]
    omega
  · intro p hp
    obtain ⟨i, _, rfl⟩ := List.mem_map.1 hp
    rfl

/-- C40: generation fails exactly for a contest without selections, with `ValueError`. -/
theorem C40_failure (c : ContestDescription) (n : Int) :
    (∃ e, generatePlaceholders c n = .error e) ↔ c.ballotSelections = [] := by
  constructor
  · rintro ⟨e, he⟩
    by_contra hne
    obtain ⟨ps, h, _⟩ := C40_generation c n hne
    rw [h] at he; cases he
  · intro h
    refine ⟨.value, ?_⟩
    unfold generatePlaceholders
    rw [h]; rfl

/-- C40: with a non-negative number of seats, the contest description the internal manifest holds for a valid
contest is valid, unchanged but for the placeholders. -/
theorem C40_valid_partial (c : ContestDescription) (hne : c.ballotSelections ≠ []) (hv : ContestOk c)
    (hn : 0 ≤ c.numberElected) :
    ∃ ps, generatePlaceholders c c.numberElected = .ok ps ∧
      (ps.length : Int) = c.numberElected ∧
      (contestWithPlaceholdersFrom c ps).isValid = true ∧
      (contestWithPlaceholdersFrom c ps).ballotSelections = c.ballotSelections ∧
      (contestWithPlaceholdersFrom c ps).placeholders = ps := by
  obtain ⟨ps, h, hl, _⟩ := C40_generation c c.numberElected hne
  have hlen : (ps.length : Int) = c.numberElected := by rw [hl]; omega
  refine ⟨ps, h, hlen, ?_, rfl, rfl⟩
  unfold ContestWithPlaceholders.isValid
  simp only [Bool.and_eq_true, decide_eq_true_eq]
  refine ⟨?_, hlen⟩
  rw [ContestDescription.isValid_iff]
  exact ⟨hv.seats, hv.votes, hv.candidates, hv.ids, hv.orders, hv.variation⟩

example : ∃ c ∈ exManifest.contests, c.ballotSelections ≠ [] ∧ c.isValid = true ∧ 0 ≤ c.numberElected ∧
    generatePlaceholders c c.numberElected = .ok [⟨"c-2-placeholder", 2, "c-2-candidate"⟩] := by
  refine ⟨_, List.mem_singleton.2 rfl, ?_⟩
  decide +kernel

/-- C40 fails for a negative number of seats: the description passes its own check, but the description with
placeholders does not. -/
theorem C40_negative_seats_fails : ∃ c : ContestDescription, c.isValid = true ∧ c.ballotSelections ≠ [] ∧
    ∃ ps, generatePlaceholders c c.numberElected = .ok ps ∧ (contestWithPlaceholdersFrom c ps).isValid = false := by
  refine ⟨⟨"c", 0, "u", .one_of_m, -1, none, "contest", [⟨"sx", 0, "x"⟩], none, none, none⟩, by decide, by decide,
    [], rfl, by decide⟩

/-- C40: the internal manifest of a valid manifest whose contests have selections and a non-negative number of
seats: every contest is the one of the manifest with `number_elected` placeholders after the real selections, and
valid. -/
theorem C40_internal_manifest_partial (E : Env) (m : Manifest) (hm : ManifestOk m)
    (hne : ∀ c ∈ m.contests, c.ballotSelections ≠ []) (hn : ∀ c ∈ m.contests, 0 ≤ c.numberElected) :
    ∃ im, mkInternalManifest E m = .ok im ∧ im.geopoliticalUnits = m.geopoliticalUnits ∧
      im.ballotStyles = m.ballotStyles ∧ im.manifestHash = m.cryptoHash E ∧
      List.Forall₂ (fun c d => d.toContestDescription = { c with primaryPartyIds := none } ∧ d.isValid = true ∧
        (d.placeholders.length : Int) = c.numberElected ∧
        (d.placeholders.map SelectionDescription.sequenceOrder).Nodup ∧
        (d.placeholders.map SelectionDescription.objectId).Nodup ∧
        (∀ p ∈ d.placeholders, ∀ s ∈ c.ballotSelections, s.sequenceOrder < p.sequenceOrder) ∧
        ∀ p ∈ d.placeholders, p.objectId = c.objectId ++ "-" ++ decStr p.sequenceOrder ++ "-placeholder")
        m.contests im.contests := by
  have gen : ∀ l : List ContestDescription, (∀ c ∈ l, ContestOk c) → (∀ c ∈ l, c.ballotSelections ≠ []) →
      (∀ c ∈ l, 0 ≤ c.numberElected) →
      ∃ ds, l.mapM (fun c => do
        let ps ← generatePlaceholders c c.numberElected
        return contestWithPlaceholdersFrom c ps) = (.ok ds : R _) ∧
      List.Forall₂ (fun c d => d.toContestDescription = { c with primaryPartyIds := none } ∧ d.isValid = true ∧
        (d.placeholders.length : Int) = c.numberElected ∧
        (d.placeholders.map SelectionDescription.sequenceOrder).Nodup ∧
        (d.placeholders.map SelectionDescription.objectId).Nodup ∧
        (∀ p ∈ d.placeholders, ∀ s ∈ c.ballotSelections, s.sequenceOrder < p.sequenceOrder) ∧
        ∀ p ∈ d.placeholders, p.objectId = c.objectId ++ "-" ++ decStr p.sequenceOrder ++ "-placeholder") l ds := by
    intro l
    induction l with
    | nil => intro _ _ _; exact ⟨[], rfl, .nil⟩
    | cons c cs ih =>
      intro h1 h2 h3
      obtain ⟨ds, hd, hf⟩ := ih (fun x hx => h1 x (by simp [hx])) (fun x hx => h2 x (by simp [hx]))
        (fun x hx => h3 x (by simp [hx]))
      obtain ⟨ps, hp, hl, hv, _⟩ := C40_valid_partial c (h2 c (by simp)) (h1 c (by simp)) (h3 c (by simp))
      obtain ⟨ps', hp', _, ho, hi, hlt, hform⟩ := C40_generation c c.numberElected (h2 c (by simp))
      rw [hp] at hp'
      cases hp'
      refine ⟨contestWithPlaceholdersFrom c ps :: ds, ?_, .cons ⟨rfl, hv, hl, ho, hi, hlt, hform⟩ hf⟩
      rw [List.mapM_cons, hd, hp]
      rfl
  obtain ⟨ds, hd, hf⟩ := gen m.contests hm.contests hne hn
  refine ⟨⟨m.geopoliticalUnits, ds, m.ballotStyles, m.cryptoHash E⟩, ?_, rfl, rfl, rfl, hf⟩
  unfold mkInternalManifest generateContestsWithPlaceholders
  rw [hd]
  rfl

/-- C40: if moreover no selection has the id of a placeholder, then in the internal manifest the ids of contests
differ, and so do the ids of selections and placeholders within each contest. -/
theorem C40_unique_ids_partial (E : Env) (m : Manifest) (hm : ManifestReady m) :
    ∃ im, mkInternalManifest E m = .ok im ∧ im.UniqueIds ∧
      im.contests.Pairwise (fun c d => c.sequenceOrder ≤ d.sequenceOrder) ∧
      im.ballotStyles = m.ballotStyles ∧ im.manifestHash = m.cryptoHash E ∧
      im.contests.map (fun d => d.toContestDescription)
        = m.contests.map (fun c => { c with primaryPartyIds := none }) ∧
      ∀ d ∈ im.contests, d.isValid = true ∧ d.ballotSelections ≠ [] := by
  obtain ⟨im, h1, -, h3, h4, hf⟩ := C40_internal_manifest_partial E m hm.ok hm.nonempty hm.seats
  have hmap : im.contests.map (fun d => d.toContestDescription)
      = m.contests.map (fun c => { c with primaryPartyIds := none }) := by
    clear * - hf
    generalize im.contests = ds at hf
    generalize m.contests = cs at hf
    induction hf with
    | nil => rfl
    | cons hh _ ih => simp [hh.1, ih]
  refine ⟨im, h1, ⟨?_, ?_⟩, ?_, h3, h4, hmap, ?_⟩
  · have := congrArg (List.map ContestDescription.objectId) hmap
    rw [List.map_map, List.map_map] at this
    have e : im.contests.map (fun d => d.objectId) = m.contests.map ContestDescription.objectId := this
    rw [e]; exact hm.ok.contestIds
  · intro d hd
    obtain ⟨c, hc, k1, k2, k3, k4, k5, k6, k7⟩ := forall₂_mem_right hf hd
    have hsel : d.ballotSelections = c.ballotSelections := by rw [k1]
    rw [List.map_append, List.nodup_append]
    refine ⟨by rw [hsel]; exact (hm.ok.contests c hc).ids, k5, ?_⟩
    intro a ha b hb hab
    obtain ⟨s, hs, rfl⟩ := List.mem_map.1 ha
    obtain ⟨p, hp, rfl⟩ := List.mem_map.1 hb
    rw [hsel] at hs
    exact hm.fresh c hc s hs p.sequenceOrder (hab.trans (k7 p hp))
  · have := congrArg (List.map ContestDescription.sequenceOrder) hmap
    rw [List.map_map, List.map_map] at this
    have e : im.contests.map (fun d => d.sequenceOrder) = m.contests.map ContestDescription.sequenceOrder := this
    have hp : (m.contests.map ContestDescription.sequenceOrder).Pairwise (fun a b => a ≤ b) :=
      List.pairwise_map.2 hm.sorted
    rw [← e] at hp
    exact List.pairwise_map.1 hp
  · intro d hd
    obtain ⟨c, hc, k1, k2, -⟩ := forall₂_mem_right hf hd
    exact ⟨k2, by rw [k1]; exact hm.nonempty c hc⟩

/-- C42: two manifests with plain texts and the same hash have the same content, except for the candidates, the
specification version, the primary party ids and the difference between an empty and a missing list; or there is a
collision among the texts hashed for the two manifests.  These exceptions are what is missing from the full claim. -/
theorem C42_binding_partial (E : Env) (m m' : Manifest) (hm : m.Plain) (hm' : m'.Plain)
    (h : m.cryptoHash E = m'.cryptoHash E) : m.core = m'.core ∨ CollisionIn E (m.texts E ++ m'.texts E) :=
  or_collision _ fun hE => Manifest.bind hE m m' ⟨hm, fun t ht => by simp [ht]⟩ ⟨hm', fun t ht => by simp [ht]⟩ h

/-- C42: the same for the hash of a contest description, to which ballots are bound. -/
theorem C42_contest_binding_partial (E : Env) (c c' : ContestDescription) (hc : c.Plain) (hc' : c'.Plain)
    (h : c.cryptoHash E = c'.cryptoHash E) : c.core = c'.core ∨ CollisionIn E (c.texts E ++ c'.texts E) :=
  or_collision _ fun hE => ContestDescription.bind hE c c' ⟨hc, fun t ht => by simp [ht]⟩ ⟨hc', fun t ht => by simp [ht]⟩ h

/-- C42: the hash of a selection description binds it completely. -/
theorem C42_selection_binding (E : Env) (s s' : SelectionDescription) (hs : s.Plain) (hs' : s'.Plain)
    (h : s.cryptoHash E = s'.cryptoHash E) : s = s' ∨ CollisionIn E (s.texts E ++ s'.texts E) :=
  or_collision _ fun hE => SelectionDescription.bind hE s s' ⟨hs, fun t ht => by simp [ht]⟩ ⟨hs', fun t ht => by simp [ht]⟩ h

/-- The example manifest meets the hypothesis of the binding theorems. -/
theorem exManifest_plain : exManifest.Plain where
  scope := by decide
  type := by decide
  startDate := by decide
  endDate := by decide
  name := by simp [exManifest]
  contact := by simp [exManifest]
  units := by
    intro u hu
    rw [List.mem_singleton.1 hu]
    exact ⟨by decide, by decide, by decide, by simp⟩
  parties := by
    intro u hu
    rw [List.mem_singleton.1 hu]
    exact ⟨by decide, by simp [InternationalizedText.Plain], by simp, by simp, by simp⟩
  contests := by
    intro u hu
    rw [List.mem_singleton.1 hu]
    refine ⟨by decide, by decide, by decide, by simp, by simp, ?_⟩
    simp only [List.forall_mem_cons]
    exact ⟨⟨by decide, by decide⟩, ⟨by decide, by decide⟩, by simp⟩
  styles := by
    intro u hu
    rw [List.mem_singleton.1 hu]
    refine ⟨by decide, ?_, by simp, by simp⟩
    intro l hl s hs
    cases hl
    rw [List.mem_singleton.1 hs]
    decide

/-- C42 fails for candidates: with every hash function, removing all candidates does not change the hash. -/
theorem C42_candidates_fails (E : Env) : ∃ m m' : Manifest, m.isValid = true ∧ m'.isValid = true ∧
    m.candidates ≠ m'.candidates ∧ m.cryptoHash E = m'.cryptoHash E :=
  ⟨exManifest, { exManifest with candidates := [] }, by decide, by decide, by decide, rfl⟩

/-- C42 fails for the specification version and for primary party ids. -/
theorem C42_version_and_primary_fails (E : Env) : ∃ m m' : Manifest, m.isValid = true ∧ m'.isValid = true ∧
    m.specVersion ≠ m'.specVersion ∧
    m.contests.map ContestDescription.primaryPartyIds ≠ m'.contests.map ContestDescription.primaryPartyIds ∧
    m.cryptoHash E = m'.cryptoHash E :=
  ⟨exManifest, { exManifest with
      specVersion := "2"
      contests := [⟨"c", 0, "u", .one_of_m, 1, some 1, "contest", [⟨"sx", 0, "x"⟩, ⟨"sy", 1, "y"⟩], none, none,
        some ["p"]⟩] }, by decide, by decide, by decide, by decide, rfl⟩

/-- C42 fails for texts that are not plain: a ballot style without an image and one with the image "null" have the
same hash, and a separator can be moved between neighbouring texts. -/
theorem C42_ambiguous_text_fails (E : Env) :
    (⟨"s", none, none, none⟩ : BallotStyle).cryptoHash E = (⟨"s", none, none, some "null"⟩ : BallotStyle).cryptoHash E ∧
    (⟨"a|b", "c"⟩ : AnnotatedString).cryptoHash E = (⟨"a", "b|c"⟩ : AnnotatedString).cryptoHash E := by
  constructor
  · unfold BallotStyle.cryptoHash BallotStyle.hashArgs hashElems hashText
    simp [encs, tok, HArg.ofOptStr, HArg.ofOptList]
  · unfold AnnotatedString.cryptoHash AnnotatedString.hashArgs hashElems hashText
    simp [encs, tok]

end EG
