import Verif.Props.GuiDecryptionLive

/-!
# C70: instances, and what goes wrong in the decryption of the GUI
-/

namespace EG

variable {E : Env}

/-! ### The status -/

theorem step_status (maxE : Nat) (parse : List Char → Option SBallot) (guardianOf : String → Option Guardian)
    (n : Int) (w : GuiWorld) (ev : GuiEvent)
    (h : w.dec.guardians = n ∧ (∀ d ∈ w.reads, d.guardians = n ∧ d.joined.length ≤ w.dec.joined.length) ∧
      (w.results ≠ [] → n ≤ w.dec.joined.length) ∧ (w.dec.completed ≠ none → w.results ≠ [])) :
    (w.step E maxE parse guardianOf ev).dec.guardians = n ∧
    (∀ d ∈ (w.step E maxE parse guardianOf ev).reads,
      d.guardians = n ∧ d.joined.length ≤ (w.step E maxE parse guardianOf ev).dec.joined.length) ∧
    ((w.step E maxE parse guardianOf ev).results ≠ [] → n ≤ (w.step E maxE parse guardianOf ev).dec.joined.length) ∧
    ((w.step E maxE parse guardianOf ev).dec.completed ≠ none → (w.step E maxE parse guardianOf ev).results ≠ []) := by
  obtain ⟨h1, h2, h3, h4⟩ := h
  cases ev with
  | upload uid eid fn contents => exact ⟨h1, h2, h3, h4⟩
  | createUpload eid newId device => exact ⟨h1, h2, h3, h4⟩
  | joinCompute user net seeds =>
    unfold GuiWorld.step
    dsimp only
    split <;> exact ⟨h1, h2, h3, h4⟩
  | joinShare i =>
    unfold GuiWorld.step
    dsimp only
    split <;> exact ⟨h1, h2, h3, h4⟩
  | joinId i =>
    unfold GuiWorld.step
    dsimp only
    split
    · exact ⟨h1, h2, h3, h4⟩
    next r hr =>
    have hl : w.dec.joined.length ≤ (w.dec.pushJoined r.1.guardianId).joined.length := by
      simp [GuiDecryption.pushJoined]
    refine ⟨h1, fun d hd => ⟨(h2 d hd).1, (h2 d hd).2.trans hl⟩, fun hr => (h3 hr).trans ?_, h4⟩
    exact_mod_cast hl
  | adminRead =>
    refine ⟨h1, fun d hd => ?_, h3, h4⟩
    rcases List.mem_append.1 hd with hd | hd
    · exact h2 d hd
    · rw [List.mem_singleton] at hd
      subst hd
      exact ⟨h1, le_refl _⟩
  | adminCompute i net =>
    unfold GuiWorld.step
    dsimp only
    split
    · exact ⟨h1, h2, h3, h4⟩
    next d hd =>
    split
    next hs =>
      split
      · exact ⟨h1, h2, h3, h4⟩
      · refine ⟨h1, h2, fun _ => ?_, fun _ => by simp⟩
        obtain ⟨hg, hl⟩ := h2 d (List.mem_of_getElem? hd)
        unfold s2ShouldRun at hs
        simp only [Bool.true_and, Bool.and_eq_true, decide_eq_true_eq] at hs
        rw [← hg]
        exact hs.1.trans (by exact_mod_cast hl)
    · exact ⟨h1, h2, h3, h4⟩
  | complete i =>
    unfold GuiWorld.step
    dsimp only
    split
    · exact ⟨h1, h2, h3, h4⟩
    next r hr =>
    refine ⟨h1, h2, h3, fun _ hn => ?_⟩
    have := List.mem_of_getElem? hr
    dsimp only at hn
    rw [hn] at this
    cases this

/-- C70 Whatever happens in which order: a decryption with a result is shown as complete, one without a result never is. -/
theorem C70_status (maxE : Nat) (parse : List Char → Option SBallot) (guardianOf : String → Option Guardian) (db : GuiDb)
    (eid : String) (n : Int) (evs : List GuiEvent) :
    ((GuiWorld.start db eid n).run E maxE parse guardianOf evs).dec.status = .complete ↔
      ((GuiWorld.start db eid n).run E maxE parse guardianOf evs).dec.completed ≠ none := by
  have key : ∀ evs, let w := (GuiWorld.start db eid n).run E maxE parse guardianOf evs
      w.dec.guardians = n ∧ (∀ d ∈ w.reads, d.guardians = n ∧ d.joined.length ≤ w.dec.joined.length) ∧
      (w.results ≠ [] → n ≤ w.dec.joined.length) ∧ (w.dec.completed ≠ none → w.results ≠ []) := by
    intro evs
    induction evs using List.reverseRecOn with
    | nil => exact ⟨rfl, fun d hd => (by cases hd), fun h => absurd rfl h, fun h => absurd rfl h⟩
    | append_singleton evs ev ih =>
      intro w
      have : w = ((GuiWorld.start db eid n).run E maxE parse guardianOf evs).step E maxE parse guardianOf ev := by
        simp only [w]
        unfold GuiWorld.run
        rw [List.foldl_append]
        rfl
      rw [this]
      exact step_status maxE parse guardianOf n _ ev ih
  obtain ⟨h1, -, h3, h4⟩ := key evs
  constructor
  · intro h hn
    unfold GuiDecryption.status at h
    rw [hn] at h
    split at h
    · cases h
    · cases h
  · intro h
    have := h3 (h4 h)
    unfold GuiDecryption.status
    rw [h1, if_neg (by omega), if_neg]
    simpa using h

/-! ### The toy election -/

/-- The guardians of the toy election in the GUI. -/
def toyGuiTeam : List Guardian := toyPairs.map (fun kp => ⟨kp, ⟨3, 2⟩, [], [], [], []⟩)

/-- Their private files. -/
def toyGuiFiles (user : String) : Option Guardian := toyGuiTeam.find? (fun g => g.id == user)

/-- The files of three ballots: two that are cast and one that is spoiled. -/
def toyGuiBallots : List (List Char × SBallot) :=
  [("b}".toList, toyVoted "b" 1 0 1 3 .cast), ("v}".toList, toyVoted "v" 0 1 1 3 .cast),
   ("w}".toList, toyVoted "w" 0 1 1 3 .spoiled)].map (fun e => (e.1, submitBallot toyEnv e.2.enc e.2.state))

/-- A parser for the files. -/
def toyGuiRead : List Char → Option SBallot := toyRead toyGuiBallots

/-- The election in the database. -/
def toyGuiElection : ElectionDoc := ⟨toyManifest, toyDCtx, [("a", 1), ("b", 2), ("c", 3)], []⟩

/-- The database. -/
def toyGuiDb : GuiDb := ⟨[("e", toyGuiElection)], []⟩

/-- The random numbers of a guardian. -/
def toySeeds : JoinSeeds := ⟨fun i j => i + 3 * j + 1, fun b i j => b + i + 2 * j + 1⟩

/-- The upload of a ballot. -/
def toyUp (file : String) : List GuiEvent := [.upload "u" "e" file file.toList]

/-- A guardian joins; `i` guardians joined before. -/
def toyJoin (user : String) (i : Nat) : List GuiEvent :=
  [.joinCompute user (fun _ _ => true) toySeeds, .joinShare i, .joinId i]

/-- The administrator opens the decryption; it was opened `i` times before. -/
def toyAdmin (i : Nat) : List GuiEvent := [.adminRead, .adminCompute i (fun _ _ => true), .complete 0]

/-- A run of the GUI. -/
def toyGui (evs : List (List GuiEvent)) : GuiWorld :=
  (GuiWorld.start toyGuiDb "e" 3).run toyEnv 12 toyGuiRead toyGuiFiles evs.flatten

example : ElectionTeam extraSmall toyGuiElection toyGuiTeam where
  ids := by decide +kernel
  keys := by decide +kernel
  records := by decide +kernel
  joint := by decide +kernel
  count := by decide +kernel
  hash := by decide +kernel

example : OwnFiles toyGuiFiles toyGuiTeam := by
  intro user g h
  exact ⟨List.mem_of_find?_eq_some h, by simpa using List.find?_some h⟩

example : ∀ g ∈ toyGuiTeam, 0 ≤ g.electionKeys.sequenceOrder := by decide +kernel

example : (toyGuiTeam.map (fun g => (g.electionKeys.sequenceOrder : ZMod 13))).Nodup := by decide +kernel

/-- The two cast ballots are counted and the spoiled ballot is reported. -/
example : let w := toyGui [toyUp "b}", toyUp "v}", toyUp "w}", toyJoin "b" 0, toyJoin "a" 1, toyJoin "c" 2, toyAdmin 0]
    w.dec.completed.map (fun r => r.tally.numbers) = some [("c", [("sx", 1), ("sy", 1)]), ("d", [("sz", 2)])] ∧
    w.dec.completed.map (fun r => dkeys r.ballots) = some ["w"] ∧
    w.dec.completed.map (fun r => r.ballots.flatMap (fun x => x.2.numbers))
      = some [("c", [("sx", 0), ("sy", 1)]), ("d", [("sz", 1)])] := by
  decide +kernel

/-- An administrator that opens the decryption too early changes nothing. -/
example : (toyGui [toyUp "b}", toyUp "v}", toyJoin "b" 0, toyJoin "a" 1, toyAdmin 0]).dec.completed.isNone = true ∧
    (toyGui [toyUp "b}", toyUp "v}", toyJoin "b" 0, toyJoin "a" 1, toyAdmin 0, toyJoin "c" 2,
      toyAdmin 1]).dec.completed.map (fun r => r.tally.numbers)
    = some [("c", [("sx", 1), ("sy", 1)]), ("d", [("sz", 2)])] := by
  decide +kernel

/-! ### What goes wrong -/

/-- C70 (negative) Completion fails when a ballot comes in after a guardian joined: the proofs of this guardian are for the
tally without the ballot, stage 2 raises, and it still raises after the guardian joined again, because the first shares of a
guardian are announced and later ones are ignored.  All guardians joined, nobody can do anything more. -/
theorem C70_late_ballot_fails :
    let w := toyGui [toyUp "b}", toyJoin "a" 0, toyUp "v}", toyJoin "b" 1, toyJoin "c" 2, toyAdmin 0, toyJoin "a" 3,
      toyJoin "b" 4, toyJoin "c" 5, toyAdmin 1]
    w.dec.joined = ["a", "b", "c", "a", "b", "c"] ∧ w.db.ballots.length = 2 ∧ s2ShouldRun w.dec true = true ∧
      w.dec.status = .performing ∧ w.results.isEmpty = true ∧
      (s2Compute toyEnv 12 toyGuiRead (fun _ _ => true) w.db w.dec).toBool = false := by
  decide +kernel

/-- C70 (negative) A spoiled ballot that comes in after a guardian joined is left out without a word: the decryption is
complete, the ballot is stored and in the ciphertext tally, and it is not among the decrypted ballots. -/
theorem C70_late_spoiled_fails :
    let w := toyGui [toyUp "b}", toyUp "v}", toyJoin "a" 0, toyUp "w}", toyJoin "b" 1, toyJoin "c" 2, toyAdmin 0]
    w.dec.status = .complete ∧ w.db.ballots.map (fun d => d.objectId) = ["b", "v", "w"] ∧
      w.dec.completed.map (fun r => (r.ciphertextTally.spoiledIds, dkeys r.ballots)) = some (["w"], []) := by
  decide +kernel

/-- C70 (negative) A guardian that joins twice is counted twice, although `can_join` was false: the decryption is shown as
being performed and stage 2 runs, and raises, although a guardian is missing. -/
theorem C70_joined_twice_fails :
    let w := toyGui [toyUp "b}", toyUp "v}", toyJoin "a" 0, toyJoin "a" 1, toyJoin "b" 2]
    w.dec.status = .performing ∧ "c" ∉ w.dec.joined ∧ s2ShouldRun w.dec true = true ∧
      (s2Compute toyEnv 12 toyGuiRead (fun _ _ => true) w.db w.dec).toBool = false := by
  decide +kernel

end EG
