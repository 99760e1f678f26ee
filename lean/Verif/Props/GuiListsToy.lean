import Verif.Props.GuiLists

/-!
# C90: where names and numbers go wrong, and examples
-/

namespace EG

/-- An election is built with the numbers of the ceremony. -/
def toyListBuild (d : KCDoc) : R (Int × Int) := .ok (d.guardianCount, d.quorum)

/-- A ceremony for three guardians and an election, by two calls. -/
def toyWhole : List WholeEvent := [.call "k1" (.ceremony "Keys" 3 2), .call "e1" (.election "k1" "Spring" toyListBuild)]

/-- The same in single requests of one front end. -/
def toySingle : List ListsEvent :=
  .call 0 (.ceremony "Keys" 3 2) :: List.replicate 5 (.step 0 "k1") ++
  .call 0 (.election "k1" "Spring" toyListBuild) :: List.replicate 5 (.step 0 "e1")

/-- Two front ends ask for the same name; both look before either inserts. -/
def toyOverlap : List ListsEvent :=
  toySingle ++
  [.call 0 (.decryption "e1" "Count"), .call 1 (.decryption "e1" "Count"), .step 0 "", .step 1 "", .step 0 "", .step 1 "",
    .step 0 "d1", .step 1 "d2", .step 0 "", .step 1 "", .step 1 "", .step 0 "",
    .call 0 (.ceremony "More" 1 1), .call 1 (.ceremony "More" 2 1), .step 0 "", .step 1 "", .step 0 "k2", .step 1 "k3", .step 0 "",
    .step 1 "",
    .call 0 (.election "k1" "Fall" toyListBuild), .call 1 (.election "k1" "Fall" toyListBuild), .step 0 "", .step 1 "", .step 0 "", .step 1 "",
    .step 0 "e2", .step 1 "e3"]

/-- Whether a call has ended. -/
def Progress.isDone : Progress → Bool
  | .done _ => true
  | _ => false

theorem quiet_of_all {s : ListsState} (h : s.calls.all (fun c => c.2.isDone) = true) : s.Quiet := by
  intro client p hp
  have := List.all_eq_true.1 h _ (mem_of_dget hp)
  cases p <;> first | exact ⟨_, rfl⟩ | cases this

/-- **C90** fails when calls overlap: two front ends that ask for the same name at the same time both succeed, and there are two
decryptions, two ceremonies and two elections with one name. -/
theorem C90_names_fails :
    ∃ es : List ListsEvent, ∃ s, s = (⟨.empty, []⟩ : ListsState).steps es ∧ s.Quiet ∧
      ¬ (s.db.ceremonies.map (fun c => c.2.name)).Nodup ∧ ¬ (s.db.elections.map (fun c => c.2.name)).Nodup ∧
      ¬ (s.db.decryptions.map (fun c => c.2.name)).Nodup := by
  refine ⟨toyOverlap, _, rfl, ?_, ?_, ?_, ?_⟩
  · exact quiet_of_all (by decide +kernel)
  · have : ((⟨.empty, []⟩ : ListsState).steps toyOverlap).db.ceremonies.map (fun c => c.2.name) = ["Keys", "More", "More"] := by
      decide +kernel
    rw [this]
    decide
  · have : ((⟨.empty, []⟩ : ListsState).steps toyOverlap).db.elections.map (fun c => c.2.name) = ["Spring", "Fall", "Fall"] := by
      decide +kernel
    rw [this]
    decide
  · have : ((⟨.empty, []⟩ : ListsState).steps toyOverlap).db.decryptions.map (fun c => c.2.name) = ["Count", "Count"] := by
      decide +kernel
    rw [this]
    decide

/-- The election of that run shows both, in the order in which the calls ended, which is not that of the documents (`C90_listed`: a
permutation). -/
example : ((⟨.empty, []⟩ : ListsState).steps toyOverlap).db.decryptionsOf "e1" = .ok [("d2", "Count"), ("d1", "Count")] ∧
    decryptionsIn ((⟨.empty, []⟩ : ListsState).steps toyOverlap).db "e1" = [("d1", "Count"), ("d2", "Count")] := by decide +kernel

/-- `C90_names_partial`, `C90_listed` and `C90_suggested_number` on these events. -/
example : DistinctNames (ListsDb.empty.wholes toyWhole) := C90_names_partial toyWhole
example : (ListsDb.empty.wholes toyWhole).names.elections = [("e1", "Spring")] := rfl

/-- **C90** fails for the number of ballots: it is that of the time when the decryption was created.  Ballots that are uploaded
afterwards belong to the election, and the guardians who join later decrypt them, but the decryption shows the old number. -/
theorem C90_ballots_fails :
    ∃ es : List WholeEvent, ∃ d ∈ (ListsDb.empty.wholes es).decryptions, ∃ e,
      dget (ListsDb.empty.wholes es).elections d.2.doc.electionId = some e ∧ d.2.doc.joined = [] ∧
        d.2.ballotCount ≠ (e.uploads.map (·.ballotCount)).sum :=
  ⟨toyWhole ++ [.work (.uploads "e1" (fun _ => [⟨"u1", 2⟩])), .call "d1" (.decryption "e1" "Count"),
    .work (.uploads "e1" (fun us => us ++ [⟨"u2", 5⟩]))],
    ("d1", ⟨"Count", "Spring", "k1", 2, 2, 1, ⟨"e1", 3, [], [], none⟩⟩), by decide, ⟨"Spring", "k1", 3, 2, [⟨"u1", 2⟩, ⟨"u2", 5⟩],
    [⟨"d1", "Count"⟩]⟩, by decide, rfl, by decide⟩

/-- **C90**: a suggestion that is taken is refused, and is what the GUI suggests again. -/
theorem C90_suggestion_stuck (db : ListsDb) (newId eid name : String) (hname : db.suggest eid = .ok name)
    (htaken : ∃ d ∈ db.decryptions, d.2.name = name) :
    (db.run newId (.decryption eid name)).2 = .done .fail ∧ (db.run newId (.decryption eid name)).1.suggest eid = .ok name := by
  have hex : db.decryptionExists name = true := by
    rw [decryptionExists_iff, List.mem_map]
    exact htaken
  rw [run_decryption]
  split
  · exact ⟨rfl, hname⟩
  · simp only [hex, if_true]
    exact ⟨trivial, hname⟩

/-- **C90** fails for suggestions: when somebody has chosen the name "Spring Tally #2" for the first decryption, the GUI suggests the
name again for the second one, and refuses it. -/
theorem C90_suggestion_fails :
    ∃ es : List WholeEvent, ∃ name, (ListsDb.empty.wholes es).suggest "e1" = .ok name ∧
      ∀ newId, ((ListsDb.empty.wholes es).run newId (.decryption "e1" name)).2 = .done .fail := by
  refine ⟨toyWhole ++ [.call "d1" (.decryption "e1" "Spring Tally #2")], "Spring Tally #2", by decide, ?_⟩
  intro newId
  refine (C90_suggestion_stuck _ newId "e1" _ (by decide) ?_).1
  exact ⟨("d1", ⟨"Spring Tally #2", "Spring", "k1", 2, 0, 0, ⟨"e1", 3, [], [], none⟩⟩), by decide, rfl⟩

/-- `C90_suggestion_partial`: a second decryption under the suggested name. -/
example : ((ListsDb.empty.wholes (toyWhole ++ [.call "d1" (.decryption "e1" "Spring Tally #1")])).run "d2"
    (.decryption "e1" "Spring Tally #2")).2 = .done (.success "d2") := by
  have h0 : Suggesting (ListsDb.empty.run "k1" (.ceremony "Keys" 3 2)).1 := .ceremony .start _ _ _ _
  have h1 := Suggesting.election h0 "e1" "k1" "Spring" toyListBuild
  have h2 := Suggesting.decryption h1 "d1" "e1" "Spring Tally #1" (by decide)
  exact C90_suggestion_partial h2 "d2" "e1" "Spring Tally #2" (by decide) (by decide)

/-- `C90_decryption_iff`, `C90_ceremony_iff`: names and numbers that are refused, and a ceremony without any guardian. -/
example : ((ListsDb.empty.wholes toyWhole).run "x" (.decryption "e2" "Count")).2 = .done .fail := rfl
example : ((ListsDb.empty.wholes toyWhole).run "x" (.ceremony "Keys" 3 2)).2 = .done .fail := rfl
example : ((ListsDb.empty.wholes toyWhole).run "x" (.ceremony "Other" 2 3)).2 = .done .fail := rfl
example : ((ListsDb.empty.wholes toyWhole).run "x" (.ceremony "Other" 0 (-1))).2 = .done (.success "x") := rfl

end EG
