import Verif.Lemmas.GuiLists

/-!
# C90: the lists of key ceremonies, elections and decryptions in the GUI
-/

namespace EG

/-! ## Calls that nothing interrupts -/

theorem go_succ (newId : String) (n : Nat) (db : ListsDb) (p : Progress) :
    p.go newId (n + 1) db = (p.step newId db).2.go newId n (p.step newId db).1 := rfl

theorem go_done (newId : String) (n : Nat) (db : ListsDb) (a : Answer) :
    (Progress.done a).go newId n db = (db, .done a) := by
  induction n with
  | zero => rfl
  | succ n ih => exact ih

/-- `create_decryption` as a whole. -/
theorem run_decryption (db : ListsDb) (newId eid name : String) :
    db.run newId (.decryption eid name) =
      match dget db.elections eid with
      | none => (db, .done .fail)
      | some e => if db.decryptionExists name then (db, .done .fail) else
        match dget db.decryptions newId with
        | some _ => (db, .done .fail)
        | none => ((({ db with decryptions := dset db.decryptions newId (.create eid e name) } : ListsDb).notify
            "decryptions" newId).appendDecryption eid newId name, .done (.success newId)) := by
  unfold ListsDb.run
  rw [Call.start, go_succ, Progress.step]
  cases h : dget db.elections eid with
  | none => exact go_done _ _ _ _
  | some e =>
    dsimp only
    rw [go_succ, Progress.step]
    cases hn : db.decryptionExists name with
    | true => exact go_done _ _ _ _
    | false =>
      rw [if_neg (by decide), if_neg (by decide), go_succ, Progress.step]
      cases hd : dget db.decryptions newId with
      | some d => exact go_done _ _ _ _
      | none =>
        dsimp only
        rw [go_succ, Progress.step]
        dsimp only
        rw [go_succ, Progress.step]
        exact go_done _ _ _ _

/-- `create_key_ceremony` as a whole. -/
theorem run_ceremony (db : ListsDb) (newId name : String) (gc q : Int) :
    db.run newId (.ceremony name gc q) =
      if gc < q then (db, .done .fail) else if db.ceremonyExists name then (db, .done .fail) else
        match dget db.ceremonies newId with
        | some _ => (db, .done .raised)
        | none => (({ db with ceremonies := dset db.ceremonies newId ⟨name, KCDoc.create gc q⟩ } : ListsDb).notify
            "key_ceremonies" newId, .done (.success newId)) := by
  unfold ListsDb.run
  rw [Call.start]
  by_cases hq : gc < q
  · rw [if_pos hq, if_pos hq]
    exact go_done _ _ _ _
  · rw [if_neg hq, if_neg hq, go_succ, Progress.step]
    cases hn : db.ceremonyExists name with
    | true => exact go_done _ _ _ _
    | false =>
      rw [if_neg (by decide), if_neg (by decide), go_succ, Progress.step]
      cases hd : dget db.ceremonies newId with
      | some d => exact go_done _ _ _ _
      | none =>
        dsimp only
        rw [go_succ, Progress.step]
        exact go_done _ _ _ _

/-- `create_election` as a whole. -/
theorem run_election (db : ListsDb) (newId kc name : String) (build : KCDoc → R (Int × Int)) :
    db.run newId (.election kc name build) =
      if db.electionExists name then (db, .done .fail) else
        match dget db.ceremonies kc with
        | none => (db, .done .fail)
        | some c => match build c.doc with
          | .error _ => (db, .done .fail)
          | .ok (g, q) => match dget db.elections newId with
            | some _ => (db, .done .fail)
            | none => ({ db with elections := dset db.elections newId ⟨name, kc, g, q, [], []⟩ },
                .done (.success newId)) := by
  unfold ListsDb.run
  rw [Call.start, go_succ, Progress.step]
  cases hn : db.electionExists name with
  | true => exact go_done _ _ _ _
  | false =>
    rw [if_neg (by decide), if_neg (by decide), go_succ, Progress.step]
    cases hd : dget db.ceremonies kc with
    | none => exact go_done _ _ _ _
    | some c =>
      dsimp only
      cases hb : build c.doc with
      | error x => exact go_done _ _ _ _
      | ok gq =>
        obtain ⟨g, q⟩ := gq
        dsimp only
        rw [go_succ, Progress.step]
        cases he : dget db.elections newId with
        | none => exact go_done _ _ _ _
        | some e => exact go_done _ _ _ _

/-- Whether a name is taken. -/
theorem decryptionExists_iff (db : ListsDb) (name : String) :
    db.decryptionExists name = true ↔ name ∈ db.decryptions.map (fun d => d.2.name) := by
  simp only [ListsDb.decryptionExists, List.any_eq_true, beq_iff_eq, List.mem_map]

theorem ceremonyExists_iff (db : ListsDb) (name : String) :
    db.ceremonyExists name = true ↔ name ∈ db.ceremonies.map (fun d => d.2.name) := by
  simp only [ListsDb.ceremonyExists, List.any_eq_true, beq_iff_eq, List.mem_map]

theorem electionExists_iff (db : ListsDb) (name : String) :
    db.electionExists name = true ↔ name ∈ db.elections.map (fun d => d.2.name) := by
  simp only [ListsDb.electionExists, List.any_eq_true, beq_iff_eq, List.mem_map]

/-- **C90**: every call ends with an answer. -/
theorem C90_ends (db : ListsDb) (newId : String) (c : Call) : ∃ a, (db.run newId c).2 = .done a := by
  cases c with
  | ceremony name gc q =>
    rw [run_ceremony]
    split
    · exact ⟨_, rfl⟩
    · split
      · exact ⟨_, rfl⟩
      · split <;> exact ⟨_, rfl⟩
  | election kc name build =>
    rw [run_election]
    split
    · exact ⟨_, rfl⟩
    · split
      · exact ⟨_, rfl⟩
      · split
        · exact ⟨_, rfl⟩
        · split <;> exact ⟨_, rfl⟩
  | decryption eid name =>
    rw [run_decryption]
    split
    · exact ⟨_, rfl⟩
    · split
      · exact ⟨_, rfl⟩
      · split <;> exact ⟨_, rfl⟩

/-- **C90**: a call that does not succeed changes nothing. -/
theorem C90_refused (db : ListsDb) (newId : String) (c : Call) (h : ∀ id, (db.run newId c).2 ≠ .done (.success id)) :
    (db.run newId c).1 = db := by
  cases c with
  | ceremony name gc q =>
    rw [run_ceremony] at h ⊢
    split
    · rfl
    · split
      · rfl
      · split
        · rfl
        · rename_i h1 h2 _ h3
          simp only [h1, h2, h3, if_false] at h
          exact absurd rfl (h newId)
  | election kc name build =>
    rw [run_election] at h ⊢
    split
    · rfl
    · split
      · rfl
      · split
        · rfl
        · split
          · rfl
          · rename_i h1 _ _ h2 _ _ _ h3 _ h4
            simp only [h1, h2, h3, h4, if_false] at h
            exact absurd rfl (h newId)
  | decryption eid name =>
    rw [run_decryption] at h ⊢
    split
    · rfl
    · split
      · rfl
      · split
        · rfl
        · rename_i _ _ h1 h2 _ h3
          simp only [h1, h2, h3, if_false] at h
          exact absurd rfl (h newId)

/-- **C90**: `create_decryption` succeeds exactly if the election exists and no decryption, of whatever election, has the name (and the
database gives a new id); the answer is that id. -/
theorem C90_decryption_iff (db : ListsDb) (newId eid name id : String) :
    (db.run newId (.decryption eid name)).2 = .done (.success id) ↔
      id = newId ∧ (∃ e, dget db.elections eid = some e) ∧ (∀ d ∈ db.decryptions, d.2.name ≠ name) ∧
        newId ∉ dkeys db.decryptions := by
  have hnames : (∀ d ∈ db.decryptions, d.2.name ≠ name) ↔ ¬ db.decryptionExists name = true := by
    rw [decryptionExists_iff, List.mem_map]
    push Not
    rfl
  rw [hnames, run_decryption, ← dget_eq_none_iff]
  cases h : dget db.elections eid with
  | none => simp
  | some e =>
    by_cases hn : db.decryptionExists name = true
    · simp [hn]
    · simp only [hn]
      cases hd : dget db.decryptions newId with
      | some d => simp
      | none => simp [eq_comm]

/-- **C90**: `create_key_ceremony` succeeds exactly if the quorum is not above the number of guardians and no ceremony has the name. -/
theorem C90_ceremony_iff (db : ListsDb) (newId name id : String) (gc q : Int) :
    (db.run newId (.ceremony name gc q)).2 = .done (.success id) ↔
      id = newId ∧ q ≤ gc ∧ (∀ c ∈ db.ceremonies, c.2.name ≠ name) ∧ newId ∉ dkeys db.ceremonies := by
  have hnames : (∀ d ∈ db.ceremonies, d.2.name ≠ name) ↔ ¬ db.ceremonyExists name = true := by
    rw [ceremonyExists_iff, List.mem_map]
    push Not
    rfl
  rw [hnames, run_ceremony, ← dget_eq_none_iff]
  by_cases hq : gc < q
  · simp [hq, not_le.2 hq]
  · simp only [hq, not_lt.1 hq]
    by_cases hn : db.ceremonyExists name = true
    · simp [hn]
    · simp only [hn]
      cases hd : dget db.ceremonies newId with
      | some d => simp
      | none => simp [eq_comm]

/-- **C90**: `create_election` succeeds exactly if no election has the name, the ceremony exists and the election can be built from it. -/
theorem C90_election_iff (db : ListsDb) (newId kc name id : String) (build : KCDoc → R (Int × Int)) :
    (db.run newId (.election kc name build)).2 = .done (.success id) ↔
      id = newId ∧ (∀ e ∈ db.elections, e.2.name ≠ name) ∧ (∃ c b, dget db.ceremonies kc = some c ∧ build c.doc = .ok b) ∧
        newId ∉ dkeys db.elections := by
  have hnames : (∀ d ∈ db.elections, d.2.name ≠ name) ↔ ¬ db.electionExists name = true := by
    rw [electionExists_iff, List.mem_map]
    push Not
    rfl
  rw [hnames, run_election, ← dget_eq_none_iff]
  by_cases hn : db.electionExists name = true
  · simp [hn]
  · simp only [hn]
    cases hc : dget db.ceremonies kc with
    | none => simp
    | some c =>
      cases hb : build c.doc with
      | error x => simp [hb]
      | ok b =>
        obtain ⟨g, q⟩ := b
        cases he : dget db.elections newId with
        | some d => simp [hb]
        | none => simp [hb, eq_comm]

/-- **C90**: a decryption that was created is the last one in the list of its election; its document has the name that was asked for,
the numbers of guardians and the quorum of the election, and the numbers of ballots and uploads that the election had then; nobody has
joined.  The lists of the other elections are as before. -/
theorem C90_added (db : ListsDb) (newId eid name id : String)
    (h : (db.run newId (.decryption eid name)).2 = .done (.success id)) :
    ∃ e d, dget db.elections eid = some e ∧
      (db.run newId (.decryption eid name)).1.decryptions = db.decryptions ++ [(id, d)] ∧
      d.name = name ∧ d.electionName = e.name ∧ d.doc.electionId = eid ∧ d.keyCeremonyId = e.keyCeremonyId ∧
      d.doc.guardians = e.guardians ∧ d.quorum = e.quorum ∧
      d.ballotCount = (e.uploads.map (·.ballotCount)).sum ∧ d.uploadCount = e.uploads.length ∧
      d.doc.joined = [] ∧ d.doc.shares = [] ∧ d.doc.completed = none ∧
      (db.run newId (.decryption eid name)).1.decryptionsOf eid =
        .ok (e.decryptions.map (fun x => (x.decryptionId, x.name)) ++ [(id, name)]) ∧
      (∀ other, other ≠ eid → (db.run newId (.decryption eid name)).1.decryptionsOf other = db.decryptionsOf other) ∧
      (db.run newId (.decryption eid name)).1.ceremonies = db.ceremonies ∧
      (db.run newId (.decryption eid name)).1.deltas = db.deltas ++ [("decryptions", id)] := by
  obtain ⟨rfl, ⟨e, he⟩, hn, hfresh⟩ := (C90_decryption_iff db newId eid name id).1 h
  have hn' : db.decryptionExists name = false := by
    rw [Bool.eq_false_iff, Ne]
    rw [decryptionExists_iff, List.mem_map]
    rintro ⟨d, hd, rfl⟩
    exact hn d hd rfl
  rw [run_decryption]
  simp only [he, hn', (dget_eq_none_iff _ _).2 hfresh, if_false, Bool.false_eq_true, ListsDb.notify, ListsDb.appendDecryption]
  refine ⟨e, .create eid e name, rfl, dset_fresh _ hfresh, rfl, rfl, rfl, rfl, rfl, rfl, rfl, rfl, rfl, rfl, rfl, ?_, ?_, trivial, trivial⟩
  · simp only [ListsDb.decryptionsOf, dget_dset, if_true, List.map_append, List.map_cons, List.map_nil]
  · intro other ho
    simp only [ListsDb.decryptionsOf, dget_dset, if_neg (fun hc => ho (Eq.symm hc))]

/-- **C90**: a call in single requests that no other one comes between is the whole call. -/
theorem C90_alone (s : ListsState) (client : Nat) (newId : String) (c : Call) (hidle : s.idle client = true) :
    (s.steps (.call client c :: List.replicate 5 (.step client newId))).db = (s.db.run newId c).1 ∧
      dget (s.steps (.call client c :: List.replicate 5 (.step client newId))).calls client = some (s.db.run newId c).2 := by
  have key : ∀ n (s : ListsState) p, dget s.calls client = some p →
      (s.steps (List.replicate n (.step client newId))).db = (p.go newId n s.db).1 ∧
      dget (s.steps (List.replicate n (.step client newId))).calls client = some (p.go newId n s.db).2 := by
    intro n
    induction n with
    | zero =>
      intro s p hp
      exact ⟨rfl, hp⟩
    | succ n ih =>
      intro s p hp
      rw [List.replicate_succ]
      show (ListsState.steps (s.step _) _).db = _ ∧ dget (ListsState.steps (s.step _) _).calls client = _
      have hs : s.step (.step client newId) = ⟨(p.step newId s.db).1, dset s.calls client (p.step newId s.db).2⟩ := by
        simp only [ListsState.step, hp]
      rw [hs]
      exact ih _ _ (by rw [dget_dset, if_pos rfl])
  have hs : s.step (.call client c) = { s with calls := dset s.calls client c.start } := by
    simp only [ListsState.step, hidle, if_true]
  show (ListsState.steps (s.step _) _).db = _ ∧ dget (ListsState.steps (s.step _) _).calls client = _
  rw [hs]
  exact key 5 _ c.start (by rw [dget_dset, if_pos rfl])

/-! ## All interleavings -/

theorem nodup_of_dkeys {α : Type} {d : List (String × α)} (h : (dkeys d).Nodup) : d.Nodup := List.Nodup.of_map Prod.fst h

/-- The decryptions of an election in the database are in no order twice. -/
theorem decryptionsIn_nodup {db : ListsDb} (h : (dkeys db.decryptions).Nodup) (eid : String) :
    ((decryptionsIn db eid).map (·.1)).Nodup := by
  simp only [decryptionsIn, List.map_map]
  have : (dkeys (db.decryptions.filter (fun d => d.2.doc.electionId == eid))).Nodup :=
    (List.filter_sublist.map _).nodup h
  exact this

/-- **C90**, all interleavings: the list of decryptions that an election shows never has anything but its own decryptions, with their
names, and none twice. -/
theorem C90_own_decryptions (es : List ListsEvent) (eid : String) (l : List (String × String))
    (h : ((⟨.empty, []⟩ : ListsState).steps es).db.decryptionsOf eid = .ok l) :
    (l.map (·.1)).Nodup ∧ l ⊆ decryptionsIn ((⟨.empty, []⟩ : ListsState).steps es).db eid := by
  have inv := ListsInv.empty.steps es
  generalize (⟨.empty, []⟩ : ListsState).steps es = s at h inv
  simp only [ListsDb.decryptionsOf] at h
  cases he : dget s.db.elections eid with
  | none => rw [he] at h; cases h
  | some e =>
    rw [he] at h
    cases h
    refine ⟨?_, ?_⟩
    · have := inv.once eid e he
      rw [List.map_map]
      exact this
    · intro x hx
      obtain ⟨z, hz, rfl⟩ := List.mem_map.1 hx
      obtain ⟨d, hd, h1, h2⟩ := inv.entry eid e he z hz
      refine List.mem_map.2 ⟨(z.decryptionId, d), List.mem_filter.2 ⟨mem_of_dget hd, ?_⟩, ?_⟩
      · simp [h1]
      · simp [h2]

/-- **C90**, all interleavings: when no call is on its way, the list of an election has every decryption of it, and every decryption
is in the list of an election. -/
theorem C90_listed (es : List ListsEvent) (hq : ((⟨.empty, []⟩ : ListsState).steps es).Quiet) :
    (∀ eid l, ((⟨.empty, []⟩ : ListsState).steps es).db.decryptionsOf eid = .ok l →
      l.Perm (decryptionsIn ((⟨.empty, []⟩ : ListsState).steps es).db eid)) ∧
    ∀ d ∈ ((⟨.empty, []⟩ : ListsState).steps es).db.decryptions,
      ∃ l, ((⟨.empty, []⟩ : ListsState).steps es).db.decryptionsOf d.2.doc.electionId = .ok l ∧ (d.1, d.2.name) ∈ l := by
  have inv := ListsInv.empty.steps es
  have hown := C90_own_decryptions es
  generalize (⟨.empty, []⟩ : ListsState).steps es = s at hq inv hown
  have hall : ∀ d ∈ s.db.decryptions, ∃ l, s.db.decryptionsOf d.2.doc.electionId = .ok l ∧ (d.1, d.2.name) ∈ l := by
    rintro ⟨did, d⟩ hd
    obtain ⟨e, he, hm⟩ := inv.listed did d (dget_of_mem inv.kd hd)
    refine ⟨e.decryptions.map (fun x => (x.decryptionId, x.name)), by simp only [ListsDb.decryptionsOf, he], ?_⟩
    rcases hm with hm | ⟨c, p, hp, ho⟩
    · exact List.mem_map.2 ⟨_, hm, rfl⟩
    · obtain ⟨a, rfl⟩ := hq c p hp
      cases ho
  refine ⟨?_, hall⟩
  intro eid l hl
  obtain ⟨hnd, hsub⟩ := hown eid l hl
  refine (List.perm_ext_iff_of_nodup hnd.of_map (decryptionsIn_nodup inv.kd eid).of_map).2 ?_
  intro x
  refine ⟨fun hx => hsub hx, ?_⟩
  intro hx
  obtain ⟨d, hd, rfl⟩ := List.mem_map.1 hx
  obtain ⟨hd, hde⟩ := List.mem_filter.1 hd
  obtain ⟨l', hl', hm⟩ := hall d hd
  rw [beq_iff_eq] at hde
  rw [hde, hl] at hl'
  cases hl'
  exact hm

/-- **C90**, all interleavings: when no call is on its way, the number in the name that is suggested for the next decryption of an
election is one more than the number of decryptions that the election shows. -/
theorem C90_suggested_number (es : List ListsEvent) (hq : ((⟨.empty, []⟩ : ListsState).steps es).Quiet) (eid : String)
    (l : List (String × String)) (h : ((⟨.empty, []⟩ : ListsState).steps es).db.decryptionsOf eid = .ok l) :
    ∃ e, dget ((⟨.empty, []⟩ : ListsState).steps es).db.elections eid = some e ∧
      ((⟨.empty, []⟩ : ListsState).steps es).db.suggest eid = .ok (e.name ++ " Tally #" ++ toString (l.length + 1)) := by
  have hperm := (C90_listed es hq).1 eid l h
  generalize (⟨.empty, []⟩ : ListsState).steps es = s at h hperm
  cases he : dget s.db.elections eid with
  | none => simp only [ListsDb.decryptionsOf, he] at h; cases h
  | some e =>
    refine ⟨e, rfl, ?_⟩
    have : s.db.decryptionCount eid = l.length := by
      rw [hperm.length_eq, decryptionsIn, List.length_map]
      rfl
    simp only [ListsDb.suggest, he, suggestedName, this]

/-- **C90**: every key ceremony is either on the guardians' page or on offer for elections, by whether it is completed, and every decryption
that is not completed is on the guardians' page, whatever the election. -/
theorem C90_pages (db : ListsDb) :
    (db.homeCeremonies ++ db.keys).Perm (db.ceremonies.map (fun c => (c.1, c.2.name))) ∧
    (∀ id name, (id, name) ∈ db.keys ↔ ∃ c, (id, c) ∈ db.ceremonies ∧ c.name = name ∧ c.doc.completed = true) ∧
    (∀ id name, (id, name) ∈ db.homeDecryptions ↔
      ∃ d, (id, d) ∈ db.decryptions ∧ d.name = name ∧ d.doc.completed = none) := by
  refine ⟨?_, ?_, ?_⟩
  · simp only [ListsDb.homeCeremonies, ListsDb.keys, ← List.map_append]
    refine List.Perm.map _ ?_
    have := List.filter_append_perm (fun c : String × NamedCeremony => !c.2.doc.completed) db.ceremonies
    simpa using this
  · intro id name
    simp only [ListsDb.keys, List.mem_map, List.mem_filter, Prod.mk.injEq, Prod.exists]
    constructor
    · rintro ⟨i, c, ⟨h1, h2⟩, rfl, rfl⟩
      exact ⟨c, h1, rfl, h2⟩
    · rintro ⟨c, h1, rfl, h2⟩
      exact ⟨id, c, ⟨h1, h2⟩, rfl, rfl⟩
  · intro id name
    simp only [ListsDb.homeDecryptions, List.mem_map, List.mem_filter, Prod.mk.injEq, Prod.exists, Option.isNone_iff_eq_none]
    constructor
    · rintro ⟨i, d, ⟨h1, h2⟩, rfl, rfl⟩
      exact ⟨d, h1, rfl, h2⟩
    · rintro ⟨d, h1, rfl, h2⟩
      exact ⟨id, d, ⟨h1, h2⟩, rfl, rfl⟩

/-! ## Names -/

/-- Changing a document without the part that is looked at. -/
theorem map_dset_same {α β : Type} {d : List (String × α)} (hd : (dkeys d).Nodup) {k : String} {v v₀ : α}
    (h : dget d k = some v₀) (f : α → β) (hf : f v = f v₀) :
    (dset d k v).map (fun e => (e.1, f e.2)) = d.map (fun e => (e.1, f e.2)) := by
  have hm := mem_of_dget h
  unfold dset
  rw [if_pos (List.any_eq_true.2 ⟨(k, v₀), hm, by simp⟩), List.map_map]
  refine List.map_congr_left ?_
  rintro ⟨i, x⟩ hx
  simp only [Function.comp]
  by_cases hi : i = k
  · subst hi
    have := dget_of_mem hd hx
    rw [h] at this
    cases this
    simp [hf]
  · simp [hi]

/-- The ids and names of the collections, and the elections of the decryptions. -/
structure Names where
  ceremonies : List (String × String)
  elections : List (String × String)
  decryptions : List (String × String × String)

/-- The names in a database. -/
def ListsDb.names (db : ListsDb) : Names :=
  ⟨db.ceremonies.map (fun e => (e.1, e.2.name)), db.elections.map (fun e => (e.1, e.2.name)),
    db.decryptions.map (fun e => (e.1, e.2.name, e.2.doc.electionId))⟩

/-- Ids and names are not used twice. -/
structure Names.Ok (n : Names) : Prop where
  kc : (n.ceremonies.map (·.1)).Nodup
  ke : (n.elections.map (·.1)).Nodup
  kd : (n.decryptions.map (·.1)).Nodup
  nc : (n.ceremonies.map (·.2)).Nodup
  ne : (n.elections.map (·.2)).Nodup
  nd : (n.decryptions.map (·.2.1)).Nodup

theorem Names.Ok.keys {db : ListsDb} (h : db.names.Ok) :
    (dkeys db.ceremonies).Nodup ∧ (dkeys db.elections).Nodup ∧ (dkeys db.decryptions).Nodup := by
  have h1 := h.kc
  have h2 := h.ke
  have h3 := h.kd
  simp only [ListsDb.names, List.map_map] at h1 h2 h3
  exact ⟨h1, h2, h3⟩

theorem Names.Ok.distinct {db : ListsDb} (h : db.names.Ok) : DistinctNames db := by
  have h1 := h.nc
  have h2 := h.ne
  have h3 := h.nd
  simp only [ListsDb.names, List.map_map] at h1 h2 h3
  exact ⟨h1, h2, h3⟩

/-- Other work changes no names. -/
theorem names_work {db : ListsDb} (h : db.names.Ok) (w : Work) : (db.work w).names = db.names := by
  obtain ⟨hc, he, hd⟩ := h.keys
  cases w with
  | uploads eid f =>
    simp only [ListsDb.work]
    split
    · rfl
    · rename_i e hg
      simp only [ListsDb.names]
      congr 1
      exact map_dset_same he hg (fun e => e.name) rfl
  | decryption did f =>
    simp only [ListsDb.work]
    split
    · rfl
    · rename_i d hg
      simp only [ListsDb.names]
      congr 1
      exact map_dset_same hd hg (fun d => (d.name, d.doc.electionId)) rfl
  | ceremony id f =>
    simp only [ListsDb.work]
    split
    · rfl
    · rename_i c hg
      simp only [ListsDb.names]
      congr 1
      exact map_dset_same hc hg (fun c => c.name) rfl

theorem nodup_concat {α : Type} {l : List α} {a : α} (h : l.Nodup) (ha : a ∉ l) : (l ++ [a]).Nodup := by
  rw [List.nodup_append]
  refine ⟨h, by simp, ?_⟩
  rintro x hx y hy rfl
  rw [List.mem_singleton] at hy
  exact ha (hy ▸ hx)

/-- What a whole call does to the names. -/
theorem names_run {db : ListsDb} (h : db.names.Ok) (newId : String) (c : Call) :
    (db.run newId c).1.names.Ok ∧ ((db.run newId c).1.names = db.names ∨
      match c with
      | .ceremony name _ _ => (db.run newId c).1.names = { db.names with ceremonies := db.names.ceremonies ++ [(newId, name)] }
      | .election _ name _ => (db.run newId c).1.names = { db.names with elections := db.names.elections ++ [(newId, name)] }
      | .decryption eid name =>
        (db.run newId c).1.names = { db.names with decryptions := db.names.decryptions ++ [(newId, name, eid)] }) := by
  obtain ⟨hc, he, hd⟩ := h.keys
  have same : (db.run newId c).1 = db → (db.run newId c).1.names.Ok ∧ ((db.run newId c).1.names = db.names ∨
      match c with
      | .ceremony name _ _ => (db.run newId c).1.names = { db.names with ceremonies := db.names.ceremonies ++ [(newId, name)] }
      | .election _ name _ => (db.run newId c).1.names = { db.names with elections := db.names.elections ++ [(newId, name)] }
      | .decryption eid name =>
        (db.run newId c).1.names = { db.names with decryptions := db.names.decryptions ++ [(newId, name, eid)] }) := by
    intro hs
    rw [hs]
    exact ⟨h, .inl rfl⟩
  cases c with
  | ceremony name gc q =>
    by_cases hs : ∃ id, (db.run newId (.ceremony name gc q)).2 = .done (.success id)
    · obtain ⟨id, hs⟩ := hs
      obtain ⟨rfl, hq, hn, hf⟩ := (C90_ceremony_iff db newId name id gc q).1 hs
      have hn' : db.ceremonyExists name = false := by
        rw [Bool.eq_false_iff, Ne]
        rw [ceremonyExists_iff, List.mem_map]
        rintro ⟨d, hd, rfl⟩
        exact hn d hd rfl
      have hnames : (db.run id (.ceremony name gc q)).1.names =
          { db.names with ceremonies := db.names.ceremonies ++ [(id, name)] } := by
        rw [run_ceremony]
        simp only [not_lt.2 hq, hn', (dget_eq_none_iff _ _).2 hf, if_false, Bool.false_eq_true, ListsDb.notify, ListsDb.names, dset_fresh _ hf,
          List.map_append, List.map_cons, List.map_nil]
      rw [hnames]
      refine ⟨⟨?_, h.ke, h.kd, ?_, h.ne, h.nd⟩, .inr rfl⟩
      · rw [List.map_append]
        refine nodup_concat h.kc ?_
        simpa [ListsDb.names, dkeys] using hf
      · rw [List.map_append]
        refine nodup_concat h.nc ?_
        intro hm
        simp only [ListsDb.names, List.map_map, List.mem_map, Function.comp] at hm
        obtain ⟨d, hd, hdn⟩ := hm
        exact hn d hd hdn
    · exact same (C90_refused db newId _ (fun id hid => hs ⟨id, hid⟩))
  | election kc name build =>
    by_cases hs : ∃ id, (db.run newId (.election kc name build)).2 = .done (.success id)
    · obtain ⟨id, hs⟩ := hs
      obtain ⟨rfl, hn, ⟨c, ⟨g, q⟩, hgc, hb⟩, hf⟩ := (C90_election_iff db newId kc name id build).1 hs
      have hn' : db.electionExists name = false := by
        rw [Bool.eq_false_iff, Ne]
        rw [electionExists_iff, List.mem_map]
        rintro ⟨d, hd, rfl⟩
        exact hn d hd rfl
      have hnames : (db.run id (.election kc name build)).1.names =
          { db.names with elections := db.names.elections ++ [(id, name)] } := by
        rw [run_election]
        simp only [hn', hgc, hb, (dget_eq_none_iff _ _).2 hf, if_false, Bool.false_eq_true, ListsDb.names, dset_fresh _ hf,
          List.map_append, List.map_cons, List.map_nil]
      rw [hnames]
      refine ⟨⟨h.kc, ?_, h.kd, h.nc, ?_, h.nd⟩, .inr rfl⟩
      · rw [List.map_append]
        refine nodup_concat h.ke ?_
        simpa [ListsDb.names, dkeys] using hf
      · rw [List.map_append]
        refine nodup_concat h.ne ?_
        intro hm
        simp only [ListsDb.names, List.map_map, List.mem_map, Function.comp] at hm
        obtain ⟨d, hd, hdn⟩ := hm
        exact hn d hd hdn
    · exact same (C90_refused db newId _ (fun id hid => hs ⟨id, hid⟩))
  | decryption eid name =>
    by_cases hs : ∃ id, (db.run newId (.decryption eid name)).2 = .done (.success id)
    · obtain ⟨id, hs⟩ := hs
      obtain ⟨rfl, ⟨e, hge⟩, hn, hf⟩ := (C90_decryption_iff db newId eid name id).1 hs
      have hn' : db.decryptionExists name = false := by
        rw [Bool.eq_false_iff, Ne]
        rw [decryptionExists_iff, List.mem_map]
        rintro ⟨d, hd, rfl⟩
        exact hn d hd rfl
      have hnames : (db.run id (.decryption eid name)).1.names =
          { db.names with decryptions := db.names.decryptions ++ [(id, name, eid)] } := by
        rw [run_decryption]
        simp only [hge, hn', (dget_eq_none_iff _ _).2 hf, if_false, Bool.false_eq_true, ListsDb.notify, ListsDb.appendDecryption, ListsDb.names,
          dset_fresh _ hf, List.map_append, List.map_cons, List.map_nil]
        congr 1
        exact map_dset_same he hge (fun e => e.name) rfl
      rw [hnames]
      refine ⟨⟨h.kc, h.ke, ?_, h.nc, h.ne, ?_⟩, .inr rfl⟩
      · rw [List.map_append]
        refine nodup_concat h.kd ?_
        simpa [ListsDb.names, dkeys] using hf
      · rw [List.map_append]
        refine nodup_concat h.nd ?_
        intro hm
        simp only [ListsDb.names, List.map_map, List.mem_map, Function.comp] at hm
        obtain ⟨d, hd, hdn⟩ := hm
        exact hn d hd hdn
    · exact same (C90_refused db newId _ (fun id hid => hs ⟨id, hid⟩))

theorem names_empty : ListsDb.empty.names.Ok := by
  refine ⟨?_, ?_, ?_, ?_, ?_, ?_⟩ <;> exact List.nodup_nil

theorem names_wholes {db : ListsDb} (h : db.names.Ok) (es : List WholeEvent) : (db.wholes es).names.Ok := by
  induction es generalizing db with
  | nil => exact h
  | cons ev es ih =>
    refine ih ?_
    cases ev with
    | call newId c => exact (names_run h newId c).1
    | work w =>
      show (db.work w).names.Ok
      rw [names_work h w]
      exact h

/-- **C90**: as long as calls do not overlap, no two key ceremonies, no two elections and no two decryptions (of whatever elections)
have the same name. -/
theorem C90_names_partial (es : List WholeEvent) : DistinctNames (ListsDb.empty.wholes es) :=
  (names_wholes names_empty es).distinct

/-! ## The suggested names -/

theorem hash_split {l l' r r' : List Char} (h : l ++ '#' :: r = l' ++ '#' :: r') (hr : '#' ∉ r) (hr' : '#' ∉ r') :
    l = l' ∧ r = r' := by
  rcases List.append_eq_append_iff.1 h with ⟨a, h1, h2⟩ | ⟨a, h1, h2⟩
  · cases a with
    | nil =>
      simp only [List.nil_append, List.cons.injEq, true_and] at h2
      exact ⟨by simpa using h1.symm, h2⟩
    | cons x a =>
      simp only [List.cons_append, List.cons.injEq] at h2
      exact absurd (h2.2 ▸ (by simp : '#' ∈ a ++ '#' :: r')) hr
  · cases a with
    | nil =>
      simp only [List.nil_append, List.cons.injEq, true_and] at h2
      exact ⟨by simpa using h1, h2.symm⟩
    | cons x a =>
      simp only [List.cons_append, List.cons.injEq] at h2
      exact absurd (h2.2 ▸ (by simp : '#' ∈ a ++ '#' :: r)) hr'

/-- **C90**: names that are suggested for different elections or different numbers are different. -/
theorem C90_suggested_inj {a b : String} {n m : Nat} (h : suggestedName a n = suggestedName b m) : a = b ∧ n = m := by
  have nohash : ∀ k : Nat, '#' ∉ Nat.toDigits 10 k := by
    intro k hk
    exact absurd (Nat.isDigit_of_mem_toDigits (by decide) (by decide) hk) (by decide)
  have hl : (" Tally #" : String).toList = " Tally ".toList ++ ['#'] := rfl
  have h' := congrArg String.toList h
  simp only [suggestedName, String.toList_append, hl, Nat.toString_eq_repr, Nat.toList_repr] at h'
  have h'' : (a.toList ++ " Tally ".toList) ++ '#' :: Nat.toDigits 10 n =
      (b.toList ++ " Tally ".toList) ++ '#' :: Nat.toDigits 10 m := by
    simpa only [List.append_assoc, List.cons_append, List.nil_append, List.singleton_append] using h'
  obtain ⟨h1, h2⟩ := hash_split h'' (nohash n) (nohash m)
  refine ⟨String.toList_inj.1 (List.append_cancel_right h1), ?_⟩
  have := congrArg (fun l => Nat.ofDigitChars 10 l 0) h2
  simpa only [Nat.ofDigitChars_toDigits (b := 10) (by decide) (by decide)] using this

/-- The number of decryptions of an election, from the names. -/
theorem decryptionCount_eq (db : ListsDb) (eid : String) :
    db.decryptionCount eid = (db.names.decryptions.filter (fun x => x.2.2 == eid)).length := by
  simp only [ListsDb.decryptionCount, ListsDb.names, List.filter_map, List.length_map]
  rfl

/-- Every decryption has the name suggested for one of the first numbers of its election. -/
def SuggestedOnly (n : Names) : Prop :=
  ∀ x ∈ n.decryptions, ∃ name k, (x.2.2, name) ∈ n.elections ∧ x.2.1 = suggestedName name k ∧
    k ≤ (n.decryptions.filter (fun y => y.2.2 == x.2.2)).length

theorem suggesting_inv {db : ListsDb} (h : Suggesting db) : db.names.Ok ∧ SuggestedOnly db.names := by
  induction h with
  | start => exact ⟨names_empty, fun x hx => by simp [ListsDb.names, ListsDb.empty] at hx⟩
  | @ceremony db _ newId name gc q ih =>
    obtain ⟨hok, hs⟩ := ih
    obtain ⟨hok', hn⟩ := names_run hok newId (.ceremony name gc q)
    refine ⟨hok', ?_⟩
    rcases hn with hn | hn <;> rw [hn] <;> exact hs
  | @election db _ newId kc name build ih =>
    obtain ⟨hok, hs⟩ := ih
    obtain ⟨hok', hn⟩ := names_run hok newId (.election kc name build)
    refine ⟨hok', ?_⟩
    rcases hn with hn | hn <;> rw [hn]
    · exact hs
    · intro x hx
      obtain ⟨nm, k, h1, h2, h3⟩ := hs x hx
      exact ⟨nm, k, List.mem_append_left _ h1, h2, h3⟩
  | @decryption db _ newId eid name hname ih =>
    obtain ⟨hok, hs⟩ := ih
    obtain ⟨hok', hn⟩ := names_run hok newId (.decryption eid name)
    refine ⟨hok', ?_⟩
    rcases hn with hn | hn <;> rw [hn]
    · exact hs
    · intro x hx
      simp only [List.filter_append, List.length_append]
      rcases List.mem_append.1 hx with hx | hx
      · obtain ⟨nm, k, h1, h2, h3⟩ := hs x hx
        exact ⟨nm, k, h1, h2, by omega⟩
      · rw [List.mem_singleton] at hx
        subst hx
        simp only [ListsDb.suggest] at hname
        split at hname
        · cases hname
        · rename_i e he
          cases hname
          refine ⟨e.name, db.decryptionCount eid + 1, ?_, rfl, ?_⟩
          · exact List.mem_map.2 ⟨_, mem_of_dget he, rfl⟩
          · rw [decryptionCount_eq]
            simp
  | @work db _ w ih =>
    obtain ⟨hok, hs⟩ := ih
    rw [names_work hok w]
    exact ⟨hok, hs⟩

/-- **C90**: as long as calls do not overlap and every decryption is created under the name that the GUI suggests, the suggestion is
accepted every time: the call succeeds, with the id that the database gives. -/
theorem C90_suggestion_partial {db : ListsDb} (h : Suggesting db) (newId eid name : String) (hname : db.suggest eid = .ok name)
    (hfresh : newId ∉ dkeys db.decryptions) :
    (db.run newId (.decryption eid name)).2 = .done (.success newId) := by
  obtain ⟨hok, hs⟩ := suggesting_inv h
  simp only [ListsDb.suggest] at hname
  split at hname
  · cases hname
  · rename_i e he
    cases hname
    refine (C90_decryption_iff db newId eid _ newId).2 ⟨rfl, ⟨e, he⟩, ?_, hfresh⟩
    rintro ⟨did, d⟩ hd hc
    obtain ⟨nm, k, h1, h2, h3⟩ := hs (did, d.name, d.doc.electionId) (List.mem_map.2 ⟨_, hd, rfl⟩)
    simp only at h1 h2 h3 hc
    rw [hc] at h2
    obtain ⟨rfl, rfl⟩ := C90_suggested_inj h2
    have hee : (eid, e.name) ∈ db.names.elections := List.mem_map.2 ⟨_, mem_of_dget he, rfl⟩
    have : d.doc.electionId = eid := by
      have := List.inj_on_of_nodup_map hok.ne h1 hee rfl
      simpa using congrArg Prod.fst this
    rw [this, ← decryptionCount_eq] at h3
    omega

end EG
