import Verif.Spec.GuiBallots
import Verif.Lemmas.Dict
import Verif.Lemmas.Election

/-!
# Lemmas about ballot uploads
-/

namespace EG

variable {parse : List Char → Option SBallot}

theorem anyBallotExists_iff (db : GuiDb) (eid oid : String) :
    db.anyBallotExists eid oid = true ↔ ∃ d ∈ db.ballots, d.electionId = eid ∧ d.objectId = oid := by
  unfold GuiDb.anyBallotExists
  rw [decide_eq_true_eq, List.length_pos_iff_exists_mem]
  simp [List.mem_filter]

theorem checkUpload_inr (db : GuiDb) (eid : String) (contents : List Char) (oid : String) :
    db.checkUpload parse eid contents = .inr oid ↔ ∃ b e, parse contents = some b ∧ b.objectId = oid ∧
      dget db.elections eid = some e ∧ e.context.manifestHash = b.manifestHash ∧
      ∀ d ∈ db.ballots, d.electionId = eid → d.objectId ≠ oid := by
  unfold GuiDb.checkUpload
  cases parse contents with
  | none => simp
  | some b =>
    cases dget db.elections eid with
    | none => simp
    | some e =>
      dsimp only
      have hx := anyBallotExists_iff db eid b.objectId
      by_cases h1 : e.context.manifestHash = b.manifestHash
      · rw [if_neg (by simpa using h1)]
        by_cases h2 : db.anyBallotExists eid b.objectId = true
        · rw [if_pos h2]
          simp only [reduceCtorEq, false_iff]
          rintro ⟨b', e', hb, rfl, -, -, h⟩
          cases hb
          obtain ⟨d, hd, h3, h4⟩ := hx.1 h2
          exact h d hd h3 h4
        · rw [if_neg h2]
          constructor
          · intro h
            cases h
            refine ⟨b, e, rfl, rfl, rfl, h1, fun d hd h3 h4 => h2 (hx.2 ⟨d, hd, h3, h4⟩)⟩
          · rintro ⟨b', e', hb, rfl, -⟩
            cases hb
            rfl
      · rw [if_pos h1]
        simp only [reduceCtorEq, false_iff]
        rintro ⟨b', e', hb, -, he, h, -⟩
        cases hb
        cases he
        exact h1 h

theorem checkUpload_dup (db : GuiDb) (eid : String) (contents : List Char) :
    db.checkUpload parse eid contents = .inl (.success true) ↔ ∃ b e, parse contents = some b ∧
      dget db.elections eid = some e ∧ e.context.manifestHash = b.manifestHash ∧
      ∃ d ∈ db.ballots, d.electionId = eid ∧ d.objectId = b.objectId := by
  unfold GuiDb.checkUpload
  cases parse contents with
  | none => simp
  | some b =>
    cases dget db.elections eid with
    | none => simp
    | some e =>
      dsimp only
      have hx := anyBallotExists_iff db eid b.objectId
      by_cases h1 : e.context.manifestHash = b.manifestHash
      · rw [if_neg (by simpa using h1)]
        by_cases h2 : db.anyBallotExists eid b.objectId = true
        · rw [if_pos h2]
          simp only [true_iff]
          exact ⟨b, e, rfl, rfl, h1, hx.1 h2⟩
        · rw [if_neg h2]
          simp only [reduceCtorEq, false_iff]
          rintro ⟨b', e', hb, -, -, h⟩
          cases hb
          exact h2 (hx.2 h)
      · rw [if_pos h1]
        simp only [Sum.inl.injEq, reduceCtorEq, false_iff]
        rintro ⟨b', e', hb, he, h, -⟩
        cases hb
        cases he
        exact h1 h

theorem checkUpload_inl (db : GuiDb) (eid : String) (contents : List Char) (r : UploadResult)
    (h : db.checkUpload parse eid contents = .inl r) : r ≠ .success false := by
  unfold GuiDb.checkUpload at h
  cases hp : parse contents with
  | none => rw [hp] at h; cases h; simp
  | some b =>
    rw [hp] at h
    cases hd : dget db.elections eid with
    | none => rw [hd] at h; cases h; simp
    | some e =>
      rw [hd] at h
      dsimp only at h
      split at h
      · cases h; simp
      · split at h
        · cases h; simp
        · cases h

theorem increment_ballots (db : GuiDb) (eid uid : String) : (db.increment eid uid).ballots = db.ballots := by
  unfold GuiDb.increment
  split <;> rfl

theorem storeUpload_ballots (db : GuiDb) (uid eid fn : String) (contents : List Char) (oid : String) :
    (db.storeUpload uid eid fn contents oid).ballots = db.ballots ++ [⟨uid, eid, fn, oid, contents⟩] := by
  unfold GuiDb.storeUpload
  rw [increment_ballots]
  rfl

/-- An election keeps everything but its uploads. -/
def SameElections (a b : List (String × ElectionDoc)) : Prop :=
  ∀ k, (dget a k).map (fun e => (e.manifest, e.context, e.guardianRecords))
    = (dget b k).map (fun e => (e.manifest, e.context, e.guardianRecords))

theorem sameElections_dset (d : List (String × ElectionDoc)) (k : String) (e : ElectionDoc) (us : List UploadEntry)
    (h : dget d k = some e) : SameElections (dset d k { e with uploads := us }) d := by
  intro k'
  rw [dget_dset]
  split
  · rename_i hk
    subst hk
    rw [h]
    rfl
  · rfl

theorem increment_elections (db : GuiDb) (eid uid : String) :
    SameElections (db.increment eid uid).elections db.elections := by
  unfold GuiDb.increment
  cases h : dget db.elections eid with
  | none => exact fun _ => rfl
  | some e => exact sameElections_dset _ _ _ _ h

theorem storeUpload_elections (db : GuiDb) (uid eid fn : String) (contents : List Char) (oid : String) :
    SameElections (db.storeUpload uid eid fn contents oid).elections db.elections :=
  increment_elections _ _ _

theorem createUpload_ballots (db : GuiDb) (eid uid : String) (dev : Bool) :
    (db.createUpload eid uid dev).2.ballots = db.ballots := by
  unfold GuiDb.createUpload GuiDb.appendUpload
  cases dget db.elections eid with
  | none => rfl
  | some e => cases dev <;> rfl

theorem createUpload_elections (db : GuiDb) (eid uid : String) (dev : Bool) :
    SameElections (db.createUpload eid uid dev).2.elections db.elections := by
  unfold GuiDb.createUpload GuiDb.appendUpload
  cases h : dget db.elections eid with
  | none => exact fun _ => rfl
  | some e =>
    cases dev with
    | false => exact fun _ => rfl
    | true => exact sameElections_dset _ _ _ _ h

/-- What one call does to the ballots. -/
theorem step_cases (parse : List Char → Option SBallot) (db : GuiDb) (op : UploadOp) :
    SameElections (db.step parse op).elections db.elections ∧
    ((db.step parse op).ballots = db.ballots ∨
      ∃ d b e, (db.step parse op).ballots = db.ballots ++ [d] ∧ parse d.contents = some b ∧ b.objectId = d.objectId ∧
        dget db.elections d.electionId = some e ∧ e.context.manifestHash = b.manifestHash ∧
        ∀ x ∈ db.ballots, x.electionId = d.electionId → x.objectId ≠ d.objectId) := by
  cases op with
  | create eid uid dev => exact ⟨createUpload_elections _ _ _ _, .inl (createUpload_ballots ..)⟩
  | upload uid eid fn contents =>
    simp only [GuiDb.step, GuiDb.uploadBallot]
    cases h : db.checkUpload parse eid contents with
    | inl r => exact ⟨fun _ => rfl, .inl rfl⟩
    | inr oid =>
      refine ⟨storeUpload_elections _ _ _ _ _ _, .inr ⟨⟨uid, eid, fn, oid, contents⟩, ?_⟩⟩
      obtain ⟨b, e, h1, h2, h3, h4, h5⟩ := (checkUpload_inr ..).1 h
      exact ⟨b, e, storeUpload_ballots .., h1, h2, h3, h4, h5⟩

theorem holds_of_same {db db' : GuiDb} (h : SameElections db'.elections db.elections) {d : BallotDoc}
    (hd : db.Holds parse d) : db'.Holds parse d := by
  obtain ⟨b, e, h1, h2, h3, h4⟩ := hd
  have := h d.electionId
  rw [h3] at this
  cases hx : dget db'.elections d.electionId with
  | none => rw [hx] at this; cases this
  | some e' =>
    rw [hx] at this
    simp only [Option.map_some, Option.some.injEq, Prod.mk.injEq] at this
    exact ⟨b, e', h1, h2, hx, by rw [this.2.1]; exact h4⟩

/-! ### The counters -/

theorem incrementFirst_ids (uid : String) (us : List UploadEntry) :
    (incrementFirst uid us).map (fun u => u.uploadId) = us.map (fun u => u.uploadId) := by
  induction us with
  | nil => rfl
  | cons u us ih =>
    rw [incrementFirst]
    split
    · rfl
    · rw [List.map_cons, List.map_cons, ih]

theorem incrementFirst_mem {uid : String} {us : List UploadEntry} (hn : (us.map (fun u => u.uploadId)).Nodup)
    {u : UploadEntry} (h : u ∈ incrementFirst uid us) :
    (u.uploadId ≠ uid ∧ u ∈ us) ∨ (u.uploadId = uid ∧ ∃ v ∈ us, v.uploadId = uid ∧ u.ballotCount = v.ballotCount + 1) := by
  induction us with
  | nil => cases h
  | cons w us ih =>
    rw [List.map_cons, List.nodup_cons] at hn
    rw [incrementFirst] at h
    split at h
    · rename_i hw
      rw [beq_iff_eq] at hw
      rcases List.mem_cons.1 h with rfl | h
      · exact .inr ⟨hw, w, List.mem_cons_self .., hw, rfl⟩
      · refine .inl ⟨?_, List.mem_cons_of_mem _ h⟩
        intro hu
        exact hn.1 (List.mem_map.2 ⟨u, h, by rw [hu, hw]⟩)
    · rename_i hw
      rw [beq_iff_eq] at hw
      rcases List.mem_cons.1 h with rfl | h
      · exact .inl ⟨hw, List.mem_cons_self ..⟩
      · rcases ih hn.2 h with h | ⟨h1, v, h2, h3, h4⟩
        · exact .inl ⟨h.1, List.mem_cons_of_mem _ h.2⟩
        · exact .inr ⟨h1, v, List.mem_cons_of_mem _ h2, h3, h4⟩

theorem sum_counts (us : List UploadEntry) (docs : List BallotDoc) (hn : (us.map (fun u => u.uploadId)).Nodup)
    (hc : ∀ u ∈ us, u.ballotCount = (docs.filter (fun d => d.uploadId == u.uploadId)).length)
    (hl : ∀ d ∈ docs, ∃ u ∈ us, u.uploadId = d.uploadId) : (us.map (fun u => u.ballotCount)).sum = docs.length := by
  induction us generalizing docs with
  | nil =>
    cases docs with
    | nil => rfl
    | cons d docs => obtain ⟨u, hu, -⟩ := hl d (List.mem_cons_self ..); cases hu
  | cons u us ih =>
    rw [List.map_cons, List.nodup_cons] at hn
    rw [List.map_cons, List.sum_cons, hc u (List.mem_cons_self ..),
      ih (docs.filter (fun d => !(d.uploadId == u.uploadId))) hn.2 ?_ ?_]
    · rw [← List.countP_eq_length_filter, ← List.countP_eq_length_filter]
      have := List.length_eq_countP_add_countP (fun d : BallotDoc => d.uploadId == u.uploadId) (l := docs)
      rw [this]
      congr 1
      exact List.countP_congr (fun d _ => by simp)
    · intro v hv
      rw [hc v (List.mem_cons_of_mem _ hv), List.filter_filter]
      congr 1
      refine List.filter_congr (fun d _ => ?_)
      by_cases hd : d.uploadId = v.uploadId
      · have : d.uploadId ≠ u.uploadId := by
          intro h
          exact hn.1 (List.mem_map.2 ⟨v, hv, by rw [← hd, h]⟩)
        rw [hd] at this
        simp [hd, this]
      · simp [hd]
    · intro d hd
      obtain ⟨hd, hne⟩ := List.mem_filter.1 hd
      obtain ⟨v, hv, hvd⟩ := hl d hd
      rcases List.mem_cons.1 hv with rfl | hv
      · simp [hvd] at hne
      · exact ⟨v, hv, hvd⟩

end EG
