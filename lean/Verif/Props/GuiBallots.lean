import Verif.Lemmas.GuiBallots
import Verif.Props.Election

/-!
# C69: ballot uploads in the GUI
-/

namespace EG

variable {parse : List Char → Option SBallot}

/-! ### One upload -/

/-- C69 A ballot is stored exactly if the file holds a ballot, the election exists, the ballot carries the manifest hash of
the election's context, and the election holds no ballot with this id; then one document is added to the ballots. -/
theorem C69_stored_iff (parse : List Char → Option SBallot) (db : GuiDb) (uid eid fn : String) (contents : List Char) :
    ((db.uploadBallot parse uid eid fn contents).1 = .success false ↔
      ∃ b e, parse contents = some b ∧ dget db.elections eid = some e ∧ e.context.manifestHash = b.manifestHash ∧
        ∀ d ∈ db.ballots, d.electionId = eid → d.objectId ≠ b.objectId) ∧
    ∀ b, parse contents = some b → (db.uploadBallot parse uid eid fn contents).1 = .success false →
      (db.uploadBallot parse uid eid fn contents).2.ballots = db.ballots ++ [⟨uid, eid, fn, b.objectId, contents⟩] := by
  unfold GuiDb.uploadBallot
  cases h : db.checkUpload parse eid contents with
  | inl r =>
    have hr := checkUpload_inl _ _ _ _ h
    refine ⟨⟨fun h => absurd h hr, ?_⟩, fun _ _ h => absurd h hr⟩
    rintro ⟨b, e, h1, h2, h3, h4⟩
    have := (checkUpload_inr (parse := parse) db eid contents b.objectId).2 ⟨b, e, h1, rfl, h2, h3, h4⟩
    rw [h] at this
    cases this
  | inr oid =>
    obtain ⟨b, e, h1, h2, h3, h4, h5⟩ := (checkUpload_inr ..).1 h
    refine ⟨⟨fun _ => ⟨b, e, h1, h3, h4, fun d hd hde => by rw [h2]; exact h5 d hd hde⟩, fun _ => rfl⟩, fun b' hb' _ => ?_⟩
    rw [h1] at hb'
    cases hb'
    dsimp only
    rw [storeUpload_ballots, h2]

/-- C69 A duplicate is reported exactly if the ballot belongs to the election and the election holds a ballot with its
id. -/
theorem C69_duplicate_iff (parse : List Char → Option SBallot) (db : GuiDb) (uid eid fn : String) (contents : List Char) :
    (db.uploadBallot parse uid eid fn contents).1 = .success true ↔
      ∃ b e, parse contents = some b ∧ dget db.elections eid = some e ∧ e.context.manifestHash = b.manifestHash ∧
        ∃ d ∈ db.ballots, d.electionId = eid ∧ d.objectId = b.objectId := by
  rw [← checkUpload_dup]
  unfold GuiDb.uploadBallot
  cases h : db.checkUpload parse eid contents with
  | inl r => simp
  | inr oid => simp

/-- C69 An upload that fails or reports a duplicate changes nothing. -/
theorem C69_refused_changes_nothing (parse : List Char → Option SBallot) (db : GuiDb) (uid eid fn : String)
    (contents : List Char) (h : (db.uploadBallot parse uid eid fn contents).1 ≠ .success false) :
    (db.uploadBallot parse uid eid fn contents).2 = db := by
  unfold GuiDb.uploadBallot at h ⊢
  cases hc : db.checkUpload parse eid contents with
  | inl r => rfl
  | inr oid => rw [hc] at h; exact absurd rfl h

/-! ### Sequences of calls -/

/-- C69 However ballots are uploaded one after the other, no election ever holds two ballots with the same id, and every
stored document holds a ballot of its election under its id. -/
theorem C69_sequence (parse : List Char → Option SBallot) (db : GuiDb) (ops : List UploadOp)
    (h1 : db.DistinctBallots) (h2 : ∀ d ∈ db.ballots, db.Holds parse d) :
    (db.run parse ops).DistinctBallots ∧ ∀ d ∈ (db.run parse ops).ballots, (db.run parse ops).Holds parse d := by
  induction ops generalizing db with
  | nil => exact ⟨h1, h2⟩
  | cons op ops ih =>
    refine ih (db.step parse op) ?_ ?_
    · obtain ⟨-, h | ⟨d, b, e, h, -, -, -, -, h6⟩⟩ := step_cases parse db op
      · unfold GuiDb.DistinctBallots
        rw [h]
        exact h1
      · unfold GuiDb.DistinctBallots at h1 ⊢
        rw [h, List.map_append, List.map_cons, List.map_nil]
        refine List.nodup_append.2 ⟨h1, by simp, ?_⟩
        intro x hx y hy
        obtain ⟨d', hd', rfl⟩ := List.mem_map.1 hx
        simp only [List.mem_singleton] at hy
        subst hy
        intro heq
        simp only [Prod.mk.injEq] at heq
        exact h6 d' hd' heq.1 heq.2
    · obtain ⟨hs, h | ⟨d, b, e, h, h3, h4, h5, h6, -⟩⟩ := step_cases parse db op
      · intro d hd
        rw [h] at hd
        exact holds_of_same hs (h2 d hd)
      · intro d' hd'
        rw [h, List.mem_append, List.mem_singleton] at hd'
        rcases hd' with hd' | rfl
        · exact holds_of_same hs (h2 d' hd')
        · exact holds_of_same hs ⟨b, e, h3, h4, h5, h6⟩

/-- C69 Stored ballots stay: nothing that is uploaded later removes or replaces a ballot, and the manifest and context of
the elections never change. -/
theorem C69_append_only (parse : List Char → Option SBallot) (db : GuiDb) (ops : List UploadOp) :
    db.ballots <+: (db.run parse ops).ballots ∧ ∀ eid e, dget db.elections eid = some e →
      ∃ e', dget (db.run parse ops).elections eid = some e' ∧ e'.manifest = e.manifest ∧ e'.context = e.context ∧
        e'.guardianRecords = e.guardianRecords := by
  induction ops generalizing db with
  | nil => exact ⟨List.prefix_refl _, fun eid e h => ⟨e, h, rfl, rfl, rfl⟩⟩
  | cons op ops ih =>
    obtain ⟨hs, hb⟩ := step_cases parse db op
    have h1 : db.ballots <+: (db.step parse op).ballots := by
      rcases hb with h | ⟨d, b, e, h, -⟩
      · rw [h]
      · rw [h]
        exact List.prefix_append _ _
    refine ⟨h1.trans (ih _).1, fun eid e he => ?_⟩
    have := hs eid
    rw [he] at this
    cases hx : dget (db.step parse op).elections eid with
    | none => rw [hx] at this; cases this
    | some e' =>
      rw [hx] at this
      simp only [Option.map_some, Option.some.injEq, Prod.mk.injEq] at this
      obtain ⟨e'', h1, h2, h3, h4⟩ := (ih _).2 eid e' hx
      exact ⟨e'', h1, h2.trans this.1, h3.trans this.2.1, h4.trans this.2.2⟩

/-- The uploads of a sequence that belong to an election with this manifest hash, as ballots. -/
def uploadedTo (parse : List Char → Option SBallot) (manifestHash : Nat) (eid : String) (ops : List UploadOp) :
    List SBallot :=
  ops.filterMap (fun op => match op with
    | .create .. => none
    | .upload _ eid' _ contents =>
      if eid' = eid then (parse contents).filter (fun b => decide (b.manifestHash = manifestHash)) else none)

/-- The first ballot with each id. -/
def firstById : List SBallot → List SBallot
  | [] => []
  | b :: bs => b :: (firstById bs).filter (fun w => decide (w.objectId ≠ b.objectId))

theorem firstById_append (bs : List SBallot) (b : SBallot) : firstById (bs ++ [b]) =
    if b.objectId ∈ bs.map (fun w => w.objectId) then firstById bs else firstById bs ++ [b] := by
  induction bs with
  | nil => simp [firstById]
  | cons w vs ih =>
    simp only [List.cons_append, firstById, ih, List.map_cons, List.mem_cons]
    by_cases h : b.objectId = w.objectId
    · rw [if_pos (Or.inl h)]
      split
      · rfl
      · simp [h]
    · by_cases hm : b.objectId ∈ vs.map (fun w => w.objectId)
      · rw [if_pos hm, if_pos (Or.inr hm)]
      · rw [if_neg hm, if_neg (by simp only [h, hm, or_self, not_false_eq_true])]
        simp [h]

theorem mem_firstById_ids (vs : List SBallot) (x : String) :
    x ∈ (firstById vs).map (fun w => w.objectId) ↔ x ∈ vs.map (fun w => w.objectId) := by
  induction vs with
  | nil => rfl
  | cons w vs ih =>
    rw [firstById, List.map_cons, List.map_cons, List.mem_cons, List.mem_cons]
    refine or_congr_right' (fun hne => ?_)
    rw [← ih]
    constructor
    · intro h
      obtain ⟨y, hy, hye⟩ := List.mem_map.1 h
      exact List.mem_map.2 ⟨y, (List.mem_filter.1 hy).1, hye⟩
    · intro h
      obtain ⟨y, hy, hye⟩ := List.mem_map.1 h
      refine List.mem_map.2 ⟨y, List.mem_filter.2 ⟨hy, ?_⟩, hye⟩
      rw [decide_eq_true_eq, hye]
      exact hne

theorem GuiDb.run_concat (parse : List Char → Option SBallot) (db : GuiDb) (ops : List UploadOp) (op : UploadOp) :
    db.run parse (ops ++ [op]) = (db.run parse ops).step parse op := by
  unfold GuiDb.run
  rw [List.foldl_append]
  rfl

/-- C69 The ballots that an election holds are exactly the uploaded ballots with its manifest hash, the first of each id,
in the order of the uploads; all other calls leave them alone. -/
theorem C69_first_of_each_id (parse : List Char → Option SBallot) (db : GuiDb) (ops : List UploadOp) (eid : String)
    (e : ElectionDoc) (he : dget db.elections eid = some e) (hempty : db.docsOf eid = []) :
    ((db.run parse ops).docsOf eid).map (fun d => parse d.contents)
      = (firstById (uploadedTo parse e.context.manifestHash eid ops)).map some ∧
    ((db.run parse ops).docsOf eid).map (fun d => d.objectId)
      = (firstById (uploadedTo parse e.context.manifestHash eid ops)).map (fun b => b.objectId) := by
  induction ops using List.reverseRecOn with
  | nil =>
    show (db.docsOf eid).map _ = _ ∧ (db.docsOf eid).map _ = _
    rw [hempty]
    exact ⟨rfl, rfl⟩
  | append_singleton ops op ih =>
    obtain ⟨e', he', hm, hc, hg⟩ := (C69_append_only parse db ops).2 eid e he
    rw [GuiDb.run_concat]
    generalize db.run parse ops = d1 at ih he'
    have hup : uploadedTo parse e.context.manifestHash eid (ops ++ [op])
        = uploadedTo parse e.context.manifestHash eid ops ++ uploadedTo parse e.context.manifestHash eid [op] := by
      unfold uploadedTo
      rw [List.filterMap_append]
    rw [hup]
    cases op with
    | create a b c =>
      have : (d1.step parse (.create a b c)).docsOf eid = d1.docsOf eid := by
        unfold GuiDb.docsOf GuiDb.step
        rw [createUpload_ballots]
      rw [this]
      simpa [uploadedTo] using ih
    | upload uid eid' fn contents =>
      by_cases hee : eid' = eid
      · subst hee
        cases hp : parse contents with
        | none =>
          have : (d1.step parse (.upload uid eid' fn contents)) = d1 := by
            simp only [GuiDb.step, GuiDb.uploadBallot, GuiDb.checkUpload, hp]
          rw [this]
          simpa [uploadedTo, hp] using ih
        | some b =>
          by_cases hh : b.manifestHash = e.context.manifestHash
          · have h1 : uploadedTo parse e.context.manifestHash eid' [.upload uid eid' fn contents] = [b] := by
              simp only [uploadedTo, List.filterMap_cons, List.filterMap_nil, if_true, hp, Option.filter, hh, decide_true]
            have hmem : b.objectId ∈ (uploadedTo parse e.context.manifestHash eid' ops).map (fun w => w.objectId) ↔
                b.objectId ∈ (d1.docsOf eid').map (fun d => d.objectId) := by rw [ih.2, mem_firstById_ids]
            rw [h1, firstById_append]
            by_cases hex : ∃ d ∈ d1.ballots, d.electionId = eid' ∧ d.objectId = b.objectId
            · have h2 := (checkUpload_dup (parse := parse) d1 eid' contents).2 ⟨b, e', hp, he', by rw [hc, hh], hex⟩
              have : (d1.step parse (.upload uid eid' fn contents)) = d1 := by
                simp only [GuiDb.step, GuiDb.uploadBallot, h2]
              obtain ⟨d, hd, hd1, hd2⟩ := hex
              rw [this, if_pos]
              · exact ih
              · exact hmem.2 (List.mem_map.2 ⟨d, List.mem_filter.2 ⟨hd, by simp [hd1]⟩, hd2⟩)
            · have h2 := (checkUpload_inr (parse := parse) d1 eid' contents b.objectId).2
                ⟨b, e', hp, rfl, he', by rw [hc, hh], fun d hd h3 h4 => hex ⟨d, hd, h3, h4⟩⟩
              have : (d1.step parse (.upload uid eid' fn contents)).docsOf eid'
                  = d1.docsOf eid' ++ [⟨uid, eid', fn, b.objectId, contents⟩] := by
                simp only [GuiDb.step, GuiDb.uploadBallot, h2, GuiDb.docsOf, storeUpload_ballots]
                rw [List.filter_append]
                simp
              rw [this, if_neg]
              · simp [ih.1, ih.2, hp]
              · intro hm'
                obtain ⟨d, hd, hd2⟩ := List.mem_map.1 (hmem.1 hm')
                obtain ⟨hd, hd1⟩ := List.mem_filter.1 hd
                exact hex ⟨d, hd, by simpa using hd1, hd2⟩
          · have : (d1.step parse (.upload uid eid' fn contents)) = d1 := by
              simp only [GuiDb.step, GuiDb.uploadBallot, GuiDb.checkUpload, hp, he', hc]
              rw [if_pos (Ne.symm hh)]
            rw [this]
            simpa [uploadedTo, hp, hh] using ih
      · have : (d1.step parse (.upload uid eid' fn contents)).docsOf eid = d1.docsOf eid := by
          simp only [GuiDb.step, GuiDb.uploadBallot, GuiDb.docsOf]
          cases d1.checkUpload parse eid' contents with
          | inl r => rfl
          | inr oid =>
            dsimp only
            rw [storeUpload_ballots, List.filter_append]
            simp [hee]
        rw [this]
        simpa [uploadedTo, hee] using ih

/-! ### The counters -/

/-- C69 `sum_ballots` of an election is the number of ballots that it holds, if every ballot is uploaded under an upload
that was created for the election and the database never gives out an id twice. -/
theorem C69_sum_ballots_partial (parse : List Char → Option SBallot) (db : GuiDb) (ops : List UploadOp)
    (hp : ProperRun parse db ops) (h : ∀ eid e, dget db.elections eid = some e → db.CountsRight eid e)
    (eid : String) (e : ElectionDoc) (he : dget (db.run parse ops).elections eid = some e) :
    e.sumBallots = ((db.run parse ops).docsOf eid).length ∧ (db.run parse ops).CountsRight eid e := by
  have key : ∀ eid e, dget (db.run parse ops).elections eid = some e → (db.run parse ops).CountsRight eid e := by
    clear he
    induction ops generalizing db with
    | nil => exact h
    | cons op ops ih =>
      obtain ⟨hop, hops⟩ := hp
      refine ih (db.step parse op) hops ?_
      cases op with
      | create eid' newId dev =>
        simp only [GuiDb.step, GuiDb.createUpload, GuiDb.appendUpload]
        cases hx : dget db.elections eid' with
        | none => exact h
        | some e0 =>
          cases dev with
          | false => exact h
          | true =>
            intro k ek hk
            simp only [if_true] at hk ⊢
            rw [dget_dset] at hk
            split at hk
            · rename_i hkk
              subst hkk
              cases hk
              have h0 := h _ _ hx
              refine ⟨?_, ?_, ?_⟩
              · rw [List.map_append]
                refine List.nodup_append.2 ⟨h0.distinct, by simp, ?_⟩
                intro x hx' y hy
                obtain ⟨u, hu, rfl⟩ := List.mem_map.1 hx'
                simp only [List.map_cons, List.map_nil, List.mem_singleton] at hy
                subst hy
                exact hop.1 _ hx u hu
              · intro u hu
                rcases List.mem_append.1 hu with hu | hu
                · exact h0.count u hu
                · simp only [List.mem_singleton] at hu
                  subst hu
                  symm
                  rw [List.length_eq_zero_iff, List.filter_eq_nil_iff]
                  intro d hd
                  have := hop.2 d (List.mem_filter.1 hd).1
                  simpa using this
              · intro d hd
                obtain ⟨u, hu, hud⟩ := h0.listed d hd
                exact ⟨u, List.mem_append_left _ hu, hud⟩
            · exact ⟨(h _ _ hk).distinct, (h _ _ hk).count, (h _ _ hk).listed⟩
      | upload uid eid' fn contents =>
        simp only [GuiDb.step, GuiDb.uploadBallot]
        cases hc : db.checkUpload parse eid' contents with
        | inl r => exact h
        | inr oid =>
          obtain ⟨b, e0, -, -, hx, -, -⟩ := (checkUpload_inr ..).1 hc
          intro k ek hk
          have hdocs : (db.storeUpload uid eid' fn contents oid).docsOf k
              = db.docsOf k ++ (if eid' = k then [⟨uid, eid', fn, oid, contents⟩] else []) := by
            unfold GuiDb.docsOf
            rw [storeUpload_ballots, List.filter_append]
            by_cases hkk : eid' = k <;> simp [hkk]
          have hk' : dget (dset db.elections eid' { e0 with uploads := incrementFirst uid e0.uploads }) k = some ek := by
            have : (db.storeUpload uid eid' fn contents oid).elections
                = dset db.elections eid' { e0 with uploads := incrementFirst uid e0.uploads } := by
              unfold GuiDb.storeUpload GuiDb.increment GuiDb.addBallot
              dsimp only
              rw [hx]
            rw [← this]
            exact hk
          rw [dget_dset] at hk'
          split at hk'
          · rename_i hkk
            subst hkk
            cases hk'
            have h0 := h _ _ hx
            rw [if_pos rfl] at hdocs
            refine ⟨?_, ?_, ?_⟩
            · show ((incrementFirst uid e0.uploads).map _).Nodup
              rw [incrementFirst_ids]
              exact h0.distinct
            · intro u hu
              rw [hdocs, List.filter_append, List.length_append]
              rcases incrementFirst_mem h0.distinct hu with ⟨h1, h2⟩ | ⟨h1, v, h2, h3, h4⟩
              · have : (uid == u.uploadId) = false := by simpa using Ne.symm h1
                rw [h0.count u h2]
                simp [this]
              · rw [h4, h0.count v h2, h3, h1]
                simp
            · intro d hd
              rw [hdocs] at hd
              have hlist : ∀ v ∈ e0.uploads, ∃ u ∈ incrementFirst uid e0.uploads, u.uploadId = v.uploadId := by
                intro v hv
                have : v.uploadId ∈ (incrementFirst uid e0.uploads).map (fun u => u.uploadId) := by
                  rw [incrementFirst_ids]
                  exact List.mem_map_of_mem hv
                obtain ⟨u, hu, h⟩ := List.mem_map.1 this
                exact ⟨u, hu, h⟩
              rcases List.mem_append.1 hd with hd | hd
              · obtain ⟨v, hv, hvd⟩ := h0.listed d hd
                obtain ⟨u, hu, huv⟩ := hlist v hv
                exact ⟨u, hu, huv.trans hvd⟩
              · simp only [List.mem_singleton] at hd
                subst hd
                obtain ⟨v, hv, hvd⟩ := hop _ hx
                obtain ⟨u, hu, huv⟩ := hlist v hv
                exact ⟨u, hu, huv.trans hvd⟩
          · rename_i hkk
            rw [if_neg hkk, List.append_nil] at hdocs
            have h0 := h _ _ hk'
            refine ⟨h0.distinct, ?_, ?_⟩
            · rw [hdocs]; exact h0.count
            · rw [hdocs]; exact h0.listed
  have := key eid e he
  exact ⟨sum_counts _ _ this.distinct this.count this.listed, this⟩

/-- C69 A successful `upload_ballots` of a drive reports the number of files; the files that it does not report as
duplicates are exactly those that were added to the ballots. -/
theorem C69_drive (parse : List Char → Option SBallot) (db db' : GuiDb) (eid newId : String) (device : Bool)
    (files : List (String × List Char)) (n dups : Nat)
    (h : db.uploadBallots parse eid newId device files = (some (n, dups), db')) :
    n = files.length ∧ db'.ballots.length + dups = db.ballots.length + n ∧ db.ballots <+: db'.ballots := by
  have loop : ∀ (files : List (String × List Char)) (db db' : GuiDb) (uid : String) (k dups : Nat),
      db.uploadFiles parse uid eid files k = (some dups, db') →
      db'.ballots.length + dups = db.ballots.length + files.length + k ∧ db.ballots <+: db'.ballots := by
    intro files
    induction files with
    | nil =>
      intro db db' uid k dups h
      cases h
      exact ⟨by simp, List.prefix_refl _⟩
    | cons f fs ih =>
      intro db db' uid k dups h
      rw [GuiDb.uploadFiles] at h
      unfold GuiDb.uploadBallot at h
      cases hc : db.checkUpload parse eid f.2 with
      | inl r =>
        rw [hc] at h
        cases r with
        | fail => cases h
        | success dup =>
          have := checkUpload_inl _ _ _ _ hc
          cases dup with
          | false => exact absurd rfl this
          | true =>
            obtain ⟨h1, h2⟩ := ih _ _ _ _ _ h
            refine ⟨?_, h2⟩
            simp only [List.length_cons, if_true] at *
            omega
      | inr oid =>
        rw [hc] at h
        obtain ⟨h1, h2⟩ := ih _ _ _ _ _ h
        rw [storeUpload_ballots] at h1 h2
        refine ⟨?_, (List.prefix_append _ _).trans h2⟩
        simp only [List.length_cons, List.length_append, List.length_nil, Bool.false_eq_true, if_false] at *
        omega
  unfold GuiDb.uploadBallots at h
  have hb := createUpload_ballots db eid newId device
  cases hc : db.createUpload eid newId device with
  | mk r db1 =>
    rw [hc] at h hb
    dsimp only at hb
    cases r with
    | none => cases h
    | some uid =>
      dsimp only at h
      cases hl : db1.uploadFiles parse uid eid files 0 with
      | mk r db2 =>
        rw [hl] at h
        cases r with
        | none => cases h
        | some k =>
          cases h
          obtain ⟨h1, h2⟩ := loop _ _ _ _ _ _ hl
          rw [hb] at h1 h2
          exact ⟨rfl, by omega, h2⟩

/-! ### Reading the ballots -/

theorem fetchWithRetry_ok {contents : List Char} {b : SBallot} (h1 : contents.getLast? = some '}')
    (h2 : parse contents = some b) (ups : List Bool) (h3 : true ∈ ups) :
    fetchWithRetry parse contents ups = some b := by
  induction ups with
  | nil => cases h3
  | cons up ups ih =>
    rw [fetchWithRetry]
    cases up with
    | true => simp [fetchBallot, h1, h2]
    | false =>
      simp only [fetchBallot, if_true]
      exact ih (by simpa using h3)

theorem all_read (parse : List Char → Option SBallot) (net : Nat → Nat → Bool) (db : GuiDb) (eid : String)
    (h : ∀ d ∈ db.docsOf eid, ∃ b, parse d.contents = some b) (hend : ∀ d ∈ db.docsOf eid, d.contents.getLast? = some '}')
    (hnet : ∀ n, ∃ k < 3, net n k = true) :
    (db.getBallots parse net eid).map some = (db.docsOf eid).map (fun d => parse d.contents) := by
  unfold GuiDb.getBallots
  have key : ∀ (l : List BallotDoc) (n : Nat), (∀ d ∈ l, ∃ b, parse d.contents = some b) → (∀ d ∈ l, d.contents.getLast? = some '}') →
      ((l.zipIdx n).filterMap (fun e => fetchWithRetry parse e.1.contents [net e.2 0, net e.2 1, net e.2 2])).map some
        = l.map (fun d => parse d.contents) := by
    intro l
    induction l with
    | nil => intros; rfl
    | cons d l ih =>
      intro n h hend
      obtain ⟨b, h1⟩ := h d (List.mem_cons_self ..)
      have hups : true ∈ [net n 0, net n 1, net n 2] := by
        obtain ⟨k, hk, hkn⟩ := hnet n
        have : k = 0 ∨ k = 1 ∨ k = 2 := by omega
        rcases this with rfl | rfl | rfl <;> simp [hkn]
      have := fetchWithRetry_ok (hend d (List.mem_cons_self ..)) h1 _ hups
      rw [List.zipIdx_cons, List.filterMap_cons]
      dsimp only
      rw [this]
      dsimp only
      rw [List.map_cons, List.map_cons, ih _ (fun x hx => h x (List.mem_cons_of_mem _ hx))
        (fun x hx => hend x (List.mem_cons_of_mem _ hx)), h1]
  exact key _ 0 h hend

/-- C69 After any sequence of calls, `get_ballots` returns all the ballots of the election, in the order in which they were
stored, if every file ends with `}` and for every ballot the database answers one of the three attempts. -/
theorem C69_all_read_partial (parse : List Char → Option SBallot) (net : Nat → Nat → Bool) (db : GuiDb)
    (ops : List UploadOp) (h0 : db.ballots = []) (eid : String)
    (hend : ∀ d ∈ (db.run parse ops).docsOf eid, d.contents.getLast? = some '}')
    (hnet : ∀ n, ∃ k < 3, net n k = true) :
    ((db.run parse ops).getBallots parse net eid).map some
      = ((db.run parse ops).docsOf eid).map (fun d => parse d.contents) := by
  refine all_read parse net _ eid (fun d hd => ?_) hend hnet
  obtain ⟨b, e, h, -⟩ := (C69_sequence parse db ops (by unfold GuiDb.DistinctBallots; rw [h0]; exact List.nodup_nil)
    (by rw [h0]; simp)).2 d (List.mem_filter.1 hd).1
  exact ⟨b, h⟩

/-- C69 Whatever the database does, `get_ballots` returns only ballots that are stored for the election. -/
theorem C69_only_stored (parse : List Char → Option SBallot) (net : Nat → Nat → Bool) (db : GuiDb) (eid : String)
    (b : SBallot) (hb : b ∈ db.getBallots parse net eid) : ∃ d ∈ db.docsOf eid, parse d.contents = some b := by
  unfold GuiDb.getBallots at hb
  obtain ⟨e, he, hb⟩ := List.mem_filterMap.1 hb
  refine ⟨e.1, ?_, ?_⟩
  · have : e.1 ∈ ((db.docsOf eid).zipIdx).map (fun e => e.1) := List.mem_map.2 ⟨e, he, rfl⟩
    simpa using this
  · generalize [net e.2 0, net e.2 1, net e.2 2] = ups at hb
    induction ups with
    | nil => cases hb
    | cons up ups ih =>
      rw [fetchWithRetry] at hb
      unfold fetchBallot at hb
      cases up with
      | false => exact ih hb
      | true =>
        simp only [if_false, Bool.true_eq_false] at hb
        cases hl : e.1.contents.getLast? with
        | none => rw [hl] at hb; cases hb
        | some c =>
          rw [hl] at hb
          dsimp only at hb
          by_cases hc : c = '}'
          · rw [if_neg (by simpa using hc)] at hb
            cases hp : parse e.1.contents with
            | none =>
              rw [hp] at hb
              have := ih hb
              rwa [hp] at this
            | some x => rw [hp] at hb; exact hb
          · rw [if_pos hc] at hb
            exact ih hb

/-- C69 A file that does not end with `}` is never read, however often the database answers: the ballot is not in the
tally. -/
theorem C69_ending_skipped (parse : List Char → Option SBallot) (contents : List Char) (ups : List Bool)
    (h : contents.getLast? ≠ some '}') : fetchWithRetry parse contents ups = none := by
  induction ups with
  | nil => rfl
  | cons up ups ih =>
    rw [fetchWithRetry]
    unfold fetchBallot
    cases up with
    | false => exact ih
    | true =>
      simp only [if_false, Bool.true_eq_false]
      cases hl : contents.getLast? with
      | none => rfl
      | some c =>
        have hc : c ≠ '}' := by
          intro hc
          rw [hl, hc] at h
          exact h rfl
        dsimp only
        rw [if_pos hc]
        exact ih

end EG
