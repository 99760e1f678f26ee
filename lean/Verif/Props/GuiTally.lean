import Verif.Props.GuiBallots
import Verif.Lemmas.GuiRace

/-!
# C69: the tally of the uploaded ballots
-/

namespace EG

variable {E : Env} {parse : List Char → Option SBallot}

theorem validFalse_of_true {b : CBallot} {m : InternalManifest} {ctx : Context}
    (h : ballotIsValidForElection E b m ctx true = .ok true) : ballotIsValidForElection E b m ctx false = .ok true := by
  obtain ⟨h1, -⟩ := ballotIsValidForElection_true E b m ctx true h
  exact ballotIsValidForElection_of E _ m ctx false h1 (fun h => by cases h)

/-- For valid ballots it does not matter whether their validity is checked. -/
theorem batchLoop_validate {m : InternalManifest} {ctx : Context} (bs : List SBallot) (t : Tally) (d : BatchDict)
    (h : ∀ b ∈ bs, ballotIsValidForElection E b.toCBallot m ctx true = .ok true) :
    batchLoop E m ctx false bs t d = batchLoop E m ctx true bs t d := by
  induction bs generalizing t d with
  | nil => rfl
  | cons b bs ih =>
    have hb := h b (List.mem_cons_self ..)
    rw [batchLoop, batchLoop, hb, validFalse_of_true hb]
    have := fun t d => ih t d (fun x hx => h x (List.mem_cons_of_mem _ hx))
    cases b.state <;> simp only [this]

theorem firstById_map (vs : List VotedBallot) (hid : ∀ v ∈ vs, v.enc.objectId = v.plain.objectId) :
    firstById (vs.map (fun v => submitBallot E v.enc v.state))
      = (firsts vs).map (fun v => submitBallot E v.enc v.state) := by
  induction vs with
  | nil => rfl
  | cons v vs ih =>
    rw [List.map_cons, firstById, firsts, List.map_cons, ih (fun w hw => hid w (List.mem_cons_of_mem _ hw)),
      List.filter_map]
    congr 2
    refine List.filter_congr (fun w hw => ?_)
    have h1 : (submitBallot E w.enc w.state).objectId = w.plain.objectId :=
      hid w (List.mem_cons_of_mem _ (firsts_subset vs w hw))
    have h2 : (submitBallot E v.enc v.state).objectId = v.plain.objectId := hid v (List.mem_cons_self ..)
    simp only [Function.comp, h1, h2]

/-- The tally of a store of valid ballots, computed without validation. -/
theorem getTally_of_store {m : Manifest} {im : InternalManifest} {ctx : Context} (him : mkInternalManifest E m = .ok im) {store : Store SBallot}
    (hval : ∀ b ∈ store.all, ballotIsValidForElection E b.toCBallot im ctx true = .ok true) {t : Tally}
    (ht : tallyBallots E im ctx true store = .ok (some t)) : getTally E m ctx store.all false = .ok t := by
  unfold tallyBallots at ht
  unfold getTally
  rw [him]
  simp only [bind, Except.bind, pure, Except.pure]
  have heq : (newTally E "election-results" im).batchAppend E im ctx true store.all false
      = (newTally E "election-results" im).batchAppend E im ctx true store.all true := by
    unfold Tally.batchAppend Tally.batchAppendIter
    rw [batchLoop_validate _ _ _ hval]
  rw [heq]
  cases hr : (newTally E "election-results" im).batchAppend E im ctx true store.all true with
  | mk r t' =>
    rw [hr] at ht
    cases r with
    | error x => cases ht
    | ok o => cases o with
      | false => cases ht
      | true => cases ht; rfl

/-- C69 The tally that the GUI computes from the uploaded ballots.  Properly encrypted ballots are uploaded in any order,
from any number of drives, repeatedly, between failed uploads and uploads for other elections.  The tally of the stored
ballots contains exactly the cast ballots, the first uploaded of each id, and every correct decryption of it reports the
election result of these.  Partial: the files end with `}` and the database answers. -/
theorem C69_uploads_tally_partial (hv : E.P.Valid) (hpq : (E.P.q - 1) * (E.P.q - 1) < E.P.p) (maxE : Nat)
    (json : ContestData → Bytes) (m : Manifest) (im : InternalManifest) (he : ElectionReady E m im) (ctx : Context)
    (hres : isValidResidue E.P ctx.elgamalPublicKey = true) (hhash : ctx.manifestHash = im.manifestHash)
    (parse : List Char → Option SBallot) (net : Nat → Nat → Bool) (hnet : ∀ n, ∃ k < 3, net n k = true)
    (db : GuiDb) (eid : String) (e : ElectionDoc) (hdb : dget db.elections eid = some e) (hctx : e.context = ctx)
    (hempty : db.docsOf eid = []) (ops : List UploadOp)
    (hend : ∀ d ∈ (db.run parse ops).docsOf eid, d.contents.getLast? = some '}')
    (vs : List VotedBallot) (hvs : ∀ v ∈ vs, v.Encrypted E json im ctx ∧ ∃ d, im.StyleHas v.plain.styleId d)
    (hops : uploadedTo parse im.manifestHash eid ops = vs.map (fun v => submitBallot E v.enc v.state))
    (hsmall : (counted vs).length < E.P.q) (hmax : (counted vs).length ≤ maxE) :
    (db.run parse ops).getBallots parse net eid = (firsts vs).map (fun v => submitBallot E v.enc v.state) ∧
    ∃ t, getTally E m ctx ((db.run parse ops).getBallots parse net eid) false = .ok t ∧
      (∀ x, x ∈ t.castIds ↔ ∃ v ∈ counted vs, v.plain.objectId = x) ∧
      (∀ x, x ∈ t.spoiledIds ↔ ∃ v ∈ firsts vs, v.state = .spoiled ∧ v.plain.objectId = x) ∧
      Decryptable E.P maxE ctx.elgamalPublicKey m t.toCts ∧
      ∀ pt : PlaintextTally, pt.Correct E.P ctx.elgamalPublicKey m t.toCts →
        ∀ cid sid n, pt.Reports cid sid n ↔ ∃ d ∈ im.contests, d.objectId = cid ∧
          sid ∈ d.ballotSelections.map SelectionDescription.objectId ∧ n = electionResult im vs d sid := by
  obtain ⟨im', him', hids, hsorted, -, -, hmap, hdv⟩ := C40_unique_ids_partial E m he.manifest
  rw [he.internal] at him'
  cases him'
  have hspec : ∀ v ∈ vs, ∃ ds, BallotSpec E v.plain im ctx v.codeSeed v.nonce v.now ds v.enc := by
    intro v hv'
    refine encryptBallot_some hv hpq hres (fun d hd => ?_) (hvs v hv').1
    obtain ⟨-, -, -, -, hd, -⟩ := hd
    exact he.seats d hd
  have hid : ∀ v ∈ vs, v.enc.objectId = v.plain.objectId := fun v hv' => (hspec v hv').choose_spec.id
  -- what is read
  have hdocs := (C69_first_of_each_id parse db ops eid e hdb hempty).1
  rw [hctx, hhash, hops, firstById_map vs hid] at hdocs
  have hread : ∀ d ∈ (db.run parse ops).docsOf eid, ∃ b, parse d.contents = some b := by
    intro d hd
    have : parse d.contents ∈ ((db.run parse ops).docsOf eid).map (fun d => parse d.contents) := List.mem_map_of_mem hd
    rw [hdocs] at this
    obtain ⟨b, -, hb⟩ := List.mem_map.1 this
    exact ⟨b, hb.symm⟩
  have hread2 : (db.run parse ops).getBallots parse net eid
      = (firsts vs).map (fun v => submitBallot E v.enc v.state) := by
    have h1 := all_read parse net (db.run parse ops) eid hread hend hnet
    rw [hdocs] at h1
    exact List.map_injective_iff.2 (Option.some_injective _) h1
  obtain ⟨hbox, t, ht, hcast, hspoiled, hdec, -, hrep⟩ :=
    election_core hv hpq maxE json m im he ctx hres vs hvs hsmall hmax
  refine ⟨hread2, t, ?_, hcast, hspoiled, hdec, hrep⟩
  rw [hbox] at ht
  have hall : Store.all (stored E vs) = (firsts vs).map (fun v => submitBallot E v.enc v.state) := by
    unfold Store.all stored
    rw [List.map_map]
    rfl
  have hval : ∀ b ∈ (firsts vs).map (fun v => submitBallot E v.enc v.state),
      ballotIsValidForElection E b.toCBallot im ctx true = .ok true := by
    intro b hb
    obtain ⟨v, hv', rfl⟩ := List.mem_map.1 hb
    have hv' := firsts_subset vs v hv'
    exact C34_validity_partial E v.enc v.state im ctx ((hspec v hv').choose_spec.nonempty (hvs v hv').2)
      ((hspec v hv').choose_spec.sorted hsorted) ((hspec v hv').choose_spec.forElection hids hsorted (hvs v hv').2)
  rw [hread2, ← hall]
  exact getTally_of_store he.internal (by rw [hall]; exact hval) ht

/-! ### Ballots that the GUI accepts and should not -/

/-- C69 fails for files that end with white space, although JSON allows it: such a ballot is stored and counted, but it is
never read for the tally, and afterwards the proper file of the same ballot is refused as a duplicate. -/
theorem C69_newline_fails (parse : List Char → Option SBallot) (db : GuiDb) (uid eid fn : String) (contents : List Char)
    (b : SBallot) (e : ElectionDoc) (hp : parse contents = some b) (hp' : parse (contents ++ ['\n']) = some b)
    (he : dget db.elections eid = some e) (hh : e.context.manifestHash = b.manifestHash) (hempty : db.docsOf eid = []) :
    (db.uploadBallot parse uid eid fn (contents ++ ['\n'])).1 = .success false ∧
    (∀ net, (db.uploadBallot parse uid eid fn (contents ++ ['\n'])).2.getBallots parse net eid = []) ∧
    ((db.uploadBallot parse uid eid fn (contents ++ ['\n'])).2.uploadBallot parse uid eid fn contents).1
      = .success true := by
  have h1 := (C69_stored_iff parse db uid eid fn (contents ++ ['\n'])).1.2 ⟨b, e, hp', he, hh, fun d hd hde => by
    have : d ∈ db.docsOf eid := List.mem_filter.2 ⟨hd, by simp [hde]⟩
    rw [hempty] at this
    cases this⟩
  have h2 := (C69_stored_iff parse db uid eid fn (contents ++ ['\n'])).2 b hp' h1
  refine ⟨h1, fun net => ?_, ?_⟩
  · unfold GuiDb.getBallots
    have h3 : (db.uploadBallot parse uid eid fn (contents ++ ['\n'])).2.ballots.filter (fun d => d.electionId == eid)
        = [⟨uid, eid, fn, b.objectId, contents ++ ['\n']⟩] := by
      rw [h2, List.filter_append]
      have : db.ballots.filter (fun d => d.electionId == eid) = [] := hempty
      rw [this]
      simp
    rw [h3]
    simp only [List.zipIdx_cons, List.zipIdx_nil, List.filterMap_cons, List.filterMap_nil]
    rw [C69_ending_skipped]
    simp
  · have hs := (step_cases parse db (.upload uid eid fn (contents ++ ['\n']))).1 eid
    rw [he] at hs
    simp only [GuiDb.step] at hs
    cases hx : dget (db.uploadBallot parse uid eid fn (contents ++ ['\n'])).2.elections eid with
    | none => rw [hx] at hs; cases hs
    | some e' =>
      rw [hx] at hs
      simp only [Option.map_some, Option.some.injEq, Prod.mk.injEq] at hs
      refine (C69_duplicate_iff ..).2 ⟨b, e', hp, hx, by rw [hs.2.1]; exact hh,
        ⟨uid, eid, fn, b.objectId, contents ++ ['\n']⟩, ?_, rfl, rfl⟩
      · rw [h2]
        simp

/-- A ballot of unknown style makes the tally raise. -/
theorem getTally_unknown_style (m : Manifest) (ctx : Context) (bs : List SBallot) (validate : Bool) (b : SBallot)
    (hb : b ∈ bs) (im : InternalManifest) (him : mkInternalManifest E m = .ok im)
    (hs : im.ballotStyles.find? (fun s => s.objectId == b.styleId) = none) :
    ∃ err, getTally E m ctx bs validate = .error err := by
  have hbad : ballotIsValidForElection E b.toCBallot im ctx validate = .error .index := by
    rcases ballotIsValidForStyle_cases E b.toCBallot im with ⟨-, h⟩ | ⟨⟨s, h⟩, -⟩
    · unfold ballotIsValidForElection
      rw [h]
      rfl
    · rw [hs] at h
      cases h
  have loop : ∀ (bs : List SBallot) (t : Tally) (d : BatchDict), b ∈ bs →
      ∃ err t', batchLoop E im ctx validate bs t d = (.error err, t') := by
    intro bs
    induction bs with
    | nil => intro t d h; cases h
    | cons x bs ih =>
      intro t d h
      rw [batchLoop]
      rcases List.mem_cons.1 h with rfl | h
      · rw [hbad]
        exact ⟨_, _, rfl⟩
      · cases ballotIsValidForElection E x.toCBallot im ctx validate with
        | error e => exact ⟨_, _, rfl⟩
        | ok r =>
          cases r with
          | false => exact ih _ _ h
          | true => cases x.state <;> exact ih _ _ h
  obtain ⟨err, t', h⟩ := loop bs (newTally E "election-results" im) [] hb
  refine ⟨err, ?_⟩
  unfold getTally Tally.batchAppend Tally.batchAppendIter
  rw [him]
  simp only [bind, Except.bind]
  rw [h]

/-- C69 fails for a ballot whose style the manifest does not know: `upload_ballot` accepts it, and from then on, whatever
is uploaded later, the tally of the election raises whenever the ballot is read. -/
theorem C69_one_ballot_blocks_fails (parse : List Char → Option SBallot) (db : GuiDb) (uid eid fn : String)
    (contents : List Char) (b : SBallot) (e : ElectionDoc) (hp : parse contents = some b)
    (he : dget db.elections eid = some e) (hh : e.context.manifestHash = b.manifestHash)
    (hnew : ∀ d ∈ db.docsOf eid, d.objectId ≠ b.objectId) (im : InternalManifest)
    (him : mkInternalManifest E e.manifest = .ok im)
    (hs : im.ballotStyles.find? (fun s => s.objectId == b.styleId) = none) (hend : contents.getLast? = some '}') :
    (db.uploadBallot parse uid eid fn contents).1 = .success false ∧
    ∀ ops net validate, (∀ n, ∃ k < 3, net n k = true) → ∃ err, getTally E e.manifest e.context
      (((db.uploadBallot parse uid eid fn contents).2.run parse ops).getBallots parse net eid) validate = .error err := by
  have h1 := (C69_stored_iff parse db uid eid fn contents).1.2 ⟨b, e, hp, he, hh, fun d hd hde =>
    hnew d (List.mem_filter.2 ⟨hd, by simp [hde]⟩)⟩
  have h2 := (C69_stored_iff parse db uid eid fn contents).2 b hp h1
  refine ⟨h1, fun ops net validate hnet => ?_⟩
  refine getTally_unknown_style e.manifest e.context _ validate b ?_ im him hs
  have hmem : (⟨uid, eid, fn, b.objectId, contents⟩ : BallotDoc)
      ∈ ((db.uploadBallot parse uid eid fn contents).2.run parse ops).docsOf eid := by
    refine List.mem_filter.2 ⟨(C69_append_only parse _ ops).1.subset ?_, by simp⟩
    rw [h2]
    simp
  unfold GuiDb.getBallots
  obtain ⟨n, hn⟩ : ∃ n, ((⟨uid, eid, fn, b.objectId, contents⟩ : BallotDoc), n)
      ∈ (((db.uploadBallot parse uid eid fn contents).2.run parse ops).docsOf eid).zipIdx := by
    obtain ⟨i, hi, hx⟩ := List.getElem_of_mem hmem
    exact ⟨i, List.mem_zipIdx_iff_getElem?.2 (by rw [List.getElem?_eq_getElem hi, hx])⟩
  refine List.mem_filterMap.2 ⟨_, hn, ?_⟩
  refine fetchWithRetry_ok hend hp _ ?_
  obtain ⟨k, hk, hkn⟩ := hnet n
  have : k = 0 ∨ k = 1 ∨ k = 2 := by omega
  rcases this with rfl | rfl | rfl <;> simp [hkn]

/-! ### Several clients -/

/-- The ballots that are stored when several clients upload at the same time. -/
def UploadState.run (parse : List Char → Option SBallot) (s : UploadState) (evs : List UploadEvent) : UploadState :=
  evs.foldl (UploadState.step parse) s

theorem step_hold (s : UploadState) (ev : UploadEvent)
    (h : (∀ d ∈ s.db.ballots, s.db.Holds parse d) ∧ ∀ x ∈ s.pending, s.db.Holds parse
      ⟨x.2.uploadId, x.2.electionId, x.2.fileName, x.2.objectId, x.2.contents⟩) :
    (∀ d ∈ (s.step parse ev).db.ballots, (s.step parse ev).db.Holds parse d) ∧
    ∀ x ∈ (s.step parse ev).pending, (s.step parse ev).db.Holds parse
      ⟨x.2.uploadId, x.2.electionId, x.2.fileName, x.2.objectId, x.2.contents⟩ := by
  cases ev with
  | check c uid eid fn contents =>
    simp only [UploadState.step]
    cases hx : dget s.pending c with
    | some u => exact h
    | none =>
      cases hc : s.db.checkUpload parse eid contents with
      | inl r => exact h
      | inr oid =>
        refine ⟨h.1, fun x hx' => ?_⟩
        rcases mem_dset hx' with rfl | hx'
        · obtain ⟨b, e, h1, h2, h3, h4, -⟩ := (checkUpload_inr ..).1 hc
          exact ⟨b, e, h1, h2, h3, h4⟩
        · exact h.2 x hx'
  | store c =>
    simp only [UploadState.step]
    cases hx : dget s.pending c with
    | none => exact h
    | some u =>
      have hs := storeUpload_elections s.db u.uploadId u.electionId u.fileName u.contents u.objectId
      refine ⟨fun d hd => ?_, fun x hx' => holds_of_same hs (h.2 x (List.mem_filter.1 hx').1)⟩
      dsimp only at hd
      rw [storeUpload_ballots, List.mem_append, List.mem_singleton] at hd
      rcases hd with hd | rfl
      · exact holds_of_same hs (h.1 d hd)
      · exact holds_of_same hs (h.2 (c, u) (mem_of_dget hx))

/-- C69 Also when several clients upload at the same time, every stored document holds a ballot of its election. -/
theorem C69_clients_hold (parse : List Char → Option SBallot) (s : UploadState) (evs : List UploadEvent)
    (h : (∀ d ∈ s.db.ballots, s.db.Holds parse d) ∧ ∀ x ∈ s.pending, s.db.Holds parse
      ⟨x.2.uploadId, x.2.electionId, x.2.fileName, x.2.objectId, x.2.contents⟩) :
    ∀ d ∈ (s.run parse evs).db.ballots, (s.run parse evs).db.Holds parse d := by
  induction evs generalizing s with
  | nil => exact h.1
  | cons ev evs ih => exact ih _ (step_hold s ev h)

/-- C69 The tally is the same whether a ballot was stored once or several times, as long as all ballots with one id are the
same ballot and no ballot lists a selection twice. -/
theorem C69_repeated_ballots_partial (m : Manifest) (ctx : Context) (bs : List SBallot) (validate : Bool)
    (hid : ∀ b ∈ bs, ∀ b' ∈ bs, b.objectId = b'.objectId → b = b')
    (hsel : ∀ b ∈ bs, (b.contests.flatMap (fun c => c.ballotSelections.map (fun s => s.objectId))).Nodup) :
    getTally E m ctx bs validate = getTally E m ctx (firstById bs) validate := by
  unfold getTally
  cases mkInternalManifest E m with
  | error e => rfl
  | ok im =>
    simp only [bind, Except.bind]
    have hsel' : ∀ b ∈ bs, ((b.contests.flatMap (fun c => c.ballotSelections)).map (fun s => s.objectId)).Nodup := by
      intro b hb
      rw [List.map_flatMap]
      exact hsel b hb
    have key : (newTally E "election-results" im).batchAppend E im ctx true bs validate
        = (newTally E "election-results" im).batchAppend E im ctx true (firstById bs) validate := by
      unfold Tally.batchAppend Tally.batchAppendIter
      rw [(batch_firstById bs _ hsel' hid []).1]
      cases batchLoop E im ctx validate (firstById bs) (newTally E "election-results" im) [] with
      | mk r t =>
        cases r with
        | error e => rfl
        | ok d =>
          dsimp only
          rw [(batch_firstById (E := E) (m := im) (ctx := ctx) (validate := validate) bs t hsel' hid t.castIds).2]
    rw [key]

/-! ### The toy election -/

/-- A parser for files with the id of a ballot of the toy election and a closing bracket, which ignores line ends. -/
def toyRead (bs : List (List Char × SBallot)) (text : List Char) : Option SBallot :=
  dget bs (text.filter (fun c => c != '\n'))

/-- The texts of three ballots: a proper one, one without proofs and with 7 votes for `sx`, and one of unknown style. -/
def toyFiles : List (List Char × SBallot) :=
  let b := toySubmit "b" "t" 1 0 1 3 .cast
  [("b}".toList, b),
   ("n}".toList, { b with objectId := "n", contests := b.contests.map (fun c => { c with
      proof := none
      ballotSelections := c.ballotSelections.map (fun s => if s.objectId = "sx"
        then { s with proof := none, ciphertext := ⟨16 ^ 2 % 157, 16 ^ 7 * (16 ^ 5) ^ 2 % 157⟩ }
        else { s with proof := none }) }) }),
   ("u}".toList, { b with objectId := "u", styleId := "unknown" })]

/-- A database with the toy election. -/
def toyDb : GuiDb := ⟨[("e", ⟨toyManifest, toyCtx, [("g", 1)], []⟩)], []⟩

/-- The toy ballots are uploaded. -/
def toyUploads (names : List String) : GuiDb :=
  toyDb.run (toyRead toyFiles) (.create "e" "up" true :: names.map (fun n => .upload "up" "e" n n.toList))

example : ((toyUploads ["b}", "b}", "x}"]).ballots.map (fun d => d.objectId),
    (toyUploads ["b}", "b}", "x}"]).elections.map (fun e => e.2.sumBallots)) = (["b"], [1]) := by decide +kernel

/-- C69 fails for ballots without proofs: a ballot with no proof at all is accepted, and the tally adds the 7 votes that it
encrypts for a selection of a contest with one seat. -/
theorem C69_unproved_fails :
    ((toyUploads ["n}"]).getBallots (toyRead toyFiles) (fun _ _ => true) "e").map
      (fun b => ballotIsValidForElection toyEnv b.toCBallot toyIM toyCtx true) = [.ok false] ∧
    ((getTally toyEnv toyManifest toyCtx ((toyUploads ["n}"]).getBallots (toyRead toyFiles) (fun _ _ => true) "e")
        false).toOption.map (fun t => t.contests.flatMap (fun c => c.2.selections.map (fun s =>
          (s.2.ciphertext.decrypt toyEnv.P 12 5).toOption)))) = some [some 7, some 0, some 1] := by
  decide +kernel

/-- C69 fails for clients that upload at the same time: the same file, uploaded by two clients, is stored twice, and both
are counted. -/
theorem C69_race_fails :
    let s := UploadState.run (toyRead toyFiles) ⟨toyUploads [], []⟩
      [.check "x" "up" "e" "b}" "b}".toList, .check "y" "up" "e" "b}" "b}".toList, .store "x", .store "y"]
    s.db.ballots.map (fun d => (d.electionId, d.objectId)) = [("e", "b"), ("e", "b")] ∧
      s.db.elections.map (fun e => e.2.sumBallots) = [2] := by decide +kernel

-- the ballots with a line end and of unknown style, and reading with a database that answers at the second attempt
example : (toyUploads ["b}\n", "b}"]).elections.map (fun e => e.2.sumBallots) = [1] ∧
    ((toyUploads ["b}\n", "b}"]).getBallots (toyRead toyFiles) (fun _ _ => true) "e").length = 0 := by decide +kernel

example : ((getTally toyEnv toyManifest toyCtx
    ((toyUploads ["b}", "u}"]).getBallots (toyRead toyFiles) (fun _ k => k == 1) "e") false).toOption).isNone = true := by
  decide +kernel

example : ((getTally toyEnv toyManifest toyCtx
    ((toyUploads ["b}", "u"]).getBallots (toyRead toyFiles) (fun _ k => k == 1) "e") false).toOption).map
      (fun t => t.castIds) = some ["b"] := by
  decide +kernel

end EG
