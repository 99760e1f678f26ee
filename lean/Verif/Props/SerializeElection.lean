import Verif.Props.Serialize
import Verif.Props.GuiRecord

/-!
# C81: elections from the texts of their files
-/

namespace EG

variable {E : Env}

/-- The texts of the files that are uploaded to an election, in their order. -/
def textsTo (eid : String) (ops : List UploadOp) : List (List Char) :=
  ops.filterMap (fun op => match op with
    | .create .. => none
    | .upload _ eid' _ contents => if eid' = eid then some contents else none)

/-- What is stored was uploaded. -/
theorem stored_text (parse : List Char → Option SBallot) (db : GuiDb) (eid : String) (hempty : db.docsOf eid = []) (ops : List UploadOp) :
    ∀ d ∈ (db.run parse ops).docsOf eid, d.contents ∈ textsTo eid ops := by
  induction ops using List.reverseRecOn with
  | nil =>
    show ∀ d ∈ db.docsOf eid, _
    rw [hempty]
    intro d hd
    cases hd
  | append_singleton ops op ih =>
    rw [GuiDb.run_concat]
    generalize db.run parse ops = d1 at ih
    have hsplit : textsTo eid (ops ++ [op]) = textsTo eid ops ++ textsTo eid [op] := by
      unfold textsTo
      rw [List.filterMap_append]
    intro d hd
    rw [hsplit, List.mem_append]
    unfold GuiDb.docsOf at hd
    rw [List.mem_filter] at hd
    obtain ⟨hd, he⟩ := hd
    cases op with
    | create a b c =>
      have : (d1.step parse (.create a b c)).ballots = d1.ballots := createUpload_ballots ..
      rw [this] at hd
      exact Or.inl (ih d (List.mem_filter.2 ⟨hd, he⟩))
    | upload uid eid' fn contents =>
      unfold GuiDb.step GuiDb.uploadBallot at hd
      simp only at hd
      cases hc : d1.checkUpload parse eid' contents with
      | inl r => rw [hc] at hd; exact Or.inl (ih d (List.mem_filter.2 ⟨hd, he⟩))
      | inr oid =>
        rw [hc] at hd
        have hb : (d1.storeUpload uid eid' fn contents oid).ballots = d1.ballots ++ [⟨uid, eid', fn, oid, contents⟩] :=
          storeUpload_ballots ..
        rw [hb, List.mem_append, List.mem_singleton] at hd
        rcases hd with hd | rfl
        · exact Or.inl (ih d (List.mem_filter.2 ⟨hd, he⟩))
        · refine Or.inr ?_
          have : eid' = eid := by simpa using he
          subst this
          simp [textsTo]

/-- The text of a ballot that a voter submitted. -/
def VotedBallot.text (E : Env) (v : VotedBallot) : List Char := toRaw SBallot.toJson (submitBallot E v.enc v.state)

theorem voted_typed (hv : E.P.Valid) {json : ContestData → Bytes} {im : InternalManifest} {ctx : Context} {v : VotedBallot}
    (hm : im.manifestHash < E.P.q) (hr : v.codeSeed < E.P.q ∧ v.nonce < E.P.q) (h : v.Encrypted E json im ctx) :
    (submitBallot E v.enc v.state).toCBallot.Typed E.P :=
  submitBallot_typed hv.q_prime.pos (encryptBallot_typed hv.p_prime.one_lt hv.q_prime.pos hm hr.1 hr.2 h) _

theorem parse_text (hv : E.P.Valid) {json : ContestData → Bytes} {im : InternalManifest} {ctx : Context} {v : VotedBallot}
    (hm : im.manifestHash < E.P.q) (hr : v.codeSeed < E.P.q ∧ v.nonce < E.P.q) (h : v.Encrypted E json im ctx) :
    parseSubmitted E.P (v.text E) = some (submitBallot E v.enc v.state) := by
  rw [parseSubmitted, VotedBallot.text, raw_trip (SBallot.trip (voted_typed hv hm hr h))]
  rfl

/-- The uploaded texts are those of the ballots, so the uploaded ballots are they. -/
theorem uploaded_texts (hv : E.P.Valid) {json : ContestData → Bytes} {im : InternalManifest} {ctx : Context} {eid : String}
    {ops : List UploadOp} {vs : List VotedBallot} (hm : im.manifestHash < E.P.q)
    (hvs : ∀ v ∈ vs, v.Encrypted E json im ctx) (hr : ∀ v ∈ vs, v.codeSeed < E.P.q ∧ v.nonce < E.P.q)
    (h : textsTo eid ops = vs.map (fun v => v.text E)) :
    uploadedTo (parseSubmitted E.P) im.manifestHash eid ops = vs.map (fun v => submitBallot E v.enc v.state) := by
  have h1 : uploadedTo (parseSubmitted E.P) im.manifestHash eid ops
      = (textsTo eid ops).filterMap (fun t => (parseSubmitted E.P t).filter (fun b => decide (b.manifestHash = im.manifestHash))) := by
    unfold uploadedTo textsTo
    rw [List.filterMap_filterMap]
    refine List.filterMap_congr (fun op _ => ?_)
    cases op with
    | create => rfl
    | upload uid eid' fn contents =>
      by_cases he : eid' = eid
      · simp [he]
      · simp [he]
  rw [h1, h, List.filterMap_map]
  clear h1 h
  induction vs with
  | nil => rfl
  | cons v vs ih =>
    have h2 := parse_text hv hm (hr v List.mem_cons_self) (hvs v List.mem_cons_self)
    have h3 : (submitBallot E v.enc v.state).manifestHash = im.manifestHash :=
      (encryptBallot_hash (hvs v List.mem_cons_self) : v.enc.manifestHash = im.manifestHash)
    rw [List.map_cons, List.filterMap_cons_some (b := submitBallot E v.enc v.state) (by
      simp only [Function.comp, h2, Option.filter_some, h3, decide_true, if_true]),
      ih (fun w hw => hvs w (List.mem_cons_of_mem _ hw)) (fun w hw => hr w (List.mem_cons_of_mem _ hw))]

/-- C81 An election in the GUI from the texts of its files: the manifest is uploaded as the text that `to_raw` writes of it, the guardians
exchange the backups that `padded_encode` writes, and the ballots are uploaded as the texts of submitted ballots.  For every
interleaving of the key ceremony and every order of the uploads the record that is exported passes the checks that the result rests on
and publishes the votes.  Nothing about reading or writing texts is assumed.  Partial: as in `C78_gui_election_record_partial`. -/
theorem C81_gui_texts_partial (hv : E.P.Valid) (hpq : (E.P.q - 1) * (E.P.q - 1) < E.P.p)
    -- the key ceremony
    (hlen : HmacLen E) (hq : E.P.q ≤ 256 ^ 246) (n quorum : Int) (hn : 0 < n) (hqn : quorum ≤ n)
    (hnq : n.toNat < E.P.q) (evs evs' : List KCEvent) (s s' : KCSystem) (hs : s = (KCSystem.init n quorum).run E loadsCoordinate evs)
    (hs' : s' = s.run E loadsCoordinate evs') (hnd : s'.doc.joined.Nodup) (hnamed : "" ∉ s'.doc.joined)
    (hall : (s'.doc.joined.length : Int) = n)
    -- the election
    (m : Manifest) (hm : m.Typed) (kcId name : String) (url : Option String) (e : GuiElection) (pkg : EncryptionPackage)
    (he : computeElection E (fun raw => (fromRaw Manifest.ofJson raw).toOption) kcId s.doc name (toRaw Manifest.toJson m) url
      = .ok (e, pkg)) (maxE : Nat) (hmax1 : 1 ≤ maxE)
    (im : InternalManifest) (hem : ElectionReady E m im)
    -- the uploads
    (db : GuiDb) (eid : String) (hdb : dget db.elections eid = some e.doc)
    (hempty : db.docsOf eid = []) (ops : List UploadOp) (vs : List VotedBallot)
    (hvs : ∀ v ∈ vs, v.Encrypted E contestDataJson im e.context ∧ ∃ d, im.StyleHas v.plain.styleId d)
    (hr : ∀ v ∈ vs, v.codeSeed < E.P.q ∧ v.nonce < E.P.q)
    (hst : ∀ v ∈ vs, v.state = .cast ∨ v.state = .spoiled)
    (hops : textsTo eid ops = vs.map (fun v => toRaw SBallot.toJson (submitBallot E v.enc v.state)))
    (hsmall : (counted vs).length < E.P.q) (hmax : (counted vs).length ≤ maxE)
    -- the decryption
    (joins : List (String × (Nat → Nat → Bool) × JoinSeeds))
    (hjoins : ∀ j ∈ joins, j.1 ∈ s'.doc.joined ∧ ∀ n, ∃ k < 3, j.2.1 n k = true)
    (heach : ∀ id ∈ s'.doc.joined, ∃ j ∈ joins, j.1 = id) (net : Nat → Nat → Bool) (hnet : ∀ n, ∃ k < 3, net n k = true)
    -- the export
    (constants : Constants) (hk : constants.params = E.P) (devices : List Device)
    (net' : Nat → Nat → Bool) (hnet' : ∀ n, ∃ k < 3, net' n k = true) :
    ∃ d d' rec, joinAll E (parseSubmitted E.P) (db.run (parseSubmitted E.P) ops) (loadFromDecryption s'.files e.guardians e.quorum) joins
        (GuiDecryption.create eid e.guardians) = .ok d ∧
      tryRunStage2 E maxE (parseSubmitted E.P) net (db.run (parseSubmitted E.P) ops) d true = (.ok true, d') ∧
      guiExportRecord constants (parseSubmitted E.P) net' (db.run (parseSubmitted E.P) ops) (some d')
        ⟨e.guardianRecords, e.extendedData, devices⟩ = .ok rec ∧
      ∀ v : RecordView, v.Of rec → v.ResultAudited E ∧
        v.Publishes im ((counted vs).map (fun v => v.plain))
          (((firsts vs).filter (fun v => decide (v.state = .spoiled))).map (fun v => v.plain)) ∧
        ∀ g ∈ v.guardians, ∃ w, dget v.coefficients (toString g.sequenceOrder) = some w ∧ v.IsCoefficient E.P g w := by
  have hem' : ElectionReady E e.manifest im := by
    obtain ⟨m', jk, im', hp, -, -, -, hee, -⟩ := computeElection_ok.1 he
    have h1 : fromRaw Manifest.ofJson (toRaw Manifest.toJson m) = .ok m.withoutPrimaryParties := by
      rw [fromRaw, toRaw, jsonLoads_dumps' _ (Manifest.reads hm).1]
      exact (Manifest.reads hm).2
    have : m' = m.withoutPrimaryParties := by
      simp only [h1] at hp
      exact (Option.some.inj hp).symm
    subst this
    subst hee
    exact ⟨withoutPrimaryParties_ready hem.manifest, withoutPrimaryParties_internal hem.internal, hem.distinct, hem.seats⟩
  have hmh : im.manifestHash < E.P.q := by
    rw [internal_hash hem.internal]
    exact hashElems_lt hv.q_prime.pos _
  refine C78_gui_election_record_partial hv hpq hlen loadsCoordinate_reads hq n quorum hn hqn hnq evs evs' s s' hs hs' hnd hnamed hall
    _ kcId name _ url e pkg he maxE hmax1 contestDataJson im hem' (parseSubmitted E.P) db eid hdb hempty ops (fun d hd => ?_) vs hvs hst
    (uploaded_texts hv hmh (fun v hv' => (hvs v hv').1) hr hops) hsmall hmax joins hjoins heach net hnet constants hk devices net' hnet'
  have ht := stored_text _ db eid hempty ops d hd
  rw [hops, List.mem_map] at ht
  obtain ⟨v, hv', ht⟩ := ht
  rw [← ht]
  exact (C79_text E.P _ (voted_typed hv hmh (hr v hv') (hvs v hv').1)).2.2.1

end EG
