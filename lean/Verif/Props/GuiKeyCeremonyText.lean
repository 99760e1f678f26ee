import Verif.Lemmas.GuiKeyCeremonyText
import Verif.Props.GuiText

/-!
# C85: the GUI from the dictionaries and files of its key ceremony
-/

namespace EG

variable {E : Env}

/-! ### Dictionaries -/

/-- C85 What the key ceremony stores as dictionaries is read back. -/
theorem C85_dicts (P : Params) :
    (∀ k : ElectionPublicKey, k.Typed P → ElectionPublicKey.ofDict P k.toDict = .ok k) ∧
    (∀ b : Backup, b.Typed P → Backup.ofDict P b.toDict = .ok b) ∧
    (∀ v : Verification, Verification.ofDict v.toDict = .ok v) ∧
    ∀ k : ElectionJointKey, k.Typed P → ElectionJointKey.ofDict P k.toDict = .ok k :=
  ⟨fun _ h => ElectionPublicKey.dict h.1 h.2.1, fun _ h => Backup.dict h, fun v => v.dict, fun _ h => ElectionJointKey.dict h⟩

/-- C85 The dictionary of a public key is not the JSON of the public key: the usage of its proofs is the name of the member of the enumeration,
which the deserializer refuses. -/
theorem C85_usage_fails (P : Params) (k : ElectionPublicKey) (h : k.Typed P) (hp : k.proofs ≠ []) :
    ElectionPublicKey.ofJson P k.toDict = .error .value ∧ ElectionPublicKey.ofDict P k.toDict = .ok k := by
  refine ⟨?_, ElectionPublicKey.dict h.1 h.2.1⟩
  obtain ⟨h1, h2, h3⟩ := h
  have h4 : listOf (elemPOf P) (listJson elemJson k.commitments) = .ok k.commitments := listOf_map (fun c hc => elemPOf_json (h2 c hc))
  have h5 : listOf (SchnorrProof.ofJson P) (listJson SchnorrProof.toDict k.proofs) = .error .value := by
    cases hk : k.proofs with
    | nil => exact absurd hk hp
    | cons p ps =>
      obtain ⟨a1, a2, a3, a4⟩ := h3 p (by rw [hk]; exact List.mem_cons_self)
      simp [listOf, listJson, SchnorrProof.ofJson, SchnorrProof.toDict, asObj, need_cons, orElse_cons, bind, Except.bind,
        elemPOf_json a1, elemPOf_json a2, elemQOf_json a3, elemQOf_json a4, enumOf, proofUsages]
  simp [ElectionPublicKey.ofJson, ElectionPublicKey.toDict, asObj, need_cons, bind, Except.bind, strOf, intOf, elemPOf_json h1, h4, h5]

/-! ### The key ceremony -/

/-- C85 A key ceremony with dictionaries in the database and texts in the private files: for every interleaving of users, the database and the
files hold the dictionaries and texts of what they would hold if values were kept. -/
theorem C85_refines (hv : E.P.Valid) (loads : Bytes → R (List Char)) (n quorum : Int) (evs : List KCEvent)
    (hr : ∀ ev ∈ evs, ev.InRange E.P) :
    (KCTextSystem.init n quorum).run E loads evs = ((KCSystem.init n quorum).run E loads evs).toText :=
  (ceremony_text hv evs hr (init_typed E.P n quorum)).1

/-- C85 And what is stored is read back: the keys, the joint key, and the private records. -/
theorem C85_stored (hv : E.P.Valid) (loads : Bytes → R (List Char)) (n quorum : Int) (evs : List KCEvent)
    (hr : ∀ ev ∈ evs, ev.InRange E.P) (s : KCSystem) (hs : s = (KCSystem.init n quorum).run E loads evs) (t : KCTextSystem)
    (ht : t = (KCTextSystem.init n quorum).run E loads evs) :
    t.doc.keys.mapM (ElectionPublicKey.ofDict E.P) = .ok s.doc.keys ∧
    (∀ jk, s.doc.jointKey = some jk → ∃ j, t.doc.jointKey = some j ∧ ElectionJointKey.ofDict E.P j = .ok jk) ∧
    (∀ j, t.doc.jointKey = some j → ∃ jk, s.doc.jointKey = some jk ∧ ElectionJointKey.ofDict E.P j = .ok jk) ∧
    ∀ guardians quorum, loadGuardianText E.P (dget t.files) guardians quorum = loadFromDecryption s.files guardians quorum := by
  obtain ⟨h1, h2⟩ := ceremony_text hv (loads := loads) evs hr (init_typed E.P n quorum)
  rw [← hs] at h1 h2
  have h1 : t = s.toText := ht.trans h1
  subst h1
  refine ⟨keys_read h2.doc.keys, fun jk hjk => ?_, fun j hj => ?_, fun g q => ?_⟩
  · exact ⟨jk.toDict, by simp [KCSystem.toText, KCDoc.toText, hjk], ElectionJointKey.dict (h2.doc.jointKey jk hjk)⟩
  · simp only [KCSystem.toText, KCDoc.toText, Option.map_eq_some_iff] at hj
    obtain ⟨jk, hjk, rfl⟩ := hj
    exact ⟨jk, hjk, ElectionJointKey.dict (h2.doc.jointKey jk hjk)⟩
  · exact files_load h2.files g q

/-- C85 The election that is made from the dictionaries of a key ceremony is the one that would be made from its values. -/
theorem C85_election (hv : E.P.Valid) (loads : Bytes → R (List Char)) (n quorum : Int) (evs : List KCEvent)
    (hr : ∀ ev ∈ evs, ev.InRange E.P) (s : KCSystem) (hs : s = (KCSystem.init n quorum).run E loads evs)
    (parse : List Char → Option Manifest) (kcId name : String) (raw : List Char) (url : Option String) :
    computeElectionText E parse kcId ((KCTextSystem.init n quorum).run E loads evs).doc name raw url =
      computeElection E parse kcId s.doc name raw url := by
  obtain ⟨h1, h2⟩ := ceremony_text hv (loads := loads) evs hr (init_typed E.P n quorum)
  have h3 : (KCTextSystem.init n quorum).run E loads evs = s.toText := by rw [hs]; exact h1
  rw [← hs] at h2
  rw [h3]
  exact computeElection_text h2.doc parse kcId name raw url

/-! ### A whole election -/

/-- Guardians join, and the database holds the texts of what they computed. -/
theorem joinAll_text (hv : E.P.Valid) {db : GuiDb} {guardianOf : String → Option Guardian} (hg : ∀ u, ∀ g ∈ guardianOf u, g.shareKey.Typed E.P)
    (joins : List (String × (Nat → Nat → Bool) × JoinSeeds)) {d : GuiDecryption} (hd : ∀ s ∈ d.shares, s.Typed E.P) :
    joinAllText E (parseSubmitted E.P) db guardianOf joins d.toText =
      (joinAll E (parseSubmitted E.P) db guardianOf joins d).map GuiDecryption.toText ∧
    ∀ d', joinAll E (parseSubmitted E.P) db guardianOf joins d = .ok d' → ∀ s ∈ d'.shares, s.Typed E.P := by
  induction joins generalizing d with
  | nil => exact ⟨rfl, fun d' h => by cases h; exact hd⟩
  | cons j joins ih =>
    simp only [joinAllText, joinAll, List.foldlM_cons, s1JoinText, s1Join]
    have hid : d.toText.electionId = d.electionId := rfl
    rw [hid]
    cases hr : s1Compute E (parseSubmitted E.P) j.2.1 db d.electionId j.1 (guardianOf j.1) j.2.2 with
    | error e => exact ⟨rfl, fun d' h => by cases h⟩
    | ok r =>
      obtain ⟨h1, x, hx, h2⟩ := s1Compute_typed hv (fun x hx => (hg _ x hx).1) hr
      have h3 : ∀ s ∈ (d.appendJoined r.1).shares, s.Typed E.P := by
        intro s hs
        rcases List.mem_append.1 hs with hs | hs
        · exact hd s hs
        · cases List.mem_singleton.1 hs
          exact ⟨h2 ▸ hg _ x hx, h1⟩
      obtain ⟨h4, h5⟩ := ih h3
      refine ⟨?_, fun d' h => h5 d' h⟩
      have h6 : (d.appendJoined r.1).toText =
          { d.toText with shares := d.toText.shares ++ [r.1.toDoc], joined := d.toText.joined ++ [r.1.guardianId] } := by
        simp [GuiDecryption.appendJoined, GuiDecryption.pushShare, GuiDecryption.pushJoined, GuiDecryption.toText]
      rw [h6] at h4
      exact h4

/-- Stage 2, from the texts of the shares to the texts of the result. -/
theorem tryRunStage2_text {maxE : Nat} {net : Nat → Nat → Bool} {db : GuiDb} {d : GuiDecryption} {parse : List Char → Option SBallot}
    (hd : ∀ s ∈ d.shares, s.Typed E.P) (admin : Bool) :
    tryRunStage2Text E maxE parse net db d.toText admin =
      ((tryRunStage2 E maxE parse net db d admin).1, (tryRunStage2 E maxE parse net db d admin).2.toText) := by
  have hs : d.toText.shouldRun admin = s2ShouldRun d admin := by
    simp [TextDecryption.shouldRun, s2ShouldRun, GuiDecryption.toText]
    rfl
  unfold tryRunStage2Text tryRunStage2
  rw [hs, s2ComputeText_eq hd]
  cases s2ShouldRun d admin with
  | false => rfl
  | true =>
    simp only [if_true]
    cases s2Compute E maxE parse net db d <;> rfl

/-- C85 An election in the GUI, with nothing but dictionaries and texts between its steps: the key ceremony keeps dictionaries in the
database and texts in the private files, the election is made from the dictionaries and the text of its manifest, ballots are uploaded as
texts, guardians are loaded from the texts of the private files, the decryption keeps texts, and the record is written as texts.  Whoever
reads the texts of the record finds that they pass the checks that the result rests on, and that they publish the votes.  Partial: as in
`C78_gui_election_record_partial`. -/
theorem C85_gui_texts_partial (hv : E.P.Valid) (hpq : (E.P.q - 1) * (E.P.q - 1) < E.P.p)
    -- the key ceremony
    (hlen : HmacLen E) (hq : E.P.q ≤ 256 ^ 246) (n quorum : Int) (hn : 0 < n) (hqn : quorum ≤ n)
    (hnq : n.toNat < E.P.q) (evs evs' : List KCEvent) (hevs : ∀ ev ∈ evs, ev.InRange E.P) (hevs' : ∀ ev ∈ evs', ev.InRange E.P)
    (t t' : KCTextSystem) (ht : t = (KCTextSystem.init n quorum).run E loadsCoordinate evs)
    (ht' : t' = t.run E loadsCoordinate evs') (hnd : t'.doc.joined.Nodup) (hnamed : "" ∉ t'.doc.joined)
    (hall : (t'.doc.joined.length : Int) = n)
    -- the election
    (m : Manifest) (hm : m.Typed) (kcId name : String) (url : Option String) (e : GuiElection) (pkg : EncryptionPackage)
    (he : computeElectionText E (fun raw => (fromRaw Manifest.ofJson raw).toOption) kcId t.doc name (toRaw Manifest.toJson m) url
      = .ok (e, pkg)) (maxE : Nat) (hmax1 : 1 ≤ maxE)
    (im : InternalManifest) (hem : ElectionReady E m im)
    -- the uploads
    (db : GuiDb) (eid : String) (hdb : dget db.elections eid = some e.doc)
    (hempty : db.docsOf eid = []) (ops : List UploadOp) (vs : List VotedBallot)
    (hvs : ∀ v ∈ vs, v.Encrypted E contestDataJson im e.context ∧ ∃ d, im.StyleHas v.plain.styleId d)
    (hr : ∀ v ∈ vs, v.codeSeed < E.P.q ∧ v.nonce < E.P.q)
    (hst : ∀ v ∈ vs, v.state = .cast ∨ v.state = .spoiled)
    (hops : textsTo eid ops = vs.map (fun v => toRaw SBallot.toJson (submitBallot E v.enc v.state)))
    (hsmall : (counted vs).length < E.P.q) (hmax : (counted vs).length ≤ maxE)
    -- the decryption
    (joins : List (String × (Nat → Nat → Bool) × JoinSeeds))
    (hjoins : ∀ j ∈ joins, j.1 ∈ t'.doc.joined ∧ ∀ n, ∃ k < 3, j.2.1 n k = true)
    (heach : ∀ id ∈ t'.doc.joined, ∃ j ∈ joins, j.1 = id) (net : Nat → Nat → Bool) (hnet : ∀ n, ∃ k < 3, net n k = true)
    -- the export
    (constants : Constants) (hk : constants.params = E.P) (devices : List Device)
    (net' : Nat → Nat → Bool) (hnet' : ∀ n, ∃ k < 3, net' n k = true) :
    ∃ d d' texts rec, joinAllText E (parseSubmitted E.P) (db.run (parseSubmitted E.P) ops)
        (loadGuardianText E.P (dget t'.files) e.guardians e.quorum) joins (TextDecryption.create eid e.guardians) = .ok d ∧
      tryRunStage2Text E maxE (parseSubmitted E.P) net (db.run (parseSubmitted E.P) ops) d true = (.ok true, d') ∧
      guiExportText E constants net' (db.run (parseSubmitted E.P) ops) (e.texts devices) d' = .ok texts ∧
      texts.read E.P = .ok rec ∧
      ∀ v : RecordView, v.Of rec → v.ResultAudited E ∧
        v.Publishes im ((counted vs).map (fun v => v.plain))
          (((firsts vs).filter (fun v => decide (v.state = .spoiled))).map (fun v => v.plain)) ∧
        ∀ g ∈ v.guardians, ∃ w, dget v.coefficients (toString g.sequenceOrder) = some w ∧ v.IsCoefficient E.P g w := by
  obtain ⟨s, hs⟩ : ∃ s, s = (KCSystem.init n quorum).run E loadsCoordinate evs := ⟨_, rfl⟩
  obtain ⟨s', hs'⟩ : ∃ s', s' = s.run E loadsCoordinate evs' := ⟨_, rfl⟩
  obtain ⟨h1, h2⟩ := ceremony_text hv (loads := loadsCoordinate) evs hevs (init_typed E.P n quorum)
  rw [← hs] at h1 h2
  have h1 : t = s.toText := ht.trans h1
  obtain ⟨h3, h4⟩ := ceremony_text hv (loads := loadsCoordinate) evs' hevs' h2
  rw [← hs'] at h3 h4
  have h3 : t' = s'.toText := by rw [ht', h1]; exact h3
  have hj : t'.doc.joined = s'.doc.joined := by rw [h3]; rfl
  rw [hj] at hnd hnamed hall hjoins heach
  have he' : computeElection E (fun raw => (fromRaw Manifest.ofJson raw).toOption) kcId s.doc name (toRaw Manifest.toJson m) url
      = .ok (e, pkg) := by
    rw [← he, h1]
    exact (computeElection_text h2.doc _ kcId name _ url).symm
  obtain ⟨d, d', texts, rec, a1, a2, a3, a4, a5⟩ := C84_gui_audit_partial hv hpq hlen hq n quorum hn hqn hnq evs evs' s s' hs hs' hnd hnamed
    hall m hm kcId name url e pkg he' maxE hmax1 im hem db eid hdb hempty ops vs hvs hr hst hops hsmall hmax joins hjoins heach net hnet
    constants hk devices net' hnet'
  have hfiles : loadGuardianText E.P (dget t'.files) e.guardians e.quorum = loadFromDecryption s'.files e.guardians e.quorum := by
    rw [h3]
    exact files_load h4.files _ _
  have hg : ∀ u, ∀ g ∈ loadFromDecryption s'.files e.guardians e.quorum u, g.shareKey.Typed E.P := by
    rw [← hfiles]
    exact fun u g hg => loaded_typed hg
  obtain ⟨b1, b2⟩ := joinAll_text hv hg joins (db := db.run (parseSubmitted E.P) ops) (d := GuiDecryption.create eid e.guardians)
    (by simp [GuiDecryption.create])
  have b3 := tryRunStage2_text (maxE := maxE) (net := net) (db := db.run (parseSubmitted E.P) ops) (parse := parseSubmitted E.P) (b2 d a1) true
  refine ⟨d.toText, d'.toText, texts, rec, ?_, ?_, a3, a4, a5⟩
  · rw [hfiles]
    rw [a1] at b1
    exact b1
  · rw [b3, a2]

end EG
