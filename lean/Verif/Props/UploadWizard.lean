import Verif.Spec.UploadWizard
import Verif.Props.GuiTally
import Mathlib.Data.List.TakeWhile

/-!
# C93: the upload wizard of the GUI
-/

namespace EG

variable {parse : List Char → Option SBallot} {location : List Char → Option String} {fields : List Char → Bool}

/-! ### Scanning -/

theorem mem_driveLetters (c : Char) : c ∈ driveLetters ↔ 'D' ≤ c ∧ c ≤ 'Z' := by
  constructor
  · have : ∀ c ∈ driveLetters, 'D' ≤ c ∧ c ≤ 'Z' := by decide +kernel
    exact this c
  · rintro ⟨h1, h2⟩
    have h1 : 68 ≤ c.toNat := h1
    have h2 : c.toNat ≤ 90 := h2
    have key : ∀ n, 68 ≤ n → n ≤ 90 → Char.ofNat n ∈ driveLetters := by
      intro n h1 h2
      interval_cases n <;> decide +kernel
    have := key _ h1 h2
    rwa [Char.ofNat_toNat] at this

theorem mem_candidateDrives (plugged : Char → Option Drive) (c : Char) (b d : List (String × List Char)) :
    (c, b, d) ∈ candidateDrives plugged ↔ 'D' ≤ c ∧ c ≤ 'Z' ∧ plugged c = some ⟨some b, some d⟩ := by
  unfold candidateDrives removableDrives
  simp only [List.mem_filterMap, Option.map_eq_some_iff, Prod.exists]
  constructor
  · rintro ⟨c', ⟨b', d'⟩, ⟨a, ha, dr, hp, h1⟩, h2⟩
    cases h1
    rcases b' with _ | b' <;> rcases d' with _ | d' <;> cases h2
    exact ⟨((mem_driveLetters _).1 ha).1, ((mem_driveLetters _).1 ha).2, hp⟩
  · rintro ⟨h1, h2, h3⟩
    exact ⟨c, _, ⟨c, (mem_driveLetters c).2 ⟨h1, h2⟩, _, h3, rfl⟩, rfl⟩

theorem candidateDrives_sorted (plugged : Char → Option Drive) :
    (candidateDrives plugged).Pairwise (fun a b => a.1 < b.1) := by
  have h0 : driveLetters.Pairwise (fun a b => a < b) := by decide +kernel
  unfold candidateDrives removableDrives
  refine List.Pairwise.filterMap _ (R := fun a b => a.1 < b.1) ?_ (List.Pairwise.filterMap _ (R := fun a b => a < b) ?_ h0)
  · rintro ⟨c, ⟨b, d⟩⟩ ⟨c', ⟨b', d'⟩⟩ h x hx y hy
    rcases b with _ | b <;> rcases d with _ | d <;> cases hx
    rcases b' with _ | b' <;> rcases d' with _ | d' <;> cases hy
    exact h
  · intro a b h x hx y hy
    rw [Option.map_eq_some_iff] at hx hy
    obtain ⟨_, -, rfl⟩ := hx
    obtain ⟨_, -, rfl⟩ := hy
    exact h

theorem hasBallots_iff (plugged : Char → Option Drive) (c : Char) :
    HasBallots plugged c ↔ ∃ b d, (c, b, d) ∈ candidateDrives plugged := by
  simp only [mem_candidateDrives]
  constructor
  · rintro ⟨h1, h2, ⟨b, d⟩, h3, h4, h5⟩
    obtain ⟨b, rfl⟩ := Option.isSome_iff_exists.1 h4
    obtain ⟨d, rfl⟩ := Option.isSome_iff_exists.1 h5
    exact ⟨b, d, h1, h2, h3⟩
  · rintro ⟨b, d, h1, h2, h3⟩
    exact ⟨h1, h2, _, h3, rfl, rfl⟩

theorem parseDrive_ok (c : Char) (b d : List (String × List Char)) (i : DriveInfo) :
    parseDrive location c b d = .ok i ↔ i.drive = c ∧ i.ballots = b.length ∧ i.ballotFiles = b ∧
      (∃ fs, d = (i.deviceFileName, i.deviceFile) :: fs) ∧ location i.deviceFile = some i.location := by
  unfold parseDrive
  cases d with
  | nil => simp
  | cons f fs =>
    obtain ⟨n, t⟩ := f
    dsimp only
    cases hl : location t with
    | none =>
      simp only [reduceCtorEq, List.cons.injEq, Prod.mk.injEq, false_iff, not_and]
      rintro - - - ⟨fs', ⟨-, rfl⟩, -⟩
      rw [hl]
      exact fun h => by cases h
    | some l =>
      obtain ⟨a1, a2, a3, a4, a5, a6⟩ := i
      simp only [Except.ok.injEq, DriveInfo.mk.injEq, List.cons.injEq, Prod.mk.injEq]
      constructor
      · rintro ⟨rfl, rfl, rfl, rfl, rfl, rfl⟩
        exact ⟨rfl, rfl, rfl, ⟨fs, ⟨rfl, rfl⟩, rfl⟩, hl⟩
      · rintro ⟨rfl, rfl, rfl, ⟨fs', ⟨rfl, rfl⟩, -⟩, h⟩
        rw [hl] at h
        cases h
        exact ⟨rfl, rfl, rfl, rfl, rfl, rfl⟩

theorem scan_mapM : ∀ (l : List (Char × List (String × List Char) × List (String × List Char))),
    (∃ is, l.mapM (fun e => parseDrive location e.1 e.2.1 e.2.2) = Except.ok is ∧
      is.head? = (l.head?.bind (fun e => (parseDrive location e.1 e.2.1 e.2.2).toOption)) ∧
      ∀ e ∈ l, ∃ i, parseDrive location e.1 e.2.1 e.2.2 = .ok i) ∨
    ((∃ x, l.mapM (fun e => parseDrive location e.1 e.2.1 e.2.2) = Except.error x) ∧
      ∃ e ∈ l, ∃ x, parseDrive location e.1 e.2.1 e.2.2 = .error x) := by
  intro l
  induction l with
  | nil => exact .inl ⟨[], rfl, rfl, by simp⟩
  | cons e es ih =>
    rw [List.mapM_cons]
    cases hp : parseDrive location e.1 e.2.1 e.2.2 with
    | error x => exact .inr ⟨⟨x, rfl⟩, e, List.mem_cons_self, x, hp⟩
    | ok i =>
      rcases ih with ⟨is, h1, h2, h3⟩ | ⟨⟨x, h1⟩, e', he', x', h2⟩
      · refine .inl ⟨i :: is, by rw [h1]; rfl, by simp [hp, Except.toOption], ?_⟩
        intro e' he'
        rcases List.mem_cons.1 he' with rfl | he'
        · exact ⟨i, hp⟩
        · exact h3 e' he'
      · exact .inr ⟨⟨x, by rw [h1]; rfl⟩, e', List.mem_cons_of_mem _ he', x', h2⟩

/-- C93 Scanning succeeds exactly if every drive with the two directories has a first device file that can be read. -/
theorem C93_scan_ok (location : List Char → Option String) (plugged : Char → Option Drive) :
    (∃ o, scanDrives location plugged = .ok o) ↔ ∀ c, HasBallots plugged c → DeviceReadable location plugged c := by
  have key : ∀ c b d, (c, b, d) ∈ candidateDrives plugged →
      ((∃ i, parseDrive location c b d = .ok i) ↔ DeviceReadable location plugged c) := by
    intro c b d h
    obtain ⟨-, -, h3⟩ := (mem_candidateDrives ..).1 h
    constructor
    · rintro ⟨i, hi⟩
      obtain ⟨-, -, -, ⟨fs, rfl⟩, hl⟩ := (parseDrive_ok ..).1 hi
      exact ⟨_, _, _, _, h3, rfl, hl⟩
    · rintro ⟨dr, f, fs, l, g1, g2, g3⟩
      rw [h3] at g1
      cases g1
      cases g2
      exact ⟨⟨c, b.length, l, f.1, f.2, b⟩, (parseDrive_ok ..).2 ⟨rfl, rfl, rfl, ⟨fs, rfl⟩, g3⟩⟩
  unfold scanDrives
  rcases scan_mapM (location := location) (candidateDrives plugged) with ⟨is, h1, -, h3⟩ | ⟨⟨x, h1⟩, e, he, x', h2⟩
  · rw [h1]
    refine ⟨fun _ c hc => ?_, fun _ => ⟨_, rfl⟩⟩
    obtain ⟨b, d, h⟩ := (hasBallots_iff plugged c).1 hc
    exact (key c b d h).1 (h3 _ h)
  · rw [h1]
    refine ⟨fun ⟨o, h⟩ => (by cases h), fun h => ?_⟩
    obtain ⟨i, hi⟩ := (key _ _ _ he).2 (h e.1 ((hasBallots_iff plugged e.1).2 ⟨_, _, he⟩))
    rw [hi] at h2
    cases h2

/-- C93 What is found is the drive with the first letter among those with the two directories: its number of ballot files and the
location in its first device file. -/
theorem C93_scan_first (location : List Char → Option String) (plugged : Char → Option Drive) (i : DriveInfo)
    (h : scanDrives location plugged = .ok (some i)) :
    HasBallots plugged i.drive ∧ (∀ c, HasBallots plugged c → i.drive ≤ c) ∧
    (∃ fs, plugged i.drive = some ⟨some i.ballotFiles, some ((i.deviceFileName, i.deviceFile) :: fs)⟩) ∧
    i.ballots = i.ballotFiles.length ∧ location i.deviceFile = some i.location := by
  unfold scanDrives at h
  rcases scan_mapM (location := location) (candidateDrives plugged) with ⟨is, h1, h2, -⟩ | ⟨⟨x, h1⟩, -⟩
  · rw [h1] at h
    have h : is.head? = some i := by injection h
    rw [h2] at h
    have hs := candidateDrives_sorted plugged
    have hb := hasBallots_iff plugged
    have hm := mem_candidateDrives plugged
    cases hc : candidateDrives plugged with
    | nil => rw [hc] at h; cases h
    | cons e es =>
      rw [hc] at h hs hb hm
      obtain ⟨c, b, d⟩ := e
      have h : (parseDrive location c b d).toOption = some i := h
      cases hp : parseDrive location c b d with
      | error x => rw [hp] at h; cases h
      | ok j =>
        rw [hp] at h
        cases h
        obtain ⟨rfl, hn, rfl, ⟨fs, rfl⟩, hl⟩ := (parseDrive_ok ..).1 hp
        refine ⟨(hb _).2 ⟨_, _, List.mem_cons_self⟩, fun c hc => ?_, ⟨fs, ((hm _ _ _).1 List.mem_cons_self).2.2⟩, hn, hl⟩
        obtain ⟨b', d', hc⟩ := (hb c).1 hc
        rcases List.mem_cons.1 hc with hc | hc
        · cases hc; exact le_refl _
        · exact le_of_lt ((List.pairwise_cons.1 hs).1 _ hc)
  · rw [h1] at h
    cases h

/-- C93 No drive is found exactly if no drive has the two directories. -/
theorem C93_scan_none (location : List Char → Option String) (plugged : Char → Option Drive) :
    scanDrives location plugged = .ok none ↔ ∀ c, ¬ HasBallots plugged c := by
  constructor
  · intro h c hc
    unfold scanDrives at h
    rcases scan_mapM (location := location) (candidateDrives plugged) with ⟨is, h1, h2, h3⟩ | ⟨⟨x, h1⟩, -⟩
    · rw [h1] at h
      have h : is.head? = none := by injection h
      rw [h2] at h
      obtain ⟨b, d, hc⟩ := (hasBallots_iff plugged c).1 hc
      cases hd : candidateDrives plugged with
      | nil => rw [hd] at hc; cases hc
      | cons e es =>
        rw [hd] at h h3
        obtain ⟨i, hi⟩ := h3 e List.mem_cons_self
        have h : (parseDrive location e.1 e.2.1 e.2.2).toOption = none := h
        rw [hi] at h
        cases h
    · rw [h1] at h
      cases h
  · intro h
    have : candidateDrives plugged = [] := by
      rw [List.eq_nil_iff_forall_not_mem]
      rintro ⟨c, b, d⟩ hc
      exact h c ((hasBallots_iff plugged c).2 ⟨b, d, hc⟩)
    unfold scanDrives
    rw [this]
    rfl

/-! ### Uploading -/

/-- The calls that a run of the wizard makes for these files. -/
def wizardOps (eid newId : String) (device : Bool) (files : List (String × List Char)) : List UploadOp :=
  .create eid newId device :: files.map (fun f => .upload newId eid f.1 f.2)

theorem uploadBallot_bad (db : GuiDb) (uid eid : String) (f : String × List Char) (e : ElectionDoc)
    (he : dget db.elections eid = some e) (hf : isBallotFor parse e.context.manifestHash f = false) :
    db.uploadBallot parse uid eid f.1 f.2 = (.fail, db) := by
  unfold isBallotFor at hf
  unfold GuiDb.uploadBallot GuiDb.checkUpload
  cases hp : parse f.2 with
  | none => rfl
  | some b =>
    rw [hp] at hf
    have hf : e.context.manifestHash ≠ b.manifestHash := by
      intro h
      rw [h] at hf
      simp at hf
    simp only [he, if_pos hf]

theorem uploadBallot_good (db : GuiDb) (uid eid : String) (f : String × List Char) (e : ElectionDoc)
    (he : dget db.elections eid = some e) (hf : isBallotFor parse e.context.manifestHash f = true) :
    ∃ dup, (db.uploadBallot parse uid eid f.1 f.2).1 = .success dup := by
  obtain ⟨b, hp, hm⟩ := (isBallotFor_iff ..).1 hf
  by_cases hx : ∃ d ∈ db.ballots, d.electionId = eid ∧ d.objectId = b.objectId
  · exact ⟨true, (C69_duplicate_iff ..).2 ⟨b, e, hp, he, hm.symm, hx⟩⟩
  · exact ⟨false, (C69_stored_iff ..).1.2 ⟨b, e, hp, he, hm.symm, fun d hd h1 h2 => hx ⟨d, hd, h1, h2⟩⟩⟩

/-- The loop over the files uploads those before the first that is not a ballot of the election. -/
theorem uploadFiles_run (uid eid : String) : ∀ (files : List (String × List Char)) (db : GuiDb) (k : Nat) (e : ElectionDoc),
    dget db.elections eid = some e →
    (db.uploadFiles parse uid eid files k).2
      = db.run parse ((goodFiles parse e.context.manifestHash files).map (fun f => .upload uid eid f.1 f.2)) ∧
    ((db.uploadFiles parse uid eid files k).1.isSome = true ↔ goodFiles parse e.context.manifestHash files = files) := by
  intro files
  induction files with
  | nil => intro db k e he; exact ⟨rfl, by simp [GuiDb.uploadFiles, goodFiles]⟩
  | cons f fs ih =>
    intro db k e he
    unfold goodFiles at ih ⊢
    rw [List.takeWhile_cons, GuiDb.uploadFiles]
    cases hf : isBallotFor parse e.context.manifestHash f with
    | false =>
      rw [uploadBallot_bad db uid eid f e he hf]
      exact ⟨rfl, by simp⟩
    | true =>
      obtain ⟨dup, hd⟩ := uploadBallot_good db uid eid f e he hf
      cases hr : db.uploadBallot parse uid eid f.1 f.2 with
      | mk r db1 =>
        rw [hr] at hd
        dsimp only at hd
        subst hd
        have hdb1 : db1 = db.run parse [.upload uid eid f.1 f.2] := by
          show db1 = (db.uploadBallot parse uid eid f.1 f.2).2
          rw [hr]
        obtain ⟨e', he', -, hc, -⟩ := (C69_append_only parse db [.upload uid eid f.1 f.2]).2 eid e he
        rw [← hdb1] at he'
        obtain ⟨h1, h2⟩ := ih db1 (if dup then k + 1 else k) e' he'
        rw [hc] at h1 h2
        dsimp only
        refine ⟨?_, ?_⟩
        · rw [h1, if_pos rfl, List.map_cons]
          show _ = (db.step parse (.upload uid eid f.1 f.2)).run parse _
          have : db1 = db.step parse (.upload uid eid f.1 f.2) := hdb1
          rw [← this]
        · rw [h2, if_pos rfl, List.cons.injEq]
          exact ⟨fun h => ⟨rfl, h⟩, fun h => h.2⟩

/-- C93 A run of the wizard is the creation of an upload followed by single uploads, in the order of the files, of the
files before the first one that is not a ballot of the election; so all of C69 applies to it. -/
theorem C93_refines (parse : List Char → Option SBallot) (location : List Char → Option String) (fields : List Char → Bool)
    (plugged : Char → Option Drive) (db : GuiDb) (eid newId : String) (e : ElectionDoc) (he : dget db.elections eid = some e)
    (i : DriveInfo) (hi : scanDrives location plugged = .ok (some i)) (hf : fields i.deviceFile = true) :
    (db.uploadWizard parse location fields plugged eid newId).2
      = db.run parse (wizardOps eid newId true (goodFiles parse e.context.manifestHash i.ballotFiles)) := by
  unfold GuiDb.uploadWizard wizardOps
  rw [hi]
  dsimp only
  unfold GuiDb.uploadBallots
  rw [hf]
  have h0 : db.createUpload eid newId true = (some newId, db.step parse (.create eid newId true)) := by
    simp only [GuiDb.step, GuiDb.createUpload, he, if_true]
  obtain ⟨e', he', -, hc, -⟩ := (C69_append_only parse db [.create eid newId true]).2 eid e he
  have he' : dget (db.step parse (.create eid newId true)).elections eid = some e' := he'
  have h1 := (uploadFiles_run (parse := parse) newId eid i.ballotFiles _ 0 e' he').1
  rw [h0]
  dsimp only
  show _ = (db.step parse (.create eid newId true)).run parse _
  rw [hc] at h1
  rw [← h1]
  cases (db.step parse (.create eid newId true)).uploadFiles parse newId eid i.ballotFiles 0 with
  | mk r db2 => cases r <;> rfl

/-- C93 The wizard succeeds exactly if a drive is found, the election exists, the device file has its fields and every file is a
ballot of the election.  It then reports the number of files that was shown. -/
theorem C93_success_iff (parse : List Char → Option SBallot) (location : List Char → Option String) (fields : List Char → Bool)
    (plugged : Char → Option Drive) (db : GuiDb) (eid newId : String) :
    ((∃ r, (db.uploadWizard parse location fields plugged eid newId).1 = some r) ↔
      ∃ i e, scanDrives location plugged = .ok (some i) ∧ dget db.elections eid = some e ∧ fields i.deviceFile = true ∧
        ∀ f ∈ i.ballotFiles, BallotFor parse e.context.manifestHash f) ∧
    ∀ i n dups, scanDrives location plugged = .ok (some i) →
      (db.uploadWizard parse location fields plugged eid newId).1 = some (n, dups) → n = i.ballots := by
  constructor
  · unfold GuiDb.uploadWizard
    cases hs : scanDrives location plugged with
    | error x => exact ⟨fun ⟨r, h⟩ => (by cases h), fun ⟨i, e, h, _⟩ => (by cases h)⟩
    | ok o =>
      cases o with
      | none => exact ⟨fun ⟨r, h⟩ => (by cases h), fun ⟨i, e, h, _⟩ => (by cases h)⟩
      | some i =>
        dsimp only
        unfold GuiDb.uploadBallots GuiDb.createUpload
        cases he : dget db.elections eid with
        | none => exact ⟨fun ⟨r, h⟩ => (by cases h), fun ⟨i, e, _, h, _⟩ => (by cases h)⟩
        | some e =>
          cases hf : fields i.deviceFile with
          | false =>
            refine ⟨fun ⟨r, h⟩ => (by cases h), ?_⟩
            rintro ⟨i', e', h1, -, h3, -⟩
            cases h1
            rw [hf] at h3
            cases h3
          | true =>
            obtain ⟨e', he', -, hc, -⟩ := (C69_append_only parse db [.create eid newId true]).2 eid e he
            have hstep : db.run parse [.create eid newId true] = db.appendUpload eid newId := by
              show (db.createUpload eid newId true).2 = _
              unfold GuiDb.createUpload
              rw [he]
              rfl
            rw [hstep] at he'
            have h1 := (uploadFiles_run (parse := parse) newId eid i.ballotFiles _ 0 e' he').2
            rw [hc] at h1
            simp only [if_true]
            have h2 : goodFiles parse e.context.manifestHash i.ballotFiles = i.ballotFiles ↔
                ∀ f ∈ i.ballotFiles, BallotFor parse e.context.manifestHash f := by
              unfold goodFiles
              rw [List.takeWhile_eq_self_iff]
              exact forall₂_congr (fun f _ => isBallotFor_iff ..)
            rw [h2] at h1
            cases hu : (db.appendUpload eid newId).uploadFiles parse newId eid i.ballotFiles 0 with
            | mk r db2 =>
              rw [hu] at h1
              cases r with
              | none =>
                refine ⟨fun ⟨r, h⟩ => (by cases h), ?_⟩
                rintro ⟨i', e'', g1, g2, -, g4⟩
                cases g1
                cases g2
                have := h1.2 g4
                cases this
              | some k => exact ⟨fun _ => ⟨i, e, rfl, rfl, hf, h1.1 rfl⟩, fun _ => ⟨_, rfl⟩⟩
  · intro i n dups hs h
    have hn := (C93_scan_first location plugged i hs).2.2.2.1
    unfold GuiDb.uploadWizard at h
    rw [hs] at h
    dsimp only at h
    cases hu : db.uploadBallots parse eid newId (fields i.deviceFile) i.ballotFiles with
    | mk r db' =>
      rw [hu] at h
      dsimp only at h
      subst h
      rw [(C69_drive parse db db' eid newId _ _ n dups hu).1, hn]

/-! ### What is stored -/

theorem firstText_cons (f : String × List Char) (fs : List (String × List Char)) (oid : String) :
    firstText parse (f :: fs) oid
      = if (∃ b, parse f.2 = some b ∧ b.objectId = oid) then some f.2 else firstText parse fs oid := by
  unfold firstText
  rw [List.find?_cons]
  cases hp : parse f.2 with
  | none => simp
  | some b =>
    by_cases h : b.objectId = oid
    · simp [h]
    · have hb : (b.objectId == oid) = false := by simpa using h
      simp [h, hb]

/-- Uploading ballots of the election one after the other. -/
theorem has_uploads (uid eid : String) : ∀ (files : List (String × List Char)) (db : GuiDb) (e : ElectionDoc),
    dget db.elections eid = some e → (∀ f ∈ files, BallotFor parse e.context.manifestHash f) → ∀ eid' oid text,
    (db.run parse (files.map (fun f => .upload uid eid f.1 f.2))).Has eid' oid text ↔
      db.Has eid' oid text ∨ (eid' = eid ∧ (∀ t, ¬ db.Has eid oid t) ∧ firstText parse files oid = some text) := by
  intro files
  induction files with
  | nil =>
    intro db e _ _ eid' oid text
    show db.Has eid' oid text ↔ _
    simp [firstText]
  | cons f fs ih =>
    intro db e he hf eid' oid text
    obtain ⟨b, hp, hm⟩ := hf f List.mem_cons_self
    obtain ⟨e', he', -, hc, -⟩ := (C69_append_only parse db [.upload uid eid f.1 f.2]).2 eid e he
    have he' : dget (db.step parse (.upload uid eid f.1 f.2)).elections eid = some e' := he'
    have := ih (db.step parse (.upload uid eid f.1 f.2)) e' he' (by rw [hc]; exact fun g hg => hf g (List.mem_cons_of_mem _ hg))
      eid' oid text
    rw [List.map_cons]
    show ((db.step parse (.upload uid eid f.1 f.2)).run parse _).Has eid' oid text ↔ _
    rw [this, firstText_cons]
    clear this ih
    by_cases hx : ∃ d ∈ db.ballots, d.electionId = eid ∧ d.objectId = b.objectId
    · have hd := (C69_duplicate_iff parse db uid eid f.1 f.2).2 ⟨b, e, hp, he, hm.symm, hx⟩
      have hsame : db.step parse (.upload uid eid f.1 f.2) = db :=
        C69_refused_changes_nothing parse db uid eid f.1 f.2 (by rw [hd]; simp)
      rw [hsame]
      obtain ⟨d, hd1, hd2, hd3⟩ := hx
      by_cases ho : b.objectId = oid
      · have : ¬ ∀ t, ¬ db.Has eid oid t := fun h => h d.contents ⟨d, hd1, hd2, hd3.trans ho, rfl⟩
        simp [this]
      · have : ¬ ∃ b, parse f.2 = some b ∧ b.objectId = oid := by
          rintro ⟨b', h1, h2⟩
          rw [hp] at h1
          cases h1
          exact ho h2
        rw [if_neg this]
    · have hnew : ∀ d ∈ db.ballots, d.electionId = eid → d.objectId ≠ b.objectId := fun d hd h1 h2 => hx ⟨d, hd, h1, h2⟩
      have hs := (C69_stored_iff parse db uid eid f.1 f.2).1.2 ⟨b, e, hp, he, hm.symm, hnew⟩
      have hb : (db.step parse (.upload uid eid f.1 f.2)).ballots = db.ballots ++ [⟨uid, eid, f.1, b.objectId, f.2⟩] :=
        (C69_stored_iff parse db uid eid f.1 f.2).2 b hp hs
      have hhas : ∀ eid' oid text, (db.step parse (.upload uid eid f.1 f.2)).Has eid' oid text ↔
          db.Has eid' oid text ∨ (eid = eid' ∧ b.objectId = oid ∧ f.2 = text) := by
        intro eid' oid text
        unfold GuiDb.Has
        rw [hb]
        simp only [List.mem_append, List.mem_singleton]
        constructor
        · rintro ⟨d, hd | rfl, h⟩
          · exact .inl ⟨d, hd, h⟩
          · exact .inr h
        · rintro (⟨d, hd, h⟩ | h)
          · exact ⟨d, .inl hd, h⟩
          · exact ⟨_, .inr rfl, h⟩
      simp only [hhas]
      by_cases ho : b.objectId = oid
      · have h1 : ∃ b, parse f.2 = some b ∧ b.objectId = oid := ⟨b, hp, ho⟩
        have h2 : ∀ t, ¬ db.Has eid oid t := by
          rintro t ⟨d, hd, h3, h4, -⟩
          exact hnew d hd h3 (h4.trans ho.symm)
        rw [if_pos h1]
        constructor
        · rintro ((h | ⟨rfl, -, h⟩) | ⟨-, h, -⟩)
          · exact .inl h
          · exact .inr ⟨rfl, h2, by rw [h]⟩
          · exact absurd (Or.inr ⟨trivial, ho, rfl⟩) (h f.2)
        · rintro (h | ⟨rfl, -, h⟩)
          · exact .inl (.inl h)
          · cases h; exact .inl (.inr ⟨rfl, ho, rfl⟩)
      · have h1 : ¬ ∃ b, parse f.2 = some b ∧ b.objectId = oid := by
          rintro ⟨b', h1, h2⟩
          rw [hp] at h1
          cases h1
          exact ho h2
        rw [if_neg h1]
        simp [ho]

theorem has_create (db : GuiDb) (eid newId : String) (device : Bool) (eid' oid : String) (text : List Char) :
    (db.step parse (.create eid newId device)).Has eid' oid text ↔ db.Has eid' oid text := by
  unfold GuiDb.Has GuiDb.step
  rw [createUpload_ballots]

/-- C93 What the election holds after a run, successful or not: what it held, and for every id that it did not hold the first file
with this id among the files before the first that is not a ballot of the election.  Other elections hold what they held. -/
theorem C93_stored (parse : List Char → Option SBallot) (location : List Char → Option String) (fields : List Char → Bool)
    (plugged : Char → Option Drive) (db : GuiDb) (eid newId : String) (e : ElectionDoc) (he : dget db.elections eid = some e)
    (i : DriveInfo) (hi : scanDrives location plugged = .ok (some i)) (hf : fields i.deviceFile = true)
    (eid' oid : String) (text : List Char) :
    (db.uploadWizard parse location fields plugged eid newId).2.Has eid' oid text ↔
      db.Has eid' oid text ∨ (eid' = eid ∧ (∀ t, ¬ db.Has eid oid t) ∧
        firstText parse (goodFiles parse e.context.manifestHash i.ballotFiles) oid = some text) := by
  rw [C93_refines parse location fields plugged db eid newId e he i hi hf]
  obtain ⟨e', he', -, hc, -⟩ := (C69_append_only parse db [.create eid newId true]).2 eid e he
  have he' : dget (db.step parse (.create eid newId true)).elections eid = some e' := he'
  show ((db.step parse (.create eid newId true)).run parse _).Has eid' oid text ↔ _
  rw [has_uploads newId eid _ _ e' he' (fun f hf => by
    rw [hc]
    exact (isBallotFor_iff ..).1 (List.mem_takeWhile_imp hf))]
  simp only [has_create]

/-- A run that has no drive, no election or no proper device file changes nothing that the elections hold. -/
theorem C93_nothing (parse : List Char → Option SBallot) (location : List Char → Option String) (fields : List Char → Bool)
    (plugged : Char → Option Drive) (db : GuiDb) (eid newId : String)
    (h : (∀ i, scanDrives location plugged ≠ .ok (some i)) ∨ dget db.elections eid = none ∨
      ∃ i, scanDrives location plugged = .ok (some i) ∧ fields i.deviceFile = false) :
    db.uploadWizard parse location fields plugged eid newId = (none, db) := by
  unfold GuiDb.uploadWizard
  cases hs : scanDrives location plugged with
  | error x => rfl
  | ok o =>
    cases o with
    | none => rfl
    | some i =>
      dsimp only
      unfold GuiDb.uploadBallots GuiDb.createUpload
      rcases h with h | h | ⟨i', h1, h2⟩
      · exact absurd hs (h i)
      · rw [h]
      · rw [hs] at h1
        cases h1
        rw [h2]
        cases dget db.elections eid <;> rfl

theorem firstText_of_mem {files : List (String × List Char)} (h1 : OneTextEach parse files) {f : String × List Char} (hf : f ∈ files)
    {b : SBallot} (hb : parse f.2 = some b) : firstText parse files b.objectId = some f.2 := by
  induction files with
  | nil => cases hf
  | cons g gs ih =>
    rw [firstText_cons]
    split
    · rename_i h
      obtain ⟨b', hb', ho⟩ := h
      rw [h1 g List.mem_cons_self f hf b' b hb' hb ho]
    · rename_i h
      rcases List.mem_cons.1 hf with rfl | hf
      · exact absurd ⟨b, hb, rfl⟩ h
      · exact ih (fun f hf g hg => h1 f (List.mem_cons_of_mem _ hf) g (List.mem_cons_of_mem _ hg)) hf

theorem firstText_some {files : List (String × List Char)} {oid : String} {text : List Char}
    (h : firstText parse files oid = some text) : ∃ f ∈ files, f.2 = text ∧ ∃ b, parse f.2 = some b ∧ b.objectId = oid := by
  induction files with
  | nil => cases h
  | cons g gs ih =>
    rw [firstText_cons] at h
    split at h
    · rename_i hb
      cases h
      exact ⟨g, List.mem_cons_self, rfl, hb⟩
    · obtain ⟨f, hf, h⟩ := ih h
      exact ⟨f, List.mem_cons_of_mem _ hf, h⟩

/-- With one text for each id the first text is the only one. -/
theorem firstText_iff {files : List (String × List Char)} (h1 : OneTextEach parse files) (oid : String) (text : List Char) :
    firstText parse files oid = some text ↔ ∃ f ∈ files, f.2 = text ∧ ∃ b, parse f.2 = some b ∧ b.objectId = oid := by
  constructor
  · exact firstText_some
  · rintro ⟨f, hf, rfl, b, hb, rfl⟩
    exact firstText_of_mem h1 hf hb

/-- C93 Trying again.  A run of the wizard, whatever became of it, is followed by a successful run with files that include the ballots
that the first run stored.  Then the elections hold the same as after the second run alone.  (No two different texts are ballots with the
same id.) -/
theorem C93_retry (parse : List Char → Option SBallot) (location : List Char → Option String) (fields : List Char → Bool)
    (plugged plugged' : Char → Option Drive) (db : GuiDb) (eid newId newId' : String) (e : ElectionDoc)
    (he : dget db.elections eid = some e) (i i' : DriveInfo) (hi : scanDrives location plugged = .ok (some i))
    (hi' : scanDrives location plugged' = .ok (some i')) (hsub : ∀ f ∈ goodFiles parse e.context.manifestHash i.ballotFiles, f ∈ i'.ballotFiles)
    (hone : OneTextEach parse i'.ballotFiles) (r : Nat × Nat)
    (hr : ((db.uploadWizard parse location fields plugged eid newId).2.uploadWizard parse location fields plugged' eid newId').1 = some r)
    (eid' oid : String) (text : List Char) :
    ((db.uploadWizard parse location fields plugged eid newId).2.uploadWizard parse location fields plugged' eid newId').2.Has eid' oid text ↔
      (db.uploadWizard parse location fields plugged' eid newId').2.Has eid' oid text := by
  -- the election after the first run
  have hel : ∃ e1, dget (db.uploadWizard parse location fields plugged eid newId).2.elections eid = some e1 ∧ e1.context = e.context := by
    cases hf : fields i.deviceFile with
    | false => rw [C93_nothing parse location fields plugged db eid newId (.inr (.inr ⟨i, hi, hf⟩))]; exact ⟨e, he, rfl⟩
    | true =>
      rw [C93_refines parse location fields plugged db eid newId e he i hi hf]
      obtain ⟨e1, h1, -, h2, -⟩ := (C69_append_only parse db
        (wizardOps eid newId true (goodFiles parse e.context.manifestHash i.ballotFiles))).2 eid e he
      exact ⟨e1, h1, h2⟩
  obtain ⟨e1, he1, hc1⟩ := hel
  obtain ⟨i'', e1', h1, h2, hf', hall⟩ := (C93_success_iff ..).1.1 ⟨r, hr⟩
  rw [hi'] at h1
  cases h1
  rw [he1] at h2
  cases h2
  have hgood : goodFiles parse e.context.manifestHash i'.ballotFiles = i'.ballotFiles := by
    unfold goodFiles
    rw [List.takeWhile_eq_self_iff]
    intro f hf
    rw [← hc1]
    exact (isBallotFor_iff ..).2 (hall f hf)
  rw [C93_stored parse location fields plugged' _ eid newId' e1 he1 i' hi' hf', C93_stored parse location fields plugged' db eid newId' e he i' hi' hf',
    hc1, hgood]
  cases hf : fields i.deviceFile with
  | false => rw [C93_nothing parse location fields plugged db eid newId (.inr (.inr ⟨i, hi, hf⟩))]
  | true =>
    simp only [C93_stored parse location fields plugged db eid newId e he i hi hf]
    have hone' : OneTextEach parse (goodFiles parse e.context.manifestHash i.ballotFiles) :=
      fun f hf g hg => hone f (hsub f hf) g (hsub g hg)
    rw [firstText_iff hone, firstText_iff hone']
    constructor
    · rintro ((h | ⟨rfl, h1, f, hf, h2⟩) | ⟨rfl, h1, h2⟩)
      · exact .inl h
      · exact .inr ⟨rfl, h1, f, hsub f hf, h2⟩
      · exact .inr ⟨rfl, fun t ht => h1 t (.inl ht), h2⟩
    · rintro (h | ⟨rfl, h1, f, hf, rfl, b, hb, rfl⟩)
      · exact .inl (.inl h)
      · by_cases hx : ∃ t, firstText parse (goodFiles parse e.context.manifestHash i.ballotFiles) b.objectId = some t
        · obtain ⟨t, ht⟩ := hx
          obtain ⟨g, hg, rfl, b', hb', ho⟩ := firstText_some ht
          have := hone f hf g (hsub g hg) b b' hb hb' ho.symm
          exact .inl (.inr ⟨rfl, h1, g, hg, this.symm, b', hb', ho⟩)
        · refine .inr ⟨rfl, ?_, f, hf, rfl, b, hb, rfl⟩
          rintro t (ht | ⟨-, -, ht⟩)
          · exact h1 t ht
          · exact hx ⟨t, ht⟩

/-- C93 The order in which the directory lists the files makes no difference. -/
theorem C93_order (parse : List Char → Option SBallot) (location : List Char → Option String) (fields : List Char → Bool)
    (plugged plugged' : Char → Option Drive) (db : GuiDb) (eid newId newId' : String) (i i' : DriveInfo)
    (hi : scanDrives location plugged = .ok (some i)) (hi' : scanDrives location plugged' = .ok (some i'))
    (hperm : i.ballotFiles.Perm i'.ballotFiles) (hone : OneTextEach parse i.ballotFiles) (r r' : Nat × Nat)
    (hr : (db.uploadWizard parse location fields plugged eid newId).1 = some r)
    (hr' : (db.uploadWizard parse location fields plugged' eid newId').1 = some r') (eid' oid : String) (text : List Char) :
    (db.uploadWizard parse location fields plugged eid newId).2.Has eid' oid text ↔
      (db.uploadWizard parse location fields plugged' eid newId').2.Has eid' oid text := by
  obtain ⟨j, e, h1, he, hf, hall⟩ := (C93_success_iff ..).1.1 ⟨r, hr⟩
  rw [hi] at h1
  cases h1
  obtain ⟨j', e', h1, he', hf', hall'⟩ := (C93_success_iff ..).1.1 ⟨r', hr'⟩
  rw [hi'] at h1
  cases h1
  rw [he] at he'
  cases he'
  have hg : ∀ fs : List (String × List Char), (∀ f ∈ fs, BallotFor parse e.context.manifestHash f) → goodFiles parse e.context.manifestHash fs = fs := by
    intro fs h
    unfold goodFiles
    rw [List.takeWhile_eq_self_iff]
    exact fun f hf => (isBallotFor_iff ..).2 (h f hf)
  have hone' : OneTextEach parse i'.ballotFiles := fun f hf g hg => hone f (hperm.mem_iff.2 hf) g (hperm.mem_iff.2 hg)
  rw [C93_stored parse location fields plugged db eid newId e he i hi hf, C93_stored parse location fields plugged' db eid newId' e he i' hi' hf',
    hg _ hall, hg _ hall', firstText_iff hone, firstText_iff hone']
  simp only [hperm.mem_iff]

/-! ### Several runs, and the tally -/

/-- One run as calls. -/
theorem wizard_ops (plugged : Char → Option Drive) (db : GuiDb) (eid newId : String) (e : ElectionDoc) (he : dget db.elections eid = some e) :
    ∃ ops, (db.uploadWizard parse location fields plugged eid newId).2 = db.run parse ops ∧
      (ops = [] ∨ ops = wizardOps eid newId true (wizardFiles parse location fields e.context.manifestHash plugged)) ∧
      uploadedTo parse e.context.manifestHash eid ops
        = (wizardFiles parse location fields e.context.manifestHash plugged).filterMap (fun f => parse f.2) := by
  have key : ∀ hash files, uploadedTo parse hash eid (wizardOps eid newId true (goodFiles parse hash files))
      = (goodFiles parse hash files).filterMap (fun f => parse f.2) := by
    intro hash files
    unfold uploadedTo wizardOps
    rw [List.filterMap_cons_none rfl, List.filterMap_map]
    refine List.filterMap_congr (fun f hf => ?_)
    obtain ⟨b, hp, hm⟩ := (isBallotFor_iff ..).1 (List.mem_takeWhile_imp hf)
    simp [hp, hm]
  unfold wizardFiles
  cases hs : scanDrives location plugged with
  | error x =>
    refine ⟨[], ?_, .inl rfl, rfl⟩
    rw [C93_nothing parse location fields plugged db eid newId (.inl (by rw [hs]; simp))]
    rfl
  | ok o =>
    cases o with
    | none =>
      refine ⟨[], ?_, .inl rfl, rfl⟩
      rw [C93_nothing parse location fields plugged db eid newId (.inl (by rw [hs]; simp))]
      rfl
    | some i =>
      dsimp only
      cases hf : fields i.deviceFile with
      | false =>
        refine ⟨[], ?_, .inl rfl, rfl⟩
        rw [C93_nothing parse location fields plugged db eid newId (.inr (.inr ⟨i, hs, hf⟩))]
        rfl
      | true =>
        rw [if_pos rfl]
        exact ⟨_, C93_refines parse location fields plugged db eid newId e he i hs hf, .inr rfl, key _ _⟩

/-- All runs as calls. -/
theorem wizardRuns_ops (eid : String) (hash : Nat) : ∀ (runs : List ((Char → Option Drive) × String)) (db : GuiDb) (e : ElectionDoc),
    dget db.elections eid = some e → e.context.manifestHash = hash →
    ∃ ops, db.wizardRuns parse location fields eid runs = db.run parse ops ∧
      uploadedTo parse hash eid ops
        = (runs.flatMap (fun r => wizardFiles parse location fields hash r.1)).filterMap (fun f => parse f.2) ∧
      ∀ op ∈ ops, ∀ uid eid' fn text, op = .upload uid eid' fn text →
        (fn, text) ∈ runs.flatMap (fun r => wizardFiles parse location fields hash r.1) := by
  intro runs
  induction runs with
  | nil => intro db e _ _; exact ⟨[], rfl, rfl, by simp⟩
  | cons r rs ih =>
    intro db e he hh
    obtain ⟨ops, h1, h2, h3⟩ := wizard_ops (parse := parse) (location := location) (fields := fields) r.1 db eid r.2 e he
    obtain ⟨e', he', -, hc, -⟩ := (C69_append_only parse db ops).2 eid e he
    rw [← h1] at he'
    obtain ⟨ops', g1, g2, g3⟩ := ih _ e' he' (by rw [hc]; exact hh)
    rw [hh] at h2 h3
    refine ⟨ops ++ ops', ?_, ?_, ?_⟩
    · show GuiDb.wizardRuns parse location fields _ eid rs = _
      rw [g1, h1]
      unfold GuiDb.run
      rw [List.foldl_append]
    · rw [List.flatMap_cons, List.filterMap_append, ← h3, ← g2]
      unfold uploadedTo
      rw [List.filterMap_append]
    · intro op hop uid eid' fn text hu
      rw [List.flatMap_cons, List.mem_append]
      rcases List.mem_append.1 hop with hop | hop
      · left
        rcases h2 with rfl | rfl
        · cases hop
        · unfold wizardOps at hop
          rcases List.mem_cons.1 hop with rfl | hop
          · cases hu
          · obtain ⟨f, hf, rfl⟩ := List.mem_map.1 hop
            cases hu
            exact hf
      · exact .inr (g3 op hop uid eid' fn text hu)

/-- Every stored text was uploaded. -/
theorem stored_uploaded (eid : String) (ops : List UploadOp) : ∀ (db : GuiDb), ∀ d ∈ (db.run parse ops).docsOf eid,
    d ∈ db.docsOf eid ∨ ∃ op ∈ ops, ∃ uid eid' fn, op = .upload uid eid' fn d.contents := by
  induction ops with
  | nil => intro db d hd; exact .inl hd
  | cons op ops ih =>
    intro db d hd
    rcases ih (db.step parse op) d hd with h | ⟨op', h, h'⟩
    · cases op with
      | create a b c =>
        left
        unfold GuiDb.docsOf at h ⊢
        rwa [show (db.step parse (.create a b c)).ballots = db.ballots from createUpload_ballots ..] at h
      | upload uid eid' fn text =>
        by_cases hs : (db.uploadBallot parse uid eid' fn text).1 = .success false
        · obtain ⟨b, e, hp, -⟩ := (C69_stored_iff parse db uid eid' fn text).1.1 hs
          have hb := (C69_stored_iff parse db uid eid' fn text).2 b hp hs
          unfold GuiDb.docsOf at h ⊢
          rw [show (db.step parse (.upload uid eid' fn text)).ballots = _ from hb, List.filter_append, List.mem_append] at h
          rcases h with h | h
          · exact .inl h
          · have := List.mem_singleton.1 (List.mem_filter.1 h).1
            subst this
            exact .inr ⟨_, List.mem_cons_self, uid, eid', fn, rfl⟩
        · left
          have := C69_refused_changes_nothing parse db uid eid' fn text hs
          rwa [show db.step parse (.upload uid eid' fn text) = db from this] at h
    · exact .inr ⟨op', List.mem_cons_of_mem _ h, h'⟩

/-- C93 The tally after any number of runs of the wizard, successful or not.  `vs` are the ballots on the files that were read, in their
order; the tally has exactly the first cast ballot of each id.  Partial: as `C69_uploads_tally_partial`, the files end with `}` and the database
answers. -/
theorem C93_tally_partial {E : Env} (hv : E.P.Valid) (hpq : (E.P.q - 1) * (E.P.q - 1) < E.P.p) (maxE : Nat)
    (json : ContestData → Bytes) (m : Manifest) (im : InternalManifest) (he : ElectionReady E m im) (ctx : Context)
    (hres : isValidResidue E.P ctx.elgamalPublicKey = true) (hhash : ctx.manifestHash = im.manifestHash)
    (parse : List Char → Option SBallot) (location : List Char → Option String) (fields : List Char → Bool)
    (net : Nat → Nat → Bool) (hnet : ∀ n, ∃ k < 3, net n k = true)
    (db : GuiDb) (eid : String) (e : ElectionDoc) (hdb : dget db.elections eid = some e) (hctx : e.context = ctx)
    (hempty : db.docsOf eid = []) (runs : List ((Char → Option Drive) × String))
    (hend : ∀ f ∈ runs.flatMap (fun r => wizardFiles parse location fields im.manifestHash r.1), f.2.getLast? = some '}')
    (vs : List VotedBallot) (hvs : ∀ v ∈ vs, v.Encrypted E json im ctx ∧ ∃ d, im.StyleHas v.plain.styleId d)
    (hfiles : (runs.flatMap (fun r => wizardFiles parse location fields im.manifestHash r.1)).filterMap (fun f => parse f.2)
      = vs.map (fun v => submitBallot E v.enc v.state))
    (hsmall : (counted vs).length < E.P.q) (hmax : (counted vs).length ≤ maxE) :
    (db.wizardRuns parse location fields eid runs).getBallots parse net eid = (firsts vs).map (fun v => submitBallot E v.enc v.state) ∧
    ∃ t, getTally E m ctx ((db.wizardRuns parse location fields eid runs).getBallots parse net eid) false = .ok t ∧
      (∀ x, x ∈ t.castIds ↔ ∃ v ∈ counted vs, v.plain.objectId = x) ∧
      ∀ pt : PlaintextTally, pt.Correct E.P ctx.elgamalPublicKey m t.toCts →
        ∀ cid sid n, pt.Reports cid sid n ↔ ∃ d ∈ im.contests, d.objectId = cid ∧
          sid ∈ d.ballotSelections.map SelectionDescription.objectId ∧ n = electionResult im vs d sid := by
  obtain ⟨ops, h1, h2, h3⟩ := wizardRuns_ops (parse := parse) (location := location) (fields := fields) eid im.manifestHash runs db e hdb
    (by rw [hctx, hhash])
  rw [h1]
  obtain ⟨a, t, b, c, -, -, d⟩ := C69_uploads_tally_partial hv hpq maxE json m im he ctx hres hhash parse net hnet db eid e hdb hctx hempty ops
    (fun d hd => by
      rcases stored_uploaded eid ops db d hd with h | ⟨op, hop, uid, eid', fn, hu⟩
      · rw [hempty] at h; cases h
      · exact hend _ (h3 op hop uid eid' fn d.contents hu)) vs hvs (by rw [h2, hfiles]) hsmall hmax
  exact ⟨a, t, b, c, d⟩

/-! ### Findings and examples -/

/-- A drive with these ballot files and one device file. -/
def toyDrive (names : List String) : Drive := ⟨some (names.map (fun n => (n, n.toList))), some [("device.json", "{}".toList)]⟩

/-- One drive. -/
def toyPlugged (c : Char) (names : List String) (c' : Char) : Option Drive := if c' = c then some (toyDrive names) else none

/-- C93 (negative) A drive that the wizard would not use keeps it from using the right one: with the drive `E:` alone its ballots are
found; with a second drive `F:` whose device directory is empty nothing is. -/
theorem C93_other_drive_fails :
    (scanDrives (fun _ => some "here") (toyPlugged 'E' ["b}"])).toOption.map (fun o => o.map (fun i => (i.drive, i.ballots)))
      = some (some ('E', 1)) ∧
    (scanDrives (fun _ => some "here") (fun c => if c = 'F' then some ⟨some [], some []⟩ else toyPlugged 'E' ["b}"] c)).toOption = none := by
  decide +kernel

/-- C93 (negative) What is uploaded need not be what was shown: the drives are scanned again.  A drive `D:` that appears in between is
uploaded in place of the drive `E:` that was shown. -/
theorem C93_shown_fails :
    (scanDrives (fun _ => some "here") (toyPlugged 'E' ["b}"])).toOption.map (fun o => o.map (fun i => (i.drive, i.ballots)))
      = some (some ('E', 1)) ∧
    (let r := toyDb.uploadWizard (toyRead toyFiles) (fun _ => some "here") (fun _ => true)
      (fun c => if c = 'D' then some (toyDrive []) else toyPlugged 'E' ["b}"] c) "e" "up"
     r.1 = some (0, 0) ∧ r.2.ballots.length = 0) := by
  decide +kernel

/-- C93 (negative) A run that reports a failure has stored ballots: those before the file that is not a ballot. -/
theorem C93_failed_run_stores_fails :
    let r := toyDb.uploadWizard (toyRead toyFiles) (fun _ => some "here") (fun _ => true) (toyPlugged 'E' ["b}", "x", "u}"]) "e" "up"
    r.1 = none ∧ r.2.ballots.map (fun d => d.objectId) = ["b"] := by
  decide +kernel

-- trying again without the bad file: one duplicate, and the counters add up
example :
    let r := toyDb.uploadWizard (toyRead toyFiles) (fun _ => some "here") (fun _ => true) (toyPlugged 'E' ["b}", "x", "u}"]) "e" "up"
    let r' := r.2.uploadWizard (toyRead toyFiles) (fun _ => some "here") (fun _ => true) (toyPlugged 'E' ["u}", "b}"]) "e" "up2"
    r'.1 = some (2, 1) ∧ r'.2.ballots.map (fun d => d.objectId) = ["b", "u"] ∧
      r'.2.elections.map (fun e => e.2.uploads.map (fun u => (u.uploadId, u.ballotCount))) = [[("up", 1), ("up2", 1)]] := by
  decide +kernel

end EG
