import Verif.Props.CliText
import Verif.Props.SerializeElectionToy

/-!
# C86: an instance, and what the commands make of wrong files
-/

namespace EG

theorem toyPlain_encryptable_json : ∀ c ∈ toyPlain.zip toyRnd.ballots, ∀ d ∈ toyIM.contests,
    Encryptable toyEnv contestDataJson (c.1.voted d.toContestDescription) d (nonceSeed toyEnv toyIM.manifestHash c.1.objectId c.2.1) := by
  intro c hc d hd
  have h := toyPlain_encryptable c hc d hd
  have hov : ∀ c ∈ toyPlain.zip toyRnd.ballots, ∀ d ∈ toyIM.contests, (c.1.voted d.toContestDescription).over d = false ∧
      (c.1.voted d.toContestDescription).writeIns = none := by decide +kernel
  obtain ⟨h1, h2⟩ := hov c hc d hd
  refine ⟨h.belongs, h.allowed, h.binary, h.some, h.contestOrder, h.orders, h.nonces, fun _ err => ?_, fun h3 => ?_⟩
  · rw [h2]
    rcases err with _ | _ | _ | _ <;> decide +kernel
  · rw [h1] at h3
    cases h3

/-- The text of the manifest of the toy election. -/
def cliManifest : List Char := toRaw Manifest.toJson typedManifest

theorem cliManifest_read : fromRaw Manifest.ofJson cliManifest = .ok typedManifest := by
  obtain ⟨m', h, -, -, hm⟩ := C79_manifest_partial typedManifest typedManifest_typed
  rw [cliManifest, h, hm (by decide +kernel)]

/-- The ballots of the toy election, in a single file. -/
def cliBallots : CliPath := .file (toRaw (listJson PlaintextBallot.toJson) toyPlain)

theorem cliBallots_read : cliBallots.read PlaintextBallot.ofJson = .ok toyPlain :=
  list_raw_trip (fun b _ => PlaintextBallot.trip b)

/-- The coefficients of the guardians' polynomials, and the nonces of their proofs. -/
def cliRands (i : Nat) : List (Nat × Nat) := [(i % 9 + 4, 3), (2, i + 5)]

/-- C86 for the toy election: three guardians, three ballots in one file; two are cast and one is spoiled; the record is read back. -/
example : ∃ pkg keys dir sdir r texts rec cast spoiled,
    setupCommandText toyEnv extraSmallConstants cliRands toyRnd.backups (3 : Nat) (2 : Nat) cliManifest none [] = .ok (pkg, keys) ∧
    encryptCommandText toyEnv toyRnd.device pkg.manifest pkg.context cliBallots toyRnd.ballots [] = .ok dir ∧
    dir.map (·.1) = ["device.json", "b.json", "v.json", "w.json"] ∧
    submitCommandText toyEnv pkg.manifest pkg.context (.dir ((dir.drop 1).take 2 |>.map (·.2))) (some (.dir ((dir.drop 3).map (·.2)))) []
      = .ok sdir ∧
    importCommandText toyEnv extraSmallConstants 12 toyRnd.seeds pkg.manifest pkg.context (.dir (sdir.map (·.2))) (keys.map (·.2))
      (some (toRaw Device.toJson toyRnd.device)) true = .ok r ∧
    r.results.Right toyIM cast spoiled ∧ cast.Perm [toyVote "b" 1 0 1, toyVote "v" 0 1 1] ∧ spoiled.Perm [toyVote "w" 0 1 1] ∧
    r.record = some texts ∧ texts.read extraSmall = .ok rec := by
  obtain ⟨pkg, keys, h1, h2⟩ := C86_pipeline_partial (E := toyEnv) extraSmall_valid (by decide) (fun _ _ => by simp [toyEnv])
    (by decide +kernel) 12 (by decide) 3 2 (by decide) (by decide) (by decide) (by decide) cliRands
    (fun _ _ => rfl) (by
      intro i r hr
      simp only [cliRands, List.mem_cons, List.not_mem_nil, or_false] at hr
      have : i % 9 < 9 := Nat.mod_lt _ (by decide)
      rcases hr with rfl | rfl
      · show i % 9 + 4 < 13; omega
      · show 2 < 13; omega)
    toyRnd.backups cliManifest typedManifest cliManifest_read toyIM typedReady
    (by intro t ht; revert t; decide +kernel) none extraSmallConstants rfl
  obtain ⟨dir, h3, h4, h5, h6⟩ := h2 toyRnd.device cliBallots toyPlain toyRnd.ballots cliBallots_read rfl (by decide +kernel) (by decide +kernel)
    (by decide +kernel) (fun b hb => toyPlain_style b hb)
    (fun c hc d hd => toyPlain_encryptable_json c hc d (by obtain ⟨-, -, -, -, hd, -⟩ := hd; exact hd))
  have h4' : dir.map (fun e => e.1) = ["device.json", "b.json", "v.json", "w.json"] := h4
  have hl : dir.length = 4 := by
    have := congrArg List.length h4'
    rwa [List.length_map] at this
  obtain ⟨e, e1, e2, e3, rfl⟩ : ∃ e e1 e2 e3, dir = [e, e1, e2, e3] := by
    match dir, hl with
    | [e, e1, e2, e3], _ => exact ⟨e, e1, e2, e3, rfl⟩
  simp only [List.map_cons, List.map_nil, List.cons.injEq, and_true] at h4'
  obtain ⟨-, n1, n2, n3⟩ := h4'
  cases Option.some.inj h5
  obtain ⟨sdir, h7, h8⟩ := h6 [e1, e2] [e3] (List.Perm.refl _) (show 2 < 13 by omega) (by simp)
  obtain ⟨r, cast, spoiled, texts, rec, h9, h10, h11, h12, -, h13, h14, -⟩ := h8 _ _ (List.Perm.refl _) (List.Perm.refl _) toyRnd.seeds
  refine ⟨pkg, keys, _, sdir, r, texts, rec, cast, spoiled, h1, h3, h4, h7, h9, h12, ?_, ?_, h13, h14⟩
  · have : ballotsNamed [e1, e2] toyPlain = [toyVote "b" 1 0 1, toyVote "v" 0 1 1] := by
      unfold ballotsNamed
      simp only [List.map_cons, List.map_nil, n1, n2]
      decide +kernel
    rwa [this] at h10
  · have : ballotsNamed [e3] toyPlain = [toyVote "w" 0 1 1] := by
      unfold ballotsNamed
      simp only [List.map_cons, List.map_nil, n3]
      decide +kernel
    rwa [this] at h11

/-- The file of the device among the ballots makes `submit-ballots` raise; a missing path raises too. -/
example : (fromRaw (CBallot.ofJson extraSmall) (toRaw Device.toJson toyRnd.device) = .error .key) ∧
    CliPath.read (CBallot.ofJson extraSmall) .neither = .error .value :=
  ⟨read_encrypted (P := extraSmall) (f := .device toyRnd.device) trivial, rfl⟩

end EG
