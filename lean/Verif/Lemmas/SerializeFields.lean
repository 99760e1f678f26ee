import Verif.Spec.Manifest
import Verif.Lemmas.JsonText
import Verif.Lemmas.KeyCeremony

/-!
# Texts of values, fields of ballots, manifests that are read back
-/

namespace EG

theorem raw_trip {α : Type} {enc : α → Json} {dec : Json → R α} {a : α} (h : Trip enc dec a) : fromRaw dec (toRaw enc a) = .ok a := by
  rw [fromRaw, toRaw, jsonLoads_dumps' _ h.1]
  exact h.2.2

theorem raw_trip_space {α : Type} {enc : α → Json} {dec : Json → R α} {a : α} (h : Trip enc dec a) (w w' : List Char)
    (hw : ∀ c ∈ w ++ w', c ∈ [' ', '\t', '\n', '\r']) : fromRaw dec (w ++ (toRaw enc a ++ w')) = .ok a := by
  have hs : ∀ c, c ∈ [' ', '\t', '\n', '\r'] → isJsonSpace c = true := by
    intro c hc
    simp only [List.mem_cons, List.not_mem_nil, or_false] at hc
    rcases hc with rfl | rfl | rfl | rfl <;> rfl
  rw [fromRaw, toRaw, jsonLoads_dumps _ h.1 w w' (fun c hc => hs c (hw c (List.mem_append_left _ hc)))
    (fun c hc => hs c (hw c (List.mem_append_right _ hc)))]
  exact h.2.2

theorem list_raw_trip {α : Type} {enc : α → Json} {dec : Json → R α} {l : List α} (h : ∀ a ∈ l, Trip enc dec a) :
    fromListRaw dec (toRaw (listJson enc) l) = .ok l := by
  rw [fromListRaw, toRaw, jsonLoads_dumps' _ (list_plain (fun a ha => (h a ha).1))]
  exact listOf_json h

theorem raw_reads {α : Type} {dec : Json → R α} {ok : α → Prop} (hd : Reads dec ok) {raw : List Char} {a : α}
    (h : fromRaw dec raw = .ok a) : ok a := by
  rw [fromRaw, bindOk] at h
  obtain ⟨j, hj, h⟩ := h
  exact hd j a (jsonLoads_distinct hj) h

/-- The hash of a manifest does not cover the lists of primary parties. -/
theorem withoutPrimaryParties_hash (m : Manifest) (E : Env) : m.withoutPrimaryParties.cryptoHash E = m.cryptoHash E := by
  have : m.withoutPrimaryParties.hashArgs E = m.hashArgs E := by
    unfold Manifest.withoutPrimaryParties Manifest.hashArgs
    simp only [List.map_map]
    rfl
  rw [Manifest.cryptoHash, Manifest.cryptoHash, this]

/-- The contests with placeholders do not have them either. -/
theorem withoutPrimaryParties_internal {E : Env} {m : Manifest} {im : InternalManifest} (h : mkInternalManifest E m = .ok im) :
    mkInternalManifest E m.withoutPrimaryParties = .ok im := by
  rw [← h, mkInternalManifest, mkInternalManifest, withoutPrimaryParties_hash]
  have : generateContestsWithPlaceholders m.withoutPrimaryParties = generateContestsWithPlaceholders m := by
    unfold generateContestsWithPlaceholders Manifest.withoutPrimaryParties
    simp only
    generalize m.contests = cs
    induction cs with
    | nil => rfl
    | cons c cs ih => rw [List.map_cons, List.mapM_cons, List.mapM_cons, ih]; rfl
  rw [this]
  rfl

/-- A manifest that is ready for an election is so without the lists of primary parties. -/
theorem withoutPrimaryParties_ready {m : Manifest} (h : ManifestReady m) : ManifestReady m.withoutPrimaryParties := by
  have hc : ∀ c ∈ m.withoutPrimaryParties.contests, ∃ d ∈ m.contests, { d with primaryPartyIds := none } = c := fun c hc =>
    List.mem_map.1 hc
  have hmap : ∀ {β : Type} (f : ContestDescription → β), (∀ d, f { d with primaryPartyIds := none } = f d) →
      m.withoutPrimaryParties.contests.map f = m.contests.map f := by
    intro β f hf
    unfold Manifest.withoutPrimaryParties
    rw [List.map_map]
    exact List.map_congr_left (fun d _ => hf d)
  obtain ⟨⟨a1, a2, a3, a4, a5, a6, a7, a8, a9, a10, a11⟩, b1, b2, b3, b4⟩ := h
  refine ⟨⟨a1, a2, a3, a4, ?_, ?_, a7, a8, ?_, ?_, ?_⟩, ?_, ?_, ?_, ?_⟩
  · rw [hmap _ (fun _ => rfl)]; exact a5
  · rw [hmap _ (fun _ => rfl)]; exact a6
  · intro c h
    obtain ⟨d, hd, rfl⟩ := hc c h
    obtain ⟨c1, c2, c3, c4, c5, c6⟩ := a9 d hd
    exact ⟨c1, c2, c3, c4, c5, c6⟩
  · intro c h
    obtain ⟨d, hd, rfl⟩ := hc c h
    exact a10 d hd
  · intro c h ps hps
    obtain ⟨d, hd, rfl⟩ := hc c h
    cases hps
  · intro c h
    obtain ⟨d, hd, rfl⟩ := hc c h
    exact b1 d hd
  · intro c h
    obtain ⟨d, hd, rfl⟩ := hc c h
    exact b2 d hd
  · exact List.pairwise_map.2 b3
  · intro c h
    obtain ⟨d, hd, rfl⟩ := hc c h
    exact b4 d hd

theorem coordinate_trip {P : Params} {loads : Bytes → R (List Char)} (hl : ReadsCoordinate loads) {n : Nat} (hn : n < P.q)
    (hq : P.q ≤ 256 ^ 246) : ∃ bs, coordinateToBytes n = .ok bs ∧ coordinateFromBytes P loads bs = .ok n := by
  obtain ⟨bs, h1, -, h3⟩ := coordinateToBytes_ok hn hq
  exact ⟨bs, h1, coordinateFromBytes_ok hl hn h3⟩

theorem need_key {α : Type} {o : List (String × Json)} {k : String} {dec : Json → R α} {a : α} (h : need o k dec = .ok a) :
    k ∈ o.map (·.1) := by
  unfold need at h
  split at h
  · rename_i j hj
    exact List.mem_map_of_mem (f := Prod.fst) (mem_of_dget hj)
  · cases h

theorem ballot_needs {P : Params} {o : List (String × Json)} {b : SBallot} (h : SBallot.ofJson P (.obj o) = .ok b) :
    ∀ k ∈ ["object_id", "style_id", "manifest_hash", "code_seed", "contests", "code", "timestamp", "crypto_hash", "state"],
      k ∈ o.map (·.1) := by
  simp only [SBallot.ofJson, asObj, bindOk, Except.ok.injEq, exists_eq_left', CBallot.ofMembers] at h
  obtain ⟨x, ⟨_, h1, _, h2, _, h3, _, h4, _, h5, _, h6, _, h7, _, h8, _⟩, _, h9, _⟩ := h
  intro k hk
  simp only [List.mem_cons, List.not_mem_nil, or_false] at hk
  rcases hk with rfl | rfl | rfl | rfl | rfl | rfl | rfl | rfl | rfl
  exacts [need_key h1, need_key h2, need_key h3, need_key h4, need_key h5, need_key h6, need_key h7, need_key h8, need_key h9]

theorem ballot_same (P : Params) {o o' : List (String × Json)} (h : ∀ k ∈ ["object_id", "style_id", "manifest_hash", "code_seed",
    "contests", "code", "timestamp", "crypto_hash", "nonce", "state"], dget o k = dget o' k) :
    SBallot.ofJson P (.obj o) = SBallot.ofJson P (.obj o') := by
  have key : ∀ {α : Type} (k : String) (dec : Json → R α), k ∈ ["object_id", "style_id", "manifest_hash", "code_seed",
      "contests", "code", "timestamp", "crypto_hash", "nonce", "state"] → need o k dec = need o' k dec := by
    intro α k dec hk
    unfold need
    rw [h k hk]
  have key' : orElse o "nonce" none (optOf (elemQOf P)) = orElse o' "nonce" none (optOf (elemQOf P)) := by
    unfold orElse
    rw [h "nonce" (by decide)]
  unfold SBallot.ofJson CBallot.ofMembers asObj
  simp only [key', key "object_id" _ (by decide), key "style_id" _ (by decide), key "manifest_hash" _ (by decide),
    key "code_seed" _ (by decide), key "contests" _ (by decide), key "code" _ (by decide), key "timestamp" _ (by decide),
    key "crypto_hash" _ (by decide), key "state" _ (by decide), bind, Except.bind]

end EG
