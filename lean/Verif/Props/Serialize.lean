import Verif.Lemmas.JsonText
import Verif.Lemmas.Typed
import Verif.Lemmas.SerializeFields
import Verif.Spec.ToyElection

/-!
# C79, C80: serialization
-/

namespace EG

variable {E : Env}

/-! ### C79: what is written is read back -/

/-- C79 Ballots: `from_raw` of `to_raw` returns the ballot. -/
theorem C79_ballots (P : Params) :
    (∀ b : PlaintextBallot, fromRaw PlaintextBallot.ofJson (toRaw PlaintextBallot.toJson b) = .ok b) ∧
    (∀ b : CBallot, b.Typed P → fromRaw (CBallot.ofJson P) (toRaw CBallot.toJson b) = .ok b) ∧
    (∀ b : SBallot, b.toCBallot.Typed P → fromRaw (SBallot.ofJson P) (toRaw SBallot.toJson b) = .ok b) ∧
    ∀ d : ContestData, d.Typed → fromRaw ContestData.ofJson (toRaw ContestData.toJson d) = .ok d :=
  ⟨fun b => raw_trip (PlaintextBallot.trip b), fun _ h => raw_trip (CBallot.trip h), fun _ h => raw_trip (SBallot.trip h),
    fun _ h => raw_trip (ContestData.trip h)⟩

/-- C79 Keys: the same for what the guardians exchange and keep. -/
theorem C79_keys (P : Params) :
    (∀ k : ElectionPublicKey, k.Typed P → fromRaw (ElectionPublicKey.ofJson P) (toRaw ElectionPublicKey.toJson k) = .ok k) ∧
    (∀ k : ElectionKeyPair, k.Typed P → fromRaw (ElectionKeyPair.ofJson P) (toRaw ElectionKeyPair.toJson k) = .ok k) ∧
    (∀ k : ElectionJointKey, k.Typed P → fromRaw (ElectionJointKey.ofJson P) (toRaw ElectionJointKey.toJson k) = .ok k) ∧
    (∀ b : Backup, b.Typed P → fromRaw (Backup.ofJson P) (toRaw Backup.toJson b) = .ok b) ∧
    (∀ v : Verification, fromRaw Verification.ofJson (toRaw Verification.toJson v) = .ok v) ∧
    ∀ r : PrivateGuardianRecord, r.Typed P → fromRaw (PrivateGuardianRecord.ofJson P) (toRaw PrivateGuardianRecord.toJson r) = .ok r :=
  ⟨fun _ h => raw_trip (ElectionPublicKey.trip h), fun _ h => raw_trip (ElectionKeyPair.trip h),
    fun _ h => raw_trip (ElectionJointKey.trip h), fun _ h => raw_trip (Backup.trip h), fun v => raw_trip (Verification.trip v),
    fun _ h => raw_trip (PrivateGuardianRecord.trip h)⟩

/-- C79 The record: the same for the files of an election record except the manifest. -/
theorem C79_record (P : Params) :
    (∀ c : Constants, fromRaw Constants.ofJson (toRaw Constants.toJson c) = .ok c) ∧
    (∀ d : Device, fromRaw Device.ofJson (toRaw Device.toJson d) = .ok d) ∧
    (∀ c : ContextFile, c.context.Typed P → (∀ d ∈ c.extendedData, Keys d) →
      fromRaw (ContextFile.ofJson P) (toRaw ContextFile.toJson c) = .ok c) ∧
    (∀ g : GuardianRecord, g.Typed P → fromRaw (GuardianRecord.ofJson P) (toRaw GuardianRecord.toJson g) = .ok g) ∧
    (∀ t : PublishedTally, t.Typed P → fromRaw (PublishedTally.ofJson P) (toRaw PublishedTally.toJson t) = .ok t) ∧
    (∀ t : PlaintextTally, t.Typed P → fromRaw (PlaintextTally.ofJson P) (toRaw PlaintextTally.toJson t) = .ok t) ∧
    ∀ d : List (String × Nat), Keys d → (∀ e ∈ d, e.2 < P.q) → fromRaw (lagrangeOf P) (toRaw lagrangeJson d) = .ok d :=
  ⟨fun c => raw_trip (Constants.trip c), fun d => raw_trip (Device.trip d), fun _ h he => raw_trip (ContextFile.trip h he),
    fun _ h => raw_trip (GuardianRecord.trip h), fun _ h => raw_trip (PublishedTally.trip h), fun _ h => raw_trip (PlaintextTally.trip h),
    fun _ hk h => raw_trip (lagrange_trip hk h)⟩

/-- C79 A manifest is read back; it has the same hash, and is the same if no contest has a list of primary parties.
Partial: the lists of primary parties are lost. -/
theorem C79_manifest_partial (m : Manifest) (hm : m.Typed) :
    ∃ m', fromRaw Manifest.ofJson (toRaw Manifest.toJson m) = .ok m' ∧ (∀ E, m'.cryptoHash E = m.cryptoHash E) ∧
      (∀ E im, mkInternalManifest E m = .ok im → mkInternalManifest E m' = .ok im) ∧
      ((∀ c ∈ m.contests, c.primaryPartyIds = none) → m' = m) := by
  refine ⟨m.withoutPrimaryParties, ?_, withoutPrimaryParties_hash m, fun E im h => withoutPrimaryParties_internal h, fun h => ?_⟩
  · rw [fromRaw, toRaw, jsonLoads_dumps' _ (Manifest.reads hm).1]
    exact (Manifest.reads hm).2
  · unfold Manifest.withoutPrimaryParties
    have : m.contests.map (fun c => { c with primaryPartyIds := none }) = m.contests := by
      conv_rhs => rw [← List.map_id m.contests]
      refine List.map_congr_left (fun c hc => ?_)
      have := h c hc
      cases c
      simp only at this
      subst this
      rfl
    rw [this]

/-- The manifest of an election with a contest for a party that is not in the manifest. -/
def unknownPartyManifest : Manifest :=
  { toyManifest with specVersion := "1.0", contests := toyManifest.contests.map (fun c => { c with primaryPartyIds := some ["p"] }) }

/-- C79 fails for manifests: a manifest with a contest for an unknown party is not valid; written and read back, it is valid and has the
same hash. -/
theorem C79_primary_parties_fails : unknownPartyManifest.Typed ∧ unknownPartyManifest.isValid = false ∧
    ∃ m', fromRaw Manifest.ofJson (toRaw Manifest.toJson unknownPartyManifest) = .ok m' ∧ m'.isValid = true ∧
      m' ≠ unknownPartyManifest ∧ ∀ E, m'.cryptoHash E = unknownPartyManifest.cryptoHash E := by
  have ht : unknownPartyManifest.Typed := by unfold Manifest.Typed; decide +kernel
  refine ⟨ht, by decide +kernel, unknownPartyManifest.withoutPrimaryParties, ?_, by decide +kernel, by decide +kernel,
    withoutPrimaryParties_hash _⟩
  rw [fromRaw, toRaw, jsonLoads_dumps' _ (Manifest.reads ht).1]
  exact (Manifest.reads ht).2

/-- C79 A list: `from_list_raw` of the text of a list returns the list. -/
theorem C79_list (P : Params) (bs : List SBallot) (h : ∀ b ∈ bs, b.toCBallot.Typed P) (ps : List PlaintextBallot) :
    fromListRaw (SBallot.ofJson P) (toRaw (listJson SBallot.toJson) bs) = .ok bs ∧
    fromListRaw PlaintextBallot.ofJson (toRaw (listJson PlaintextBallot.toJson) ps) = .ok ps :=
  ⟨list_raw_trip (fun b hb => SBallot.trip (h b hb)), list_raw_trip (fun b _ => PlaintextBallot.trip b)⟩

/-- C79 Different ballots have different texts. -/
theorem C79_injective (P : Params) (b b' : SBallot) (hb : b.toCBallot.Typed P) (hb' : b'.toCBallot.Typed P)
    (h : toRaw SBallot.toJson b = toRaw SBallot.toJson b') : b = b' := by
  have h1 := raw_trip (SBallot.trip hb)
  rw [h, raw_trip (SBallot.trip hb')] at h1
  cases h1
  rfl

/-- C79 The text of a ballot is printable ASCII, from brace to brace, whatever characters its ids have, and white space around it does
not matter. -/
theorem C79_text (P : Params) (b : SBallot) (hb : b.toCBallot.Typed P) :
    (∀ c ∈ toRaw SBallot.toJson b, 32 ≤ c.toNat ∧ c.toNat ≤ 126) ∧ (toRaw SBallot.toJson b).head? = some '{' ∧
    (toRaw SBallot.toJson b).getLast? = some '}' ∧
    ∀ w w' : List Char, (∀ c ∈ w ++ w', c ∈ [' ', '\t', '\n', '\r']) →
      fromRaw (SBallot.ofJson P) (w ++ (toRaw SBallot.toJson b ++ w')) = .ok b := by
  have ht := SBallot.trip hb
  refine ⟨dumps_printable _ ht.1, ?_, ?_, fun w w' hw => raw_trip_space ht w w' hw⟩
  · rw [toRaw, SBallot.toJson, Json.dumps, List.head?_cons]
  · rw [toRaw, SBallot.toJson]; exact obj_last _

/-- C79 Every ballot that `encrypt_ballot` returns, submitted in whatever state, is read back from its text, by `from_raw` and by the
upload of the GUI; so is the ballot before it is submitted. -/
theorem C79_encrypted (hv : E.P.Valid) (json : ContestData → Bytes) (b : PlaintextBallot) (m : InternalManifest) (ctx : Context)
    (seed nonce : Nat) (now : Int) (verify : Bool) (c : CBallot) (hm : m.manifestHash < E.P.q) (hs : seed < E.P.q) (hn : nonce < E.P.q)
    (h : encryptBallot E json b m ctx seed nonce now verify = .ok (some c)) :
    fromRaw (CBallot.ofJson E.P) (toRaw CBallot.toJson c) = .ok c ∧
    ∀ st, parseSubmitted E.P (toRaw SBallot.toJson (submitBallot E c st)) = some (submitBallot E c st) := by
  have ht := encryptBallot_typed hv.p_prime.one_lt hv.q_prime.pos hm hs hn h
  refine ⟨raw_trip (CBallot.trip ht), fun st => ?_⟩
  rw [parseSubmitted, raw_trip (SBallot.trip (submitBallot_typed hv.q_prime.pos ht st))]
  rfl

/-- C79 The contest data of a contest: it is padded to 512 bytes and read back, or raises `TruncationError` if its text is too long. -/
theorem C79_contest_data (d : ContestData) (hd : d.Typed) :
    ((toRaw ContestData.toJson d).length ≤ 510 →
      ∃ bs, d.toBytes contestDataJson = .ok bs ∧ bs.length = 512 ∧ paddedDecode ContestData.ofJson bs = .ok d) ∧
    (510 < (toRaw ContestData.toJson d).length → d.toBytes contestDataJson = .error .truncation) := by
  refine ⟨fun h => padded_trip (ContestData.trip hd) h, fun h => C20_too_long_raises _ 512 ?_⟩
  unfold contestDataJson asciiBytes
  rw [List.length_map]
  omega

/-- C79 The coordinate of a backup is read back by the guardian it is for. -/
theorem C79_coordinate (P : Params) (n : Nat) (hn : n < P.q) (hq : P.q ≤ 256 ^ 246) :
    ReadsCoordinate loadsCoordinate ∧
    ∃ bs, coordinateToBytes n = .ok bs ∧ coordinateFromBytes P loadsCoordinate bs = .ok n ∧
      paddedDecode (coordinateDataOf P) bs = .ok n := by
  obtain ⟨bs, h1, h2⟩ := coordinate_trip loadsCoordinate_reads hn hq
  exact ⟨loadsCoordinate_reads, bs, h1, h2, by rw [← coordinateFromBytes_eq]; exact h2⟩

/-! ### C80: what is read is well-formed -/

/-- C80 Whatever the text, a ballot that is read has its elements in range, and is what its own text says. -/
theorem C80_ballot (P : Params) (raw : List Char) (b : SBallot) (h : fromRaw (SBallot.ofJson P) raw = .ok b) :
    b.toCBallot.Typed P ∧ fromRaw (SBallot.ofJson P) (toRaw SBallot.toJson b) = .ok b := by
  have ht := raw_reads (SBallot.reads P) h
  exact ⟨ht, raw_trip (SBallot.trip ht)⟩

/-- C80 The same for what guardians exchange and keep. -/
theorem C80_keys (P : Params) (raw : List Char) :
    (∀ k, fromRaw (ElectionPublicKey.ofJson P) raw = .ok k → k.Typed P ∧
      fromRaw (ElectionPublicKey.ofJson P) (toRaw ElectionPublicKey.toJson k) = .ok k) ∧
    (∀ b, fromRaw (Backup.ofJson P) raw = .ok b → b.Typed P ∧ fromRaw (Backup.ofJson P) (toRaw Backup.toJson b) = .ok b) ∧
    ∀ r, fromRaw (PrivateGuardianRecord.ofJson P) raw = .ok r → r.Typed P ∧
      fromRaw (PrivateGuardianRecord.ofJson P) (toRaw PrivateGuardianRecord.toJson r) = .ok r :=
  ⟨fun _ h => ⟨raw_reads (ElectionPublicKey.reads P) h, raw_trip (ElectionPublicKey.trip (raw_reads (ElectionPublicKey.reads P) h))⟩,
    fun _ h => ⟨raw_reads (Backup.reads P) h, raw_trip (Backup.trip (raw_reads (Backup.reads P) h))⟩,
    fun _ h => ⟨raw_reads (PrivateGuardianRecord.reads P) h,
      raw_trip (PrivateGuardianRecord.trip (raw_reads (PrivateGuardianRecord.reads P) h))⟩⟩

/-- C80 The same for the files of a record. -/
theorem C80_record (P : Params) (hp : 1 < P.p) (raw : List Char) :
    (∀ c, fromRaw (ContextFile.ofJson P) raw = .ok c → c.context.Typed P ∧
      fromRaw (ContextFile.ofJson P) (toRaw ContextFile.toJson c) = .ok c) ∧
    (∀ g, fromRaw (GuardianRecord.ofJson P) raw = .ok g → g.Typed P ∧
      fromRaw (GuardianRecord.ofJson P) (toRaw GuardianRecord.toJson g) = .ok g) ∧
    (∀ t, fromRaw (PublishedTally.ofJson P) raw = .ok t → t.Typed P ∧
      fromRaw (PublishedTally.ofJson P) (toRaw PublishedTally.toJson t) = .ok t) ∧
    (∀ t, fromRaw (PlaintextTally.ofJson P) raw = .ok t → t.Typed P ∧
      fromRaw (PlaintextTally.ofJson P) (toRaw PlaintextTally.toJson t) = .ok t) ∧
    (∀ d, fromRaw (lagrangeOf P) raw = .ok d → (Keys d ∧ ∀ e ∈ d, e.2 < P.q) ∧
      fromRaw (lagrangeOf P) (toRaw lagrangeJson d) = .ok d) ∧
    ∀ m, fromRaw Manifest.ofJson raw = .ok m → m.Typed ∧ fromRaw Manifest.ofJson (toRaw Manifest.toJson m) = .ok m := by
  refine ⟨fun _ h => ?_, fun _ h => ⟨raw_reads (GuardianRecord.reads P) h, raw_trip (GuardianRecord.trip (raw_reads (GuardianRecord.reads P) h))⟩,
    fun _ h => ⟨raw_reads (PublishedTally.reads P hp) h, raw_trip (PublishedTally.trip (raw_reads (PublishedTally.reads P hp) h))⟩,
    fun _ h => ⟨raw_reads (PlaintextTally.reads P) h, raw_trip (PlaintextTally.trip (raw_reads (PlaintextTally.reads P) h))⟩,
    fun _ h => ⟨raw_reads (lagrange_reads P) h, raw_trip (lagrange_trip (raw_reads (lagrange_reads P) h).1 (raw_reads (lagrange_reads P) h).2)⟩,
    fun m h => ?_⟩
  · have := raw_reads (ContextFile.reads P) h
    exact ⟨this.1, raw_trip (ContextFile.trip this.1 this.2)⟩
  · have hm := raw_reads Manifest.typed h
    obtain ⟨m', h1, -, -, h2⟩ := C79_manifest_partial m hm.1
    rw [h2 hm.2] at h1
    exact ⟨hm.1, h1⟩

/-- C80 A ballot is read from an object that has each of its fields without a default; what other members the object has, and in which
order, does not matter. -/
theorem C80_fields (P : Params) (o o' : List (String × Json)) :
    (∀ b, SBallot.ofJson P (.obj o) = .ok b → ∀ k ∈ ["object_id", "style_id", "manifest_hash", "code_seed", "contests", "code",
      "timestamp", "crypto_hash", "state"], k ∈ o.map (·.1)) ∧
    ((∀ k ∈ ["object_id", "style_id", "manifest_hash", "code_seed", "contests", "code", "timestamp", "crypto_hash", "nonce", "state"],
      dget o k = dget o' k) → SBallot.ofJson P (.obj o) = SBallot.ofJson P (.obj o')) :=
  ⟨fun _ h => ballot_needs h, ballot_same P⟩

/-! ### Examples -/

/-- A spoiled ballot whose id has a quote and a letter that is not ASCII. -/
def writtenBallot : SBallot :=
  ⟨⟨"é\"x", "t", 1, 12, [⟨"c", 1, 2, [⟨"s", 1, 3, ⟨16, 156⟩, 4, false, none, some ⟨1, 2, 3, 4, 5, 6, 7, 8, 9⟩⟩], ⟨16, 156⟩, 5, none,
    some ⟨1, 2, 3, 4, 1⟩, some ⟨7, "0A".toList, "FF".toList⟩⟩], 9, 17, 11, none⟩, .spoiled⟩

/-- It is written and read back; the start of the text and the text of its id. -/
example : writtenBallot.toCBallot.Typed extraSmall ∧ parseSubmitted extraSmall (toRaw SBallot.toJson writtenBallot) = some writtenBallot ∧
    (toRaw SBallot.toJson writtenBallot).take 37 = "{\"object_id\": \"\\u00e9\\\"x\", \"style_id\"".toList := by
  refine ⟨?_, by decide +kernel, by decide +kernel⟩
  simp [writtenBallot, CBallot.Typed, CContest.Typed, CSelection.Typed, Ciphertext.Typed, DisjProof.Typed, ConstProof.Typed,
    HashedCiphertext.Typed, extraSmall]

/-- Every ballot of the toy election, for instance. -/
example (b : PlaintextBallot) (seed nonce : Nat) (hs : seed < 13) (hn : nonce < 13) (now : Int) (c : CBallot)
    (h : encryptBallot toyEnv contestDataJson b toyIM toyCtx seed nonce now false = .ok (some c)) :
    parseSubmitted extraSmall (toRaw SBallot.toJson (submitBallot toyEnv c .cast)) = some (submitBallot toyEnv c .cast) :=
  (C79_encrypted (E := toyEnv) extraSmall_valid contestDataJson b toyIM toyCtx seed nonce now false c (by decide +kernel) hs hn h).2 .cast

/-- Other members and their order do not matter, the last of two members with the same name counts, a number may be given in decimal,
an element that is too large is refused, so is a member that is missing. -/
example :
    fromRaw (Ciphertext.ofJson extraSmall) "{\"pad\": \"10\", \"data\": \"9C\"}".toList = .ok ⟨16, 156⟩ ∧
    fromRaw (Ciphertext.ofJson extraSmall) "{ \"x\" : [1, null],\n \"data\": 156, \"pad\": \"FF\", \"pad\": \"0a\" }".toList = .ok ⟨10, 156⟩ ∧
    fromRaw (Ciphertext.ofJson extraSmall) "{\"pad\": \"10\", \"data\": \"9D\"}".toList = .error .overflow ∧
    fromRaw (Ciphertext.ofJson extraSmall) "{\"pad\": \"10\", \"data\": -1}".toList = .error .overflow ∧
    fromRaw (Ciphertext.ofJson extraSmall) "{\"pad\": \"10\"}".toList = .error .key ∧
    fromRaw (Ciphertext.ofJson extraSmall) "[]".toList = .error .type := by
  decide +kernel

/-- The contest data of an overvote with a write-in is padded and read back. -/
example : (ContestData.mk (some .overVote) (some ["sx", "sy"]) (some [("sz", "Zoë")])).toBytes contestDataJson ≠ .error .truncation ∧
    ((ContestData.mk (some .overVote) (some ["sx", "sy"]) (some [("sz", "Zoë")])).toBytes contestDataJson >>=
      paddedDecode ContestData.ofJson) = .ok ⟨some .overVote, some ["sx", "sy"], some [("sz", "Zoë")]⟩ := by
  decide +kernel

end EG
