import Verif.Lemmas.HashedElGamal
import Verif.Lemmas.ChaumPedersen
import Verif.Spec.Toy

/-!
# C18 and C19: hashed ElGamal
-/

namespace EG

/-- The HMAC function returns 32 bytes, as HMAC-SHA-256 does. -/
def HmacLen (E : Env) : Prop := ∀ k m, (E.hmac k m).length = 32

/-- What encryption computes, in closed form. -/
theorem hashedEncrypt_spec (E : Env) (hlen : HmacLen E) (m : Bytes) (r K seed : Nat)
    (hsmall : m.length < 2 ^ 29 - 31) :
    ∃ bs : List Bytes, (∀ b ∈ bs, b.length = 32) ∧ bs.length = nBlocks m ∧ bs.flatten = padBlocks m ∧
      let L := 32 * nBlocks m * 8
      let sk := toHexBytes (hashElems E [.elem (gPowP E.P r), .elem (powP E.P K r)])
      let data := (xorAll (fun j => E.hmac sk (fixed (toHexBytes seed) L j)) bs 0).flatten
      data.length = 32 * nBlocks m ∧ L < 256 ^ 4 ∧ nBlocks m < 256 ^ 4 ∧
      hashedEncrypt E m r K seed = .ok ⟨gPowP E.P r, bytesToHex data,
        bytesToHex (E.hmac (E.hmac sk (fixed (toHexBytes seed) L 0)) (toHexBytes (gPowP E.P r) ++ data))⟩ := by
  obtain ⟨bs, h1, h2, h3, h4⟩ := getChunks_spec m
  have hn : nBlocks m < 2 ^ 24 := by
    simp only [nBlocks]; omega
  have hL : 32 * nBlocks m * 8 < 256 ^ 4 := by norm_num at hn ⊢; omega
  have hN : nBlocks m < 256 ^ 4 := by norm_num at hn ⊢; omega
  refine ⟨bs, h1, h2, h3, ?_⟩
  intro L sk data
  refine ⟨?_, hL, hN, ?_⟩
  · rw [flatten_length_32 (xorAll_mem_length (fun j => hlen _ _) h1 0), xorAll_length, h2]
  · simp only [hashedEncrypt, h4]
    rw [xorLoop_ok E _ _ hL bs 0 (by rw [h2]; omega), getHmac_some E _ _ hL (by norm_num)]
    simp [bind, Except.bind, pure, Except.pure, getHmac_none, data, sk, L]

/-- pad^secret and key^nonce coincide -/
theorem shared_secret {P : Params} (r s : Nat) : powP P (gPowP P r) s = powP P (gPowP P s) r := by
  simp only [gPowP, powP]
  rw [← Nat.pow_mod, ← Nat.pow_mod, ← pow_mul, ← pow_mul, mul_comm]

theorem decrypt_of_bytes (E : Env) (hlen : HmacLen E) (m : Bytes) (r s seed : Nat)
    (hsmall : m.length < 2 ^ 29 - 31) (c : HashedCiphertext)
    (hc : hashedEncrypt E m r (gPowP E.P s) seed = .ok c)
    (hdata : ∀ data : Bytes, data.length = 32 * nBlocks m → c.data = bytesToHex data →
      toPaddedBytes c.data = .ok data) :
    c.decrypt E s seed = .ok (some (zeroExtend (32 * nBlocks m) m)) := by
  obtain ⟨bs, h1, h2, h3, h4⟩ := hashedEncrypt_spec E hlen m r (gPowP E.P s) seed hsmall
  simp only at h4
  obtain ⟨h4, h5, hN, h6⟩ := h4
  rw [h6] at hc
  set L := 32 * nBlocks m * 8 with hL
  set sk := toHexBytes (hashElems E [.elem (gPowP E.P r), .elem (powP E.P (gPowP E.P s) r)]) with hsk
  set key := fun j => E.hmac sk (fixed (toHexBytes seed) L j) with hkey
  have hkeyl : ∀ j, (key j).length = 32 := fun j => hlen _ _
  have hblocks := xorAll_mem_length hkeyl h1 0
  set data := (xorAll key bs 0).flatten with hdat
  cases hc
  have hpad := hdata data h4 rfl
  have hch := getChunks_flatten hblocks
  rw [xorAll_length, h2, ← hdat] at hch
  have hss := shared_secret (P := E.P) r s
  simp only [HashedCiphertext.decrypt, hpad, bind, Except.bind, pure, Except.pure, hss, ← hsk, hch]
  rw [← hL, getHmac_some E _ _ h5 (by norm_num)]
  simp only [getHmac_none, ne_eq, not_true, if_false]
  rw [xorLoop_ok E _ _ h5 _ 0 (by rw [xorAll_length, h2]; omega)]
  simp only []
  rw [show (fun j => E.hmac sk (fixed (toHexBytes seed) L j)) = key from rfl, xorAll_cancel hkeyl h1, h3,
    padBlocks_eq]

/-! ### C18 -/

/-- C18 Round trip for messages of 481 to 512 bytes (in particular for every message padded to the block
size 512): decrypting with the secret key returns the message, zero-padded to 512 bytes.
Missing from the full claim: shorter messages (`C18_short_message_fails`) and longer ones, see
`C18_long_roundtrip_partial`. -/
theorem C18_roundtrip_partial (E : Env) (hlen : HmacLen E) (m : Bytes) (r s seed : Nat)
    (h1 : 480 < m.length) (h2 : m.length ≤ 512) :
    ∃ c, hashedEncrypt E m r (gPowP E.P s) seed = .ok c ∧
      c.decrypt E s seed = .ok (some (zeroExtend 512 m)) := by
  obtain ⟨bs, _, _, _, h4⟩ := hashedEncrypt_spec E hlen m r (gPowP E.P s) seed (by norm_num; omega)
  simp only at h4
  have hn : nBlocks m = 16 := by simp only [nBlocks]; omega
  refine ⟨_, h4.2.2.2, ?_⟩
  have := decrypt_of_bytes E hlen m r s seed (by norm_num; omega) _ h4.2.2.2 (by
    intro data hl hd
    rw [hn] at hl
    rw [hd]
    exact toPaddedBytes_bytesToHex (by norm_num) hl)
  rwa [show zeroExtend (32 * nBlocks m) m = zeroExtend 512 m by rw [hn]] at this

/-- C18 Round trip for messages longer than 512 bytes (up to the length that HMAC accepts), provided the
encrypted data does not start with a zero byte, i.e. its text has full length. -/
theorem C18_long_roundtrip_partial (E : Env) (hlen : HmacLen E) (m : Bytes) (r s seed : Nat)
    (h1 : 512 < m.length) (h2 : m.length < 2 ^ 29 - 31) :
    ∃ c, hashedEncrypt E m r (gPowP E.P s) seed = .ok c ∧
      (c.data.length = 2 * (32 * nBlocks m) →
        c.decrypt E s seed = .ok (some (zeroExtend (32 * nBlocks m) m))) := by
  obtain ⟨bs, _, _, _, h4⟩ := hashedEncrypt_spec E hlen m r (gPowP E.P s) seed h2
  simp only at h4
  have hn : 512 < 32 * nBlocks m := by simp only [nBlocks]; omega
  refine ⟨_, h4.2.2.2, ?_⟩
  intro hfull
  refine decrypt_of_bytes E hlen m r s seed h2 _ h4.2.2.2 ?_
  intro data hl hd
  rw [hd] at hfull ⊢
  have hb : (natBytes (intOfBytes data)).length = 32 * nBlocks m := by
    have : (bytesToHex data).length = 2 * (natBytes (intOfBytes data)).length := by
      rw [bytesToHex, toHex_eq_pairs]
      induction natBytes (intOfBytes data) with
      | nil => rfl
      | cons b l ih => simp only [List.flatMap_cons, List.length_append, ih, hexPair, List.length_cons,
          List.length_nil]; omega
    omega
  simp only [toPaddedBytes, bytesToHex, fromHex_toHex]
  rw [if_pos (by omega)]
  congr 1
  exact intOfBytes_inj (by omega) (intOfBytes_natBytes _)

/-- C18 (negative) A message of one block is not recovered: decryption pads the data to 512 bytes, derives
other keys and reports a MAC failure. -/
theorem C18_short_message_fails :
    ∃ c, hashedEncrypt toyEnv [1, 2, 3] 5 (gPowP extraSmall 3) 9 = .ok c ∧
      c.decrypt toyEnv 3 9 = .ok none :=
  ⟨_, rfl, by decide +kernel⟩

/-- C18 Encryption raises for messages of 2^29 bytes or more. -/
theorem C18_huge_message_raises (E : Env) (m : Bytes) (r K seed : Nat) (h : 2 ^ 29 ≤ m.length) :
    hashedEncrypt E m r K seed = .error .overflow := by
  obtain ⟨bs, h1, h2, h3, h4⟩ := getChunks_spec m
  have hn : 2 ^ 24 ≤ nBlocks m := by simp only [nBlocks]; omega
  have hL : 256 ^ 4 ≤ 32 * nBlocks m * 8 := by norm_num at hn ⊢; omega
  simp only [hashedEncrypt, h4]
  cases bs with
  | nil => simp at h2; omega
  | cons b bs =>
    rw [xorLoop, getHmac_overflow E _ _ hL (by norm_num)]
    rfl

/-! ### C19 -/

/-- The MAC key for a pad and `n` data bytes. -/
def macKey (E : Env) (secret seed pad n : Nat) : Bytes :=
  let sessionKey := toHexBytes (hashElems E [.elem pad, .elem (pad ^ secret % E.P.p)])
  let L := 8 * (32 * ((n + 31) / 32))
  E.hmac sessionKey (if L = 0 then toHexBytes seed else leBytes 4 0 ++ toHexBytes seed ++ leBytes 4 L)

/-- The MAC a ciphertext with this pad and these data bytes must carry. -/
def expectedMac (E : Env) (secret seed pad : Nat) (dataBytes : Bytes) : List Char :=
  bytesToHex (E.hmac (macKey E secret seed pad dataBytes.length) (toHexBytes pad ++ dataBytes))

theorem decrypt_mac (E : Env) (c : HashedCiphertext) (secret seed : Nat) (d : Bytes)
    (hd : toPaddedBytes c.data = .ok d) (hsmall : d.length < 2 ^ 29 - 31) :
    (expectedMac E secret seed c.pad d = c.mac ∧ ∃ m, c.decrypt E secret seed = .ok (some m)) ∨
    (expectedMac E secret seed c.pad d ≠ c.mac ∧ c.decrypt E secret seed = .ok none) := by
  obtain ⟨bs, h1, h2, h3, h4⟩ := getChunks_spec d
  have hn : nBlocks d < 2 ^ 24 := by simp only [nBlocks]; omega
  have hL : 32 * nBlocks d * 8 < 256 ^ 4 := by norm_num at hn ⊢; omega
  have hN : nBlocks d < 256 ^ 4 := by norm_num at hn ⊢; omega
  have e : expectedMac E secret seed c.pad d
      = bytesToHex (E.hmac (E.hmac (toHexBytes (hashElems E [.elem c.pad, .elem (powP E.P c.pad secret)]))
          (fixed (toHexBytes seed) (32 * nBlocks d * 8) 0)) (toHexBytes c.pad ++ d)) := by
    have e8 : 8 * (32 * ((d.length + 31) / 32)) = 32 * nBlocks d * 8 := Nat.mul_comm _ _
    unfold expectedMac macKey fixed powP
    rw [e8]
  simp only [HashedCiphertext.decrypt, hd, bind, Except.bind, pure, Except.pure, h4]
  rw [getHmac_some E _ _ hL (by norm_num)]
  simp only [getHmac_none]
  rw [← e]
  by_cases hm : expectedMac E secret seed c.pad d = c.mac
  · left
    refine ⟨hm, ?_⟩
    rw [if_neg (by simpa using hm), xorLoop_ok E _ _ hL _ 0 (by rw [h2]; omega)]
    exact ⟨_, rfl⟩
  · right
    refine ⟨hm, ?_⟩
    rw [if_pos hm]

/-- C19 Bytes are returned exactly when the ciphertext carries the MAC of its pad and data; otherwise the
result is `None`. -/
theorem C19_returns_iff_mac (E : Env) (c : HashedCiphertext) (secret seed : Nat) (d : Bytes)
    (hd : toPaddedBytes c.data = .ok d) (hsmall : d.length < 2 ^ 29 - 31) :
    ((∃ m, c.decrypt E secret seed = .ok (some m)) ↔ c.mac = expectedMac E secret seed c.pad d) ∧
    (c.mac ≠ expectedMac E secret seed c.pad d → c.decrypt E secret seed = .ok none) := by
  rcases decrypt_mac E c secret seed d hd hsmall with ⟨h1, h2⟩ | ⟨h1, h2⟩
  · exact ⟨⟨fun _ => h1.symm, fun _ => h2⟩, fun h => absurd h1.symm h⟩
  · refine ⟨⟨?_, fun h => absurd h.symm h1⟩, fun _ => h2⟩
    rintro ⟨m, hm⟩
    rw [h2] at hm; cases hm

/-- C19 Data that is not hexadecimal text raises `ValueError`, nothing is returned. -/
theorem C19_malformed_raises (E : Env) (c : HashedCiphertext) (secret seed : Nat)
    (h : fromHex c.data = none) : c.decrypt E secret seed = .error .value := by
  simp [HashedCiphertext.decrypt, toPaddedBytes, h, bind, Except.bind]

/-- C19 Tampering with the data: if two ciphertexts with the same pad and MAC and the same data length are both
accepted, their data bytes are equal or the two authenticated texts collide under the MAC key. -/
theorem C19_tampered_data (E : Env) (hlen : HmacLen E) (c c' : HashedCiphertext) (secret seed : Nat)
    (d d' m m' : Bytes) (hd : toPaddedBytes c.data = .ok d) (hd' : toPaddedBytes c'.data = .ok d')
    (hsmall : d.length < 2 ^ 29 - 31) (hl : d.length = d'.length)
    (hpad : c.pad = c'.pad) (hmac : c.mac = c'.mac)
    (hm : c.decrypt E secret seed = .ok (some m)) (hm' : c'.decrypt E secret seed = .ok (some m')) :
    d = d' ∨ (toHexBytes c.pad ++ d ≠ toHexBytes c.pad ++ d' ∧
      E.hmac (macKey E secret seed c.pad d.length) (toHexBytes c.pad ++ d)
        = E.hmac (macKey E secret seed c.pad d.length) (toHexBytes c.pad ++ d')) := by
  by_cases hdd : d = d'
  · exact .inl hdd
  · right
    have h1 := (C19_returns_iff_mac E c secret seed d hd hsmall).1.1 ⟨m, hm⟩
    have h2 := (C19_returns_iff_mac E c' secret seed d' hd' (by omega)).1.1 ⟨m', hm'⟩
    rw [hmac, h2, ← hpad] at h1
    simp only [expectedMac, ← hl, bytesToHex] at h1
    exact ⟨fun h => hdd (List.append_cancel_left h), (intOfBytes_inj (by rw [hlen, hlen]) (toHex_inj h1)).symm⟩

example : HmacLen toyEnv := by
  intro k m; simp [toyEnv]

-- a message of 500 bytes meets the hypotheses of the round trip
example : 480 < (List.replicate 500 (7 : UInt8)).length ∧ (List.replicate 500 (7 : UInt8)).length ≤ 512 := by
  rw [List.length_replicate]; omega

end EG
