import Verif.Props.HashedElGamal

/-!
# C18 exactly

For which messages decryption gives the message back, with no condition on the length except the one under which encryption works.
-/

namespace EG

theorem bytesToHex_length (data : Bytes) : (bytesToHex data).length = 2 * (natBytes (intOfBytes data)).length := by
  rw [bytesToHex, toHex_eq_pairs]
  induction natBytes (intOfBytes data) with
  | nil => rfl
  | cons b bs ih => simp [List.flatMap_cons, ih, hexPair]; omega

/-- What decryption reads: the same number, as at least 512 bytes. -/
theorem toPadded_of_hex (data : Bytes) : ∃ d, toPaddedBytes (bytesToHex data) = .ok d ∧ intOfBytes d = intOfBytes data ∧
    d.length = max 512 (natBytes (intOfBytes data)).length := by
  unfold toPaddedBytes
  rw [show fromHex (bytesToHex data) = some (natBytes (intOfBytes data)) from fromHex_toHex _]
  dsimp only
  split
  · exact ⟨_, rfl, intOfBytes_natBytes _, by omega⟩
  · refine ⟨_, rfl, ?_, ?_⟩
    · rw [intOfBytes_append, intOfBytes_replicate_zero, intOfBytes_natBytes]; simp
    · rw [List.length_append, List.length_replicate]; omega

/-- C18 Exactly which messages come back.  `data` are the encrypted bytes, `d` what decryption reads of them.  The message comes back (zero
padded to whole blocks) when `d` is `data`: for messages of 481 to 512 bytes, and longer ones whose encrypted bytes do not start with a
zero.  In all other cases decryption answers `None`, unless the MACs of the two different texts happen to be the same. -/
theorem C18_exactly (E : Env) (hlen : HmacLen E) (m : Bytes) (r s seed : Nat) (hsmall : m.length < 2 ^ 29 - 31) :
    ∃ c data d, hashedEncrypt E m r (gPowP E.P s) seed = .ok c ∧ c.data = bytesToHex data ∧ data.length = 32 * nBlocks m ∧
      toPaddedBytes c.data = .ok d ∧
      (d = data ↔ 480 < m.length ∧ (m.length ≤ 512 ∨ c.data.length = 2 * data.length)) ∧
      (d = data → c.decrypt E s seed = .ok (some (zeroExtend (32 * nBlocks m) m))) ∧
      (d ≠ data → c.decrypt E s seed = .ok none ∨
        E.hmac (macKey E s seed c.pad d.length) (toHexBytes c.pad ++ d)
          = E.hmac (macKey E s seed c.pad data.length) (toHexBytes c.pad ++ data)) := by
  obtain ⟨bs, -, -, -, h4⟩ := hashedEncrypt_spec E hlen m r (gPowP E.P s) seed hsmall
  dsimp only at h4
  obtain ⟨hl, hL, -, henc⟩ := h4
  generalize (xorAll _ bs 0).flatten = data at hl henc
  obtain ⟨d, hd, hint, hdl⟩ := toPadded_of_hex data
  have hN := bytesToHex_length data
  have hnb : 32 * nBlocks m = 32 * ((m.length + 31) / 32) := rfl
  have hle : 0 < data.length → (natBytes (intOfBytes data)).length ≤ data.length := fun h => natBytes_length_le h (intOfBytes_lt data)
  have heq : d = data ↔ d.length = data.length := ⟨fun h => by rw [h], fun h => intOfBytes_inj h hint⟩
  refine ⟨_, data, d, henc, rfl, hl, hd, ?_, ?_, ?_⟩
  · rw [heq]
    show _ ↔ 480 < m.length ∧ (m.length ≤ 512 ∨ (bytesToHex data).length = _)
    rw [hN]
    constructor
    · intro h
      have h0 : 0 < data.length := by omega
      have := hle h0
      omega
    · rintro ⟨h1, h2⟩
      have := hle (by omega)
      omega
  · intro h
    refine decrypt_of_bytes E hlen m r s seed hsmall _ henc (fun data' hl' hd' => ?_)
    have hdd : data' = data := intOfBytes_inj (by omega) (toHex_inj (by simpa [bytesToHex] using hd'.symm))
    rw [hdd]
    exact hd.trans (by rw [h])
  · intro h
    have hdsmall : d.length < 2 ^ 29 - 31 := by
      by_cases h0 : 0 < data.length
      · have := hle h0
        have h8 : data.length < 2 ^ 29 - 31 ∨ 2 ^ 29 - 31 ≤ data.length := by omega
        have : (256 : Nat) ^ 4 = 2 ^ 32 := by norm_num
        have h9 : data.length * 8 < 2 ^ 32 := by rw [← this]; omega
        have h10 : data.length % 32 = 0 := by omega
        omega
      · have h0 : data = [] := by cases data with | nil => rfl | cons => simp at h0
        subst h0
        have : (natBytes (intOfBytes [])).length ≤ 1 := natBytes_length_le (by norm_num) (by simp [intOfBytes])
        omega
    rcases decrypt_mac E ⟨gPowP E.P r, bytesToHex data,
      bytesToHex (E.hmac (E.hmac (toHexBytes (hashElems E [.elem (gPowP E.P r), .elem (powP E.P (gPowP E.P s) r)]))
        (fixed (toHexBytes seed) (32 * nBlocks m * 8) 0)) (toHexBytes (gPowP E.P r) ++ data))⟩ s seed d hd hdsmall with ⟨h1, -⟩ | ⟨-, h2⟩
    · right
      have hdata : expectedMac E s seed (gPowP E.P r) data
          = bytesToHex (E.hmac (E.hmac (toHexBytes (hashElems E [.elem (gPowP E.P r), .elem (powP E.P (gPowP E.P s) r)]))
            (fixed (toHexBytes seed) (32 * nBlocks m * 8) 0)) (toHexBytes (gPowP E.P r) ++ data)) := by
        have e8 : 8 * (32 * ((data.length + 31) / 32)) = 32 * nBlocks m * 8 := by omega
        unfold expectedMac macKey fixed
        rw [e8, ← shared_secret]
        rfl
      dsimp only at h1
      rw [← hdata] at h1
      simp only [expectedMac, bytesToHex] at h1
      exact intOfBytes_inj (by rw [hlen, hlen]) (toHex_inj h1)
    · exact .inl h2

-- the short message of `C18_short_message_fails` is in the second case, a message of 500 bytes in the first
example : ¬ (480 < ([1, 2, 3] : Bytes).length) := by decide
example : 480 < (List.replicate 500 (7 : UInt8)).length ∧ ((List.replicate 500 (7 : UInt8)).length ≤ 512 ∨ False) := by
  rw [List.length_replicate]; omega

end EG
