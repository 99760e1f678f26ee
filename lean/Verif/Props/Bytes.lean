import Verif.Lemmas.Hex
import Verif.Spec.Bytes
import Verif.Spec.Group

/-!
# C20 and C23: byte padding and the hexadecimal codec
-/

namespace EG

/-! ### C20 -/

theorem toBytesBE_two {n : Nat} (h : n < 65536) :
    ∃ a b : UInt8, toBytesBE 2 (n : Int) = .ok [a, b] ∧ intOfBytes [a, b] = n := by
  refine ⟨UInt8.ofNat (n / 256 % 256), UInt8.ofNat (n % 256), ?_, ?_⟩
  · simp only [toBytesBE, toBytesLE, Int.toNat_natCast]
    rw [if_neg (by push_cast; omega)]
    rfl
  · rw [intOfBytes_cons, intOfBytes_singleton]
    simp
    omega

theorem addPadding_core {size : Nat} (m : Bytes) (k : Nat) (hk : k ≤ m.length)
    (hfit : k + 2 ≤ size) (hsmall : size - 2 - k < 65536) (a b : UInt8)
    (hab : intOfBytes [a, b] = size - 2 - k) :
    removePadding ([a, b] ++ pySlice m 0 k ++ List.replicate (size - 2 - k) 0) size = m.take k ∧
    ([a, b] ++ pySlice m 0 (k : Int) ++ List.replicate (size - 2 - k) 0).length = size := by
  have hs : pySlice m 0 (k : Int) = m.take k := by
    simp only [pySlice, pyBound]
    rw [if_neg (by omega), if_neg (by omega)]
    simp [Nat.min_eq_left hk]
  rw [hs]
  have hl : (m.take k).length = k := by simp [hk]
  have hlen : ([a, b] ++ m.take k ++ List.replicate (size - 2 - k) (0 : UInt8)).length = size := by
    simp only [List.length_append, hl, List.length_replicate, List.length_cons, List.length_nil]; omega
  refine ⟨?_, hlen⟩
  have h2 : pySlice ([a, b] ++ m.take k ++ List.replicate (size - 2 - k) 0) 0 2 = [a, b] := by
    simp only [pySlice, pyBound, hlen]
    rw [if_neg (by omega), if_neg (by omega)]
    rw [show min (Int.toNat 2) size = 2 by simp; omega]
    simp
  simp only [removePadding, h2, hab]
  simp only [pySlice, pyBound, hlen]
  rw [if_neg (by omega), if_neg (by omega)]
  rw [show min (Int.toNat 2) size = 2 by simp; omega,
    show min ((size : Int) - ((size - 2 - k : Nat) : Int)).toNat size = k + 2 by omega]
  rw [List.append_assoc, List.take_append, List.drop_append]
  simp only [List.length_cons, List.length_nil]
  have : List.take (k + 2) [a, b] = [a, b] := by simp
  rw [this]
  simp [hl]

/-- C20 Round trip: a message that fits is padded to exactly the block size and is recovered. -/
theorem C20_roundtrip (m : Bytes) (size : Nat) (tr : Bool) (hfit : m.length + 2 ≤ size)
    (hsmall : size - 2 - m.length < 65536) :
    ∃ p, addPadding m size tr = .ok p ∧ p.length = size ∧ removePadding p size = m := by
  obtain ⟨a, b, h1, h2⟩ := toBytesBE_two hsmall
  have := addPadding_core m m.length le_rfl hfit hsmall a b h2
  refine ⟨_, ?_, this.2, by rw [this.1, List.take_length]⟩
  simp only [addPadding]
  rw [if_neg (by omega)]
  have e : (size : Int) - 2 - (m.length : Int) = ((size - 2 - m.length : Nat) : Int) := by omega
  rw [e, h1]
  rfl

/-- C20 A message that does not fit raises `TruncationError` when truncation is not allowed. -/
theorem C20_too_long_raises (m : Bytes) (size : Nat) (h : size < m.length + 2) :
    addPadding m size false = .error .truncation := by
  simp only [addPadding]
  rw [if_pos (by omega)]
  rfl

/-- C20 With truncation allowed, a message that does not fit is cut to the longest prefix that does. -/
theorem C20_truncates (m : Bytes) (size : Nat) (hsize : 2 ≤ size) (h : size < m.length + 2) :
    ∃ p, addPadding m size true = .ok p ∧ p.length = size ∧
      removePadding p size = m.take (size - 2) := by
  have h0 : size - 2 - (size - 2) < 65536 := by omega
  obtain ⟨a, b, h1, h2⟩ := toBytesBE_two h0
  have := addPadding_core m (size - 2) (by omega) (by omega) h0 a b h2
  refine ⟨_, ?_, this.2, this.1⟩
  simp only [addPadding]
  rw [if_pos (by omega), if_pos trivial]
  have e : (size : Int) - 2 - ((size : Int) - 2) = ((size - 2 - (size - 2) : Nat) : Int) := by omega
  have e2 : (size : Int) - 2 = ((size - 2 : Nat) : Int) := by omega
  rw [e, h1, e2]
  rfl

/-- C20 The remaining case: the padding length does not fit in its two-byte indicator, and the call raises
`OverflowError` (only for block sizes above 65537). -/
theorem C20_padding_too_large_raises (m : Bytes) (size : Nat) (tr : Bool)
    (h : m.length + 2 + 65536 ≤ size) : addPadding m size tr = .error .overflow := by
  simp only [addPadding]
  rw [if_neg (by omega)]
  simp only [toBytesBE, toBytesLE, bind, Except.bind]
  rw [if_pos (by right; omega)]
  rfl

example : addPadding [1, 2, 3] 8 false = .ok [0, 3, 1, 2, 3, 0, 0, 0] := by decide
example : removePadding [0, 3, 1, 2, 3, 0, 0, 0] 8 = [1, 2, 3] := by decide
example : (addPadding [1, 2, 3] 4 true).map (removePadding · 4) = .ok [1, 2] := by decide

/-! ### C23 -/

/-- C23 `hex_to_q` of the text of a number gives the number if it is below `q` and `None` otherwise. -/
theorem C23_roundtrip_q (P : Params) (n : Nat) :
    hexToQ P (toHex n) = .ok (if n < P.q then some n else none) := by
  simp only [hexToQ, hexToInt_toHex, bind, Except.bind, pure, Except.pure, mkQ]
  by_cases h : n < P.q
  · rw [if_pos (by omega), if_pos h]; simp
  · rw [if_neg (by omega), if_neg h]

/-- C23 The same for `hex_to_p`. -/
theorem C23_roundtrip_p (P : Params) (n : Nat) :
    hexToP P (toHex n) = .ok (if n < P.p then some n else none) := by
  simp only [hexToP, hexToInt_toHex, bind, Except.bind, pure, Except.pure, mkP]
  by_cases h : n < P.p
  · rw [if_pos (by omega), if_pos h]; simp
  · rw [if_neg (by omega), if_neg h]

/-- C23 The text of a number has even, positive length and consists of upper-case hexadecimal digits. -/
theorem C23_text_shape (n : Nat) :
    (toHex n).length % 2 = 0 ∧ toHex n ≠ [] ∧ ∀ c ∈ toHex n, c ∈ "0123456789ABCDEF".toList := by
  refine ⟨toHex_even n, toHex_ne_nil n, ?_⟩
  intro c hc
  obtain ⟨d, hd, rfl⟩ := toHex_chars n c hc
  clear hc; revert d; decide

/-- C23 Different numbers have different texts. -/
theorem C23_text_injective (m n : Nat) (h : toHex m = toHex n) : m = n := toHex_inj h

/-- C23 The bytes of an element, read as a big-endian integer, give the element. -/
theorem C23_bytes_roundtrip (n : Nat) : intOfBytes (toHexBytes n) = n := by
  rw [toHexBytes_eq, intOfBytes_natBytes]

/-- C23 Reading back the text of a byte string loses exactly its leading zero bytes: padding to the original
size restores it. -/
theorem C23_padded_bytes_roundtrip (bs : Bytes) (size : Nat) (hs : 0 < size) (h : bs.length = size) :
    toPaddedBytes (bytesToHex bs) size = .ok bs := toPaddedBytes_bytesToHex hs h

theorem textValue_none (s : List Char) : s.foldl textStep none = none := by
  induction s with
  | nil => rfl
  | cons c s ih => rw [List.foldl_cons]; exact ih

/-- `fromHex` on an even number of characters without white space computes the digits' value -/
theorem fromHex_value (k : Nat) : ∀ (s : List Char), s.length = 2 * k → (∀ c ∈ s, isHexSpace c = false) →
    ∀ acc : Nat, s.foldl textStep (some acc)
      = (fromHex s).map (fun bs => acc * 256 ^ bs.length + intOfBytes bs) := by
  induction k with
  | zero =>
    intro s hs _ acc
    have : s = [] := List.length_eq_zero_iff.1 (by omega)
    subst this
    simp [fromHex, intOfBytes]
  | succ k ih =>
    intro s hs hns acc
    match s, hs with
    | c :: d :: s, hs =>
      simp only [List.length_cons] at hs
      have hc := hns c (by simp)
      have ih' := ih s (by omega) (fun x hx => hns x (by simp [hx]))
      rw [fromHex, hc]
      simp only [Bool.false_eq_true, if_false, List.foldl_cons]
      cases hx : hexVal c with
      | none => simp [textStep, hx, textValue_none]
      | some x =>
        cases hy : hexVal d with
        | none => simp [textStep, hx, hy, textValue_none]
        | some y =>
          have h1 : textStep (textStep (some acc) c) d = some (acc * 256 + (16 * x + y)) := by
            simp only [textStep, hx, hy]; congr 1; ring
          rw [h1, ih' (acc * 256 + (16 * x + y))]
          cases hf : fromHex s with
          | none => simp
          | some bs =>
            have hxlt : x < 16 := by
              revert hx; unfold hexVal; split <;> simp <;> omega
            have hylt : y < 16 := by
              revert hy; unfold hexVal; split <;> simp <;> omega
            simp only [Option.map_some, Option.some.injEq, List.length_cons]
            rw [intOfBytes_cons, show (UInt8.ofNat (16 * x + y)).toNat = 16 * x + y by
              simp; omega, pow_succ]
            ring

/-- C23 What any text without white space is parsed to: its digits' value, except that a text of odd length
not starting with `0`, and a text with a non-digit, raise `ValueError`. -/
theorem C23_parse (s : List Char) (hns : ∀ c ∈ s, isHexSpace c = false) :
    hexToInt s = if s.length % 2 = 1 ∧ s.head? ≠ some '0' then .error .value
      else match textValue s with
        | some n => .ok n
        | none => .error .value := by
  have even : ∀ t : List Char, t.length % 2 = 0 → (∀ c ∈ t, isHexSpace c = false) →
      (match fromHex t with | some bs => Except.ok (intOfBytes bs) | none => .error Err.value)
        = (match textValue t with | some n => .ok n | none => .error .value) := by
    intro t ht hns
    have := fromHex_value (t.length / 2) t (by omega) hns 0
    rw [textValue, this]
    cases fromHex t <;> simp
  have oddNone : ∀ (k : Nat) (t : List Char), t.length = 2 * k + 1 → (∀ c ∈ t, isHexSpace c = false) →
      fromHex t = none := by
    intro k
    induction k with
    | zero =>
      intro t ht hns
      match t, ht with
      | [c], _ => rw [fromHex, hns c (by simp)]; simp
    | succ k ih =>
      intro t ht hns
      match t, ht with
      | c :: d :: t, ht =>
        rw [fromHex, hns c (by simp)]
        simp only [Bool.false_eq_true, if_false]
        rw [ih t (by simp only [List.length_cons] at ht; omega) (fun x hx => hns x (by simp [hx]))]
        split <;> simp_all
  simp only [hexToInt]
  by_cases ho : s.length % 2 = 0
  · rw [if_neg (by omega), if_neg (by omega)]
    exact even s ho hns
  · by_cases h0 : s.head? = some '0'
    · rw [if_pos ⟨by omega, h0⟩, if_neg (by simp [h0])]
      obtain ⟨t, rfl⟩ : ∃ t, s = '0' :: t := by
        cases s with
        | nil => simp at h0
        | cons c t => simp at h0; exact ⟨t, by rw [h0]⟩
      simp only [List.length_cons, List.tail_cons] at ho ⊢
      exact even t (by omega) (fun c hc => hns c (by simp [hc]))
    · rw [if_neg (by simp [h0]), if_pos ⟨by omega, h0⟩, oddNone (s.length / 2) s (by omega) hns]

/-- C23 Whatever the text, an element that is returned is in range. -/
theorem C23_in_range (P : Params) (s : List Char) (n : Nat) (h : hexToQ P s = .ok (some n)) : n < P.q := by
  simp only [hexToQ, bind, Except.bind, pure, Except.pure] at h
  cases h1 : hexToInt s with
  | error => rw [h1] at h; cases h
  | ok v =>
    rw [h1] at h
    simp only [mkQ] at h
    split at h
    · rename_i hm
      split at hm
      · cases hm; cases h; omega
      · cases hm
    · cases h

/-- C23 Malformed text is not rejected with `None`: the call raises `ValueError`. -/
theorem C23_malformed_raises (P : Params) :
    hexToQ P "zz".toList = .error .value ∧ hexToQ P "123".toList = .error .value := by
  constructor <;> rfl

example : toHex 4080 = "0FF0".toList := by decide
example : hexToInt "0ff".toList = .ok 255 := by decide
example : hexToQ extraSmall "0C".toList = .ok (some 12) := by decide

end EG
