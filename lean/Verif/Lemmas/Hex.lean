import Mathlib.Tactic.Ring
import Mathlib.Tactic.Linarith
import Verif.Model.BytePadding
import Verif.Model.HexElement

/-!
# Helper lemmas: hexadecimal text and bytes
-/

namespace EG

/-- fuel does not matter once it exceeds the number -/
theorem natDigits_fuel {b : Nat} (hb : 2 ≤ b) : ∀ (n f f' : Nat), n < f → n < f' →
    natDigits b f n = natDigits b f' n := by
  intro n
  induction n using Nat.strong_induction_on with
  | _ n ih =>
    intro f f' hf hf'
    obtain ⟨f, rfl⟩ : ∃ k, f = k + 1 := ⟨f - 1, by omega⟩
    obtain ⟨f', rfl⟩ : ∃ k, f' = k + 1 := ⟨f' - 1, by omega⟩
    simp only [natDigits]
    split
    · rfl
    · rename_i h
      have hlt : n / b < n := Nat.div_lt_self (by omega) (by omega)
      rw [ih _ hlt f f' (by omega) (by omega)]

/-- digits of a number, most significant first -/
def digits' (b n : Nat) : List Nat := natDigits b (n + 1) n

theorem digits'_lt {b n : Nat} (h : n < b) : digits' b n = [n] := by
  simp [digits', natDigits, h]

theorem digits'_ge {b n : Nat} (hb : 2 ≤ b) (h : b ≤ n) :
    digits' b n = digits' b (n / b) ++ [n % b] := by
  have hlt : n / b < n := Nat.div_lt_self (by omega) (by omega)
  rw [digits', natDigits, if_neg (by omega), natDigits_fuel hb _ n (n / b + 1) hlt (by omega)]
  rfl

theorem digits'_mem_lt {b : Nat} (hb : 2 ≤ b) (n : Nat) : ∀ d ∈ digits' b n, d < b := by
  induction n using Nat.strong_induction_on with
  | _ n ih =>
    intro d hd
    by_cases h : n < b
    · rw [digits'_lt h] at hd; simp at hd; omega
    · rw [digits'_ge hb (by omega), List.mem_append] at hd
      rcases hd with hd | hd
      · exact ih _ (Nat.div_lt_self (by omega) (by omega)) d hd
      · simp at hd; subst hd; exact Nat.mod_lt _ (by omega)

theorem digits'_ne_nil {b : Nat} (n : Nat) : digits' b n ≠ [] := by
  simp only [digits', natDigits]; split <;> simp

/-- value of a digit list -/
def ofDigits' (b : Nat) (ds : List Nat) : Nat := ds.foldl (fun acc d => b * acc + d) 0

theorem ofDigits'_append_single (b : Nat) (ds : List Nat) (d : Nat) :
    ofDigits' b (ds ++ [d]) = b * ofDigits' b ds + d := by
  simp [ofDigits', List.foldl_append]

theorem ofDigits'_digits' {b : Nat} (hb : 2 ≤ b) (n : Nat) : ofDigits' b (digits' b n) = n := by
  induction n using Nat.strong_induction_on with
  | _ n ih =>
    by_cases h : n < b
    · rw [digits'_lt h]; simp [ofDigits']
    · rw [digits'_ge hb (by omega), ofDigits'_append_single,
        ih _ (Nat.div_lt_self (by omega) (by omega))]
      exact Nat.div_add_mod n b

theorem digits'_inj {b : Nat} (hb : 2 ≤ b) {m n : Nat} (h : digits' b m = digits' b n) : m = n := by
  rw [← ofDigits'_digits' hb m, h, ofDigits'_digits' hb]

/-! ### hexadecimal characters -/

theorem hexVal_hexChar {d : Nat} (h : d < 16) : hexVal (hexChar d) = some d := by
  revert d; decide

theorem hexChar_inj {a b : Nat} (ha : a < 16) (hb : b < 16) (h : hexChar a = hexChar b) : a = b := by
  have := hexVal_hexChar ha
  rw [h, hexVal_hexChar hb] at this
  simpa using this.symm

theorem isHexSpace_hexChar {d : Nat} (h : d < 16) : isHexSpace (hexChar d) = false := by
  revert d; decide

/-- the characters of an upper-case hexadecimal text -/
def IsUpperHex (c : Char) : Prop := ∃ d < 16, c = hexChar d

/-- the two characters of a byte -/
def hexPair (b : UInt8) : List Char := [hexChar (b.toNat / 16), hexChar (b.toNat % 16)]

theorem fromHex_pairs (bs : Bytes) (rest : List Char) :
    fromHex (bs.flatMap hexPair ++ rest) = (fromHex rest).map (bs ++ ·) := by
  induction bs with
  | nil => simp
  | cons b bs ih =>
    have hb := b.toNat_lt
    have h1 : b.toNat / 16 < 16 := by omega
    have h2 : b.toNat % 16 < 16 := by omega
    simp only [List.flatMap_cons, hexPair, List.cons_append, List.nil_append]
    rw [fromHex, isHexSpace_hexChar h1]
    simp only [Bool.false_eq_true, if_false]
    rw [hexVal_hexChar h1, hexVal_hexChar h2, ih]
    have : UInt8.ofNat (16 * (b.toNat / 16) + b.toNat % 16) = b := by
      rw [Nat.div_add_mod]; simp
    cases fromHex rest <;> simp [this]

/-- bytes of a number, most significant first, `[0]` for zero -/
def natBytes (n : Nat) : Bytes := (digits' 256 n).map UInt8.ofNat

theorem toHex_lt {n : Nat} (h : n < 256) : toHex n = [hexChar (n / 16), hexChar (n % 16)] := by
  revert n; decide +kernel

theorem hexDigits_length_step {n : Nat} (h : 256 ≤ n) :
    digits' 16 n = digits' 16 (n / 256) ++ [n / 16 % 16, n % 16] := by
  rw [digits'_ge (by norm_num) (by omega), digits'_ge (n := n / 16) (by norm_num) (by omega)]
  rw [Nat.div_div_eq_div_mul]; simp

theorem toHex_ge {n : Nat} (h : 256 ≤ n) :
    toHex n = toHex (n / 256) ++ [hexChar (n / 16 % 16), hexChar (n % 16)] := by
  have e : ∀ m, toHex m = padHex (if ((digits' 16 m).map hexChar).length < 2
      then '0' :: (digits' 16 m).map hexChar else (digits' 16 m).map hexChar) := fun m => rfl
  rw [e n, e (n / 256), hexDigits_length_step h]
  have hne := List.length_pos_iff.2 (digits'_ne_nil (b := 16) (n / 256))
  set ds := digits' 16 (n / 256)
  simp only [List.map_append, List.length_append, List.length_map, List.map_cons, List.map_nil,
    List.length_cons, List.length_nil]
  rw [if_neg (by omega)]
  by_cases h1 : ds.length < 2
  · have : ds.length = 1 := by omega
    simp [padHex, this]
  · rw [if_neg h1]
    simp only [padHex, List.length_append, List.length_map, List.length_cons, List.length_nil]
    by_cases h2 : ds.length % 2 = 1
    · rw [if_pos h2, if_pos (by omega)]; rfl
    · rw [if_neg h2, if_neg (by omega)]

theorem toHex_eq_pairs (n : Nat) : toHex n = (natBytes n).flatMap hexPair := by
  induction n using Nat.strong_induction_on with
  | _ n ih =>
    by_cases h : n < 256
    · rw [toHex_lt h, natBytes, digits'_lt h]
      simp [hexPair, Nat.mod_eq_of_lt h]
    · rw [toHex_ge (by omega), ih _ (Nat.div_lt_self (by omega) (by norm_num)), natBytes, natBytes,
        digits'_ge (n := n) (by norm_num) (by omega)]
      simp only [List.map_append, List.flatMap_append, List.map_cons, List.map_nil, List.flatMap_cons,
        List.flatMap_nil, List.append_nil, hexPair]
      congr 1
      have : (UInt8.ofNat (n % 256)).toNat = n % 256 := by simp
      rw [this]
      have e1 : n % 256 / 16 = n / 16 % 16 := by omega
      have e2 : n % 256 % 16 = n % 16 := by omega
      rw [e1, e2]

theorem fromHex_toHex (n : Nat) : fromHex (toHex n) = some (natBytes n) := by
  have := fromHex_pairs (natBytes n) []
  rw [List.append_nil] at this
  rw [toHex_eq_pairs, this]; simp [fromHex]

theorem fromHex_toHex_isSome (n : Nat) : (fromHex (toHex n)).isSome = true := by
  rw [fromHex_toHex]; rfl

theorem toHexBytes_eq (n : Nat) : toHexBytes n = natBytes n := by
  simp [toHexBytes, fromHex_toHex]

theorem toHex_even (n : Nat) : (toHex n).length % 2 = 0 := by
  rw [toHex_eq_pairs]
  induction natBytes n with
  | nil => rfl
  | cons b bs ih =>
    simp only [List.flatMap_cons, List.length_append, hexPair, List.length_cons, List.length_nil] at *
    omega

theorem toHex_chars (n : Nat) : ∀ c ∈ toHex n, IsUpperHex c := by
  rw [toHex_eq_pairs]
  intro c hc
  obtain ⟨b, _, hb⟩ := List.mem_flatMap.1 hc
  have := b.toNat_lt
  simp only [hexPair, List.mem_cons, List.not_mem_nil, or_false] at hb
  rcases hb with rfl | rfl
  · exact ⟨_, by omega, rfl⟩
  · exact ⟨_, by omega, rfl⟩

theorem toHex_ne_nil (n : Nat) : toHex n ≠ [] := by
  intro h
  have h2 := fromHex_toHex n
  rw [h] at h2
  simp only [fromHex, Option.some.injEq] at h2
  have h1 := digits'_ne_nil (b := 256) n
  simp only [natBytes] at h2
  exact h1 (List.map_eq_nil_iff.1 h2.symm)

/-! ### integers of bytes -/

theorem foldl_bytes (s : Nat) (bs : Bytes) :
    bs.foldl (fun acc b => 256 * acc + b.toNat) s = s * 256 ^ bs.length + intOfBytes bs := by
  induction bs generalizing s with
  | nil => simp [intOfBytes]
  | cons b bs ih =>
    simp only [intOfBytes, List.foldl_cons, List.length_cons]
    rw [ih, ih (256 * 0 + b.toNat), pow_succ]
    ring

theorem intOfBytes_append (a b : Bytes) :
    intOfBytes (a ++ b) = intOfBytes a * 256 ^ b.length + intOfBytes b := by
  rw [intOfBytes, List.foldl_append, foldl_bytes]
  rfl

theorem intOfBytes_singleton (b : UInt8) : intOfBytes [b] = b.toNat := by simp [intOfBytes]

theorem intOfBytes_cons (b : UInt8) (bs : Bytes) :
    intOfBytes (b :: bs) = b.toNat * 256 ^ bs.length + intOfBytes bs := by
  have := intOfBytes_append [b] bs
  rwa [intOfBytes_singleton] at this

theorem intOfBytes_lt (bs : Bytes) : intOfBytes bs < 256 ^ bs.length := by
  induction bs with
  | nil => simp [intOfBytes]
  | cons b bs ih =>
    rw [intOfBytes_cons, List.length_cons, pow_succ]
    have := b.toNat_lt
    nlinarith [Nat.one_le_two_pow (n := 0)]

theorem intOfBytes_inj {a b : Bytes} (hl : a.length = b.length) (h : intOfBytes a = intOfBytes b) : a = b := by
  induction a generalizing b with
  | nil => exact (List.length_eq_zero_iff.1 hl.symm).symm
  | cons x a ih =>
    cases b with
    | nil => simp at hl
    | cons y b =>
      simp only [List.length_cons, Nat.add_right_cancel_iff] at hl
      rw [intOfBytes_cons, intOfBytes_cons, hl] at h
      have h1 := intOfBytes_lt a
      have h2 := intOfBytes_lt b
      rw [hl] at h1
      have hpos : 0 < 256 ^ b.length := by positivity
      have hx : x.toNat = y.toNat := by
        have e1 : (x.toNat * 256 ^ b.length + intOfBytes a) / 256 ^ b.length = x.toNat := by
          rw [Nat.mul_comm, Nat.mul_add_div hpos, Nat.div_eq_of_lt h1, Nat.add_zero]
        have e2 : (y.toNat * 256 ^ b.length + intOfBytes b) / 256 ^ b.length = y.toNat := by
          rw [Nat.mul_comm, Nat.mul_add_div hpos, Nat.div_eq_of_lt h2, Nat.add_zero]
        rw [← e1, h, e2]
      rw [UInt8.toNat_inj.1 hx] at h ⊢
      rw [ih hl (by omega)]

theorem intOfBytes_replicate_zero (k : Nat) : intOfBytes (List.replicate k 0) = 0 := by
  induction k with
  | zero => rfl
  | succ k ih => rw [List.replicate_succ, intOfBytes_cons, ih]; simp

theorem intOfBytes_natBytes (n : Nat) : intOfBytes (natBytes n) = n := by
  conv_rhs => rw [← ofDigits'_digits' (b := 256) (by norm_num) n]
  rw [intOfBytes, natBytes, ofDigits', List.foldl_map]
  have hlt := digits'_mem_lt (b := 256) (by norm_num) n
  generalize digits' 256 n = ds at *
  generalize 0 = s
  induction ds generalizing s with
  | nil => rfl
  | cons d ds ih =>
    simp only [List.foldl_cons]
    have hd : d < 256 := hlt d (List.mem_cons_self ..)
    rw [show (UInt8.ofNat d).toNat = d by simp [Nat.mod_eq_of_lt hd]]
    exact ih (fun x hx => hlt x (List.mem_cons_of_mem _ hx)) _

theorem natBytes_length_le {n k : Nat} (hk : 0 < k) (h : n < 256 ^ k) : (natBytes n).length ≤ k := by
  induction k generalizing n with
  | zero => omega
  | succ k ih =>
    by_cases hn : n < 256
    · rw [natBytes, digits'_lt hn]; simp
    · rw [natBytes, digits'_ge (by norm_num) (by omega)]
      simp only [List.map_append, List.length_append, List.map_cons, List.map_nil, List.length_singleton]
      have hk0 : 0 < k := by
        rcases Nat.eq_zero_or_pos k with rfl | h0
        · simp at h; omega
        · exact h0
      have : n / 256 < 256 ^ k := by
        rw [Nat.div_lt_iff_lt_mul (by norm_num)]; rw [pow_succ] at h; exact h
      have := ih hk0 this
      simp only [natBytes] at this
      omega

theorem hexToInt_toHex (n : Nat) : hexToInt (toHex n) = .ok n := by
  simp [hexToInt, toHex_even, fromHex_toHex, intOfBytes_natBytes]

theorem toHex_inj {m n : Nat} (h : toHex m = toHex n) : m = n := by
  have h1 := hexToInt_toHex m
  rw [h, hexToInt_toHex] at h1
  simpa using h1.symm

/-- padding restores the leading zero bytes that the hexadecimal text lost -/
theorem toPaddedBytes_bytesToHex {bs : Bytes} {size : Nat} (hs : 0 < size) (h : bs.length = size) :
    toPaddedBytes (bytesToHex bs) size = .ok bs := by
  have hlt := intOfBytes_lt bs
  rw [h] at hlt
  have hle := natBytes_length_le hs hlt
  simp only [toPaddedBytes, bytesToHex, fromHex_toHex]
  split
  · rename_i hge
    congr 1
    exact intOfBytes_inj (by omega) (intOfBytes_natBytes _)
  · congr 1
    apply intOfBytes_inj
    · simp; omega
    · rw [intOfBytes_append, intOfBytes_replicate_zero, intOfBytes_natBytes]; simp

theorem decInt_chars (i : Int) : ∀ c ∈ decInt i, c = '-' ∨ IsUpperHex c := by
  intro c hc
  have hd := digits'_mem_lt (b := 10) (by norm_num) i.natAbs
  have key : ∀ c ∈ (digits' 10 i.natAbs).map hexChar, IsUpperHex c := by
    intro c hc
    obtain ⟨d, hd', rfl⟩ := List.mem_map.1 hc
    exact ⟨d, by have := hd d hd'; omega, rfl⟩
  simp only [decInt] at hc
  split at hc
  · rcases List.mem_cons.1 hc with rfl | hc
    · left; rfl
    · right; exact key c hc
  · right; exact key c hc

theorem map_hexChar_inj {l l' : List Nat} (hl : ∀ d ∈ l, d < 16) (hl' : ∀ d ∈ l', d < 16)
    (h : l.map hexChar = l'.map hexChar) : l = l' := by
  induction l generalizing l' with
  | nil => cases l' with
    | nil => rfl
    | cons => simp at h
  | cons d l ih => cases l' with
    | nil => simp at h
    | cons d' l' =>
      simp only [List.map_cons, List.cons.injEq] at h
      rw [hexChar_inj (hl d (by simp)) (hl' d' (by simp)) h.1,
        ih (fun x hx => hl x (by simp [hx])) (fun x hx => hl' x (by simp [hx])) h.2]

theorem decInt_inj {i j : Int} (h : decInt i = decInt j) : i = j := by
  have hm := fun n => digits'_mem_lt (b := 10) (by norm_num) n
  have key : ∀ m n, (digits' 10 m).map hexChar = (digits' 10 n).map hexChar → m = n := by
    intro m n h
    exact digits'_inj (b := 10) (by norm_num)
      (map_hexChar_inj (fun d hd => by have := hm m d hd; omega) (fun d hd => by have := hm n d hd; omega) h)
  have nominus : ∀ n (l : List Char), (digits' 10 n).map hexChar ≠ '-' :: l := by
    intro n l he
    have hmem : '-' ∈ (digits' 10 n).map hexChar := by rw [he]; exact List.mem_cons_self ..
    obtain ⟨d, hd, hc⟩ := List.mem_map.1 hmem
    have hd16 : d < 16 := by have := hm n d hd; omega
    exact absurd hc ((by decide : ∀ d < 16, hexChar d ≠ '-') d hd16)
  simp only [decInt] at h
  change (if i < 0 then '-' :: (digits' 10 i.natAbs).map hexChar else (digits' 10 i.natAbs).map hexChar)
    = (if j < 0 then '-' :: (digits' 10 j.natAbs).map hexChar else (digits' 10 j.natAbs).map hexChar) at h
  split at h <;> split at h
  · have := key _ _ (List.cons.inj h).2; omega
  · exact absurd h.symm (nominus _ _)
  · exact absurd h (nominus _ _)
  · have := key _ _ h; omega

end EG
