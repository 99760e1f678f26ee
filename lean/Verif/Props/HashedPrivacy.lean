import Verif.Spec.HashedPrivacy
import Verif.Props.HashedElGamal
import Verif.Props.BallotPrivacy
import Verif.Lemmas.KeyCeremony
import Verif.Model.Encrypt

/-!
# C104: contest data and backups are readable only for those who can solve decisional Diffie-Hellman or predict key streams
-/

namespace EG

open Finset

variable {E : Env}

/-! ### Random bytes -/

theorem byteSum_congr {n : Nat} {F G : Bytes → Int} (h : ∀ bs, F bs = G bs) : byteSum n F = byteSum n G := by
  rw [funext h]

theorem sum_xor_byte (a : UInt8) (f : UInt8 → Int) :
    ∑ b ∈ range 256, f (a ^^^ UInt8.ofNat b) = ∑ b ∈ range 256, f (UInt8.ofNat b) := by
  refine Finset.sum_bij' (fun b _ => (a ^^^ UInt8.ofNat b).toNat) (fun b _ => (a ^^^ UInt8.ofNat b).toNat)
    (fun b _ => mem_range.2 (UInt8.toNat_lt _)) (fun b _ => mem_range.2 (UInt8.toNat_lt _)) ?_ ?_ ?_
  · intro b hb
    rw [UInt8.ofNat_toNat, ← UInt8.xor_assoc, UInt8.xor_self, UInt8.zero_xor]
    exact UInt8.toNat_ofNat_of_lt' (mem_range.1 hb)
  · intro b hb
    rw [UInt8.ofNat_toNat, ← UInt8.xor_assoc, UInt8.xor_self, UInt8.zero_xor]
    exact UInt8.toNat_ofNat_of_lt' (mem_range.1 hb)
  · intro b _
    rw [UInt8.ofNat_toNat]

/-- Random bytes hide a message of their length. -/
theorem byteSum_xor (m : Bytes) (F : Bytes → Int) :
    byteSum m.length (fun ks => F (List.zipWith (· ^^^ ·) m ks)) = byteSum m.length F := by
  induction m generalizing F with
  | nil => rfl
  | cons a m ih =>
    simp only [List.length_cons, byteSum, List.zipWith_cons_cons]
    rw [sum_xor_byte a (fun c => byteSum m.length fun bs => F (c :: List.zipWith (· ^^^ ·) m bs))]
    exact Finset.sum_congr rfl fun b _ => ih (fun bs => F (UInt8.ofNat b :: bs))

theorem sealed_random (n : Nat) (m m' : Bytes) (Y : Nat) (mk : Bytes) (hm : m.length ≤ 32 * n) (hm' : m'.length ≤ 32 * n)
    (F : HashedCiphertext → Int) :
    byteSum (32 * n) (fun ks => F (sealedWith E n m Y ks mk)) = byteSum (32 * n) (fun ks => F (sealedWith E n m' Y ks mk)) := by
  have h := fun (m : Bytes) (hm : m.length ≤ 32 * n) => byteSum_xor (zeroExtend (32 * n) m)
    (fun data => F ⟨Y, bytesToHex data, bytesToHex (E.hmac mk (toHexBytes Y ++ data))⟩)
  have h1 := h m hm
  have h2 := h m' hm'
  rw [zeroExtend_length hm] at h1
  rw [zeroExtend_length hm'] at h2
  exact h1.trans h2.symm

/-! ### The sums over nonces -/

theorem hashedSum_zero_fun (R : Finset Nat) (K : Nat) (ms : List (Nat × Bytes)) : hashedSum E R K ms (fun _ => 0) = 0 := by
  induction ms with
  | nil => rfl
  | cons m ms ih =>
    rw [hashedSum]
    refine Finset.sum_eq_zero fun r _ => ?_
    cases hashedEncrypt E m.2 r K m.1 with
    | error => rfl
    | ok c => exact ih

theorem hashedSum_add (R : Finset Nat) (K : Nat) (ms : List (Nat × Bytes)) (F G : List HashedCiphertext → Int) :
    hashedSum E R K ms (fun a => F a + G a) = hashedSum E R K ms F + hashedSum E R K ms G := by
  induction ms generalizing F G with
  | nil => rfl
  | cons m ms ih =>
    rw [hashedSum, hashedSum, hashedSum, ← Finset.sum_add_distrib]
    refine Finset.sum_congr rfl fun r _ => ?_
    cases hashedEncrypt E m.2 r K m.1 with
    | error => rfl
    | ok c => exact ih _ _

theorem hashedSum_sum {ι : Type} (R : Finset Nat) (K : Nat) (ms : List (Nat × Bytes)) (S : Finset ι)
    (F : ι → List HashedCiphertext → Int) :
    hashedSum E R K ms (fun a => ∑ i ∈ S, F i a) = ∑ i ∈ S, hashedSum E R K ms (F i) := by
  classical
  induction S using Finset.induction_on with
  | empty => simpa using hashedSum_zero_fun R K ms
  | insert i S hi ih =>
    simp only [Finset.sum_insert hi]
    rw [hashedSum_add, ih]

theorem hashedSum_append (R : Finset Nat) (K : Nat) (as bs : List (Nat × Bytes)) (F : List HashedCiphertext → Int) :
    hashedSum E R K (as ++ bs) F = hashedSum E R K as (fun a => hashedSum E R K bs (fun b => F (a ++ b))) := by
  induction as generalizing F with
  | nil => rfl
  | cons m as ih =>
    rw [List.cons_append, hashedSum, hashedSum]
    refine Finset.sum_congr rfl fun r _ => ?_
    cases hashedEncrypt E m.2 r K m.1 with
    | error => rfl
    | ok c => exact ih _

/-! ### One ciphertext -/

theorem xorAll_flatten (key : Nat → Bytes) (hkey : ∀ j, (key j).length = 32) (bs : List Bytes)
    (hbs : ∀ b ∈ bs, b.length = 32) (i : Nat) :
    (xorAll key bs i).flatten
      = List.zipWith (· ^^^ ·) bs.flatten ((List.range bs.length).flatMap fun j => key (i + j + 1)) := by
  induction bs generalizing i with
  | nil => rfl
  | cons b bs ih =>
    simp only [List.mem_cons, forall_eq_or_imp] at hbs
    rw [xorAll, List.flatten_cons, ih hbs.2 (i + 1), List.length_cons, List.range_succ_eq_map, List.flatMap_cons,
      List.flatten_cons, List.flatMap_map, List.zipWith_append (by rw [hbs.1, hkey])]
    congr 3
    funext j
    congr 1
    omega

theorem hashedEncrypt_sealed (hlen : HmacLen E) (m : Bytes) (r K seed : Nat) (n : Nat) (hn : nBlocks m = n)
    (hsmall : n < 2 ^ 24 - 1) :
    hashedEncrypt E m r K seed = .ok (sealedWith E n m (E.P.g ^ r % E.P.p)
      (keyStream E seed n (E.P.g ^ r % E.P.p) (powP E.P K r)) (macKeyOf E seed n (E.P.g ^ r % E.P.p) (powP E.P K r))) := by
  have hm : m.length < 2 ^ 29 - 31 := by
    simp only [nBlocks] at hn; norm_num at hsmall ⊢; omega
  obtain ⟨bs, h1, h2, h3, h4⟩ := hashedEncrypt_spec E hlen m r K seed hm
  obtain ⟨-, -, -, h5⟩ := h4
  rw [h5, xorAll_flatten _ (fun j => hlen _ _) bs h1 0, h3, h2, padBlocks_eq, hn]
  have hf : ∀ j, fixed (toHexBytes seed) (32 * n * 8) j = streamText seed n j := by
    intro j
    unfold fixed streamText
    by_cases h : n = 0
    · simp [h]
    · rw [if_neg (by omega), if_neg h]
  simp only [hf, Nat.zero_add]
  rfl

theorem hashedSeen_real (hv : E.P.Valid) (hlen : HmacLen E) (X R : Finset Nat) (n : Nat) (hsmall : n < 2 ^ 24 - 1)
    (as : List (Nat × Bytes)) (seed : Nat) (m : Bytes) (hm : nBlocks m = n) (bs : List (Nat × Bytes))
    (D : Nat → List HashedCiphertext → Int) :
    hashedSeen E X R D (as ++ (seed, m) :: bs) = ddhReal E.P X R (secretAdversary E R D n as seed m bs) := by
  have hp : 1 < E.P.p := hv.p_prime.one_lt
  unfold hashedSeen ddhReal
  refine Finset.sum_congr rfl fun x _ => ?_
  rw [hashedSum_append]
  simp only [secretAdversary, streamAdversary]
  rw [← hashedSum_sum]
  congr 1
  funext a
  rw [hashedSum]
  refine Finset.sum_congr rfl fun r hr => ?_
  have hpow : powP E.P (E.P.g ^ x % E.P.p) r = E.P.g ^ (x * r) % E.P.p := by
    rw [← castP_inj (powP_lt (by omega) _ _) (Nat.mod_lt _ (by omega : E.P.p > 0)), powP_cast]
    simp only [ZMod.natCast_mod, Nat.cast_pow]
    rw [pow_mul]
  rw [hashedEncrypt_sealed hlen m r _ seed n hm hsmall, hpow]

theorem hashed_random (X R : Finset Nat) (n : Nat) (as : List (Nat × Bytes)) (seed : Nat) (m : Bytes)
    (bs : List (Nat × Bytes)) (D : Nat → List HashedCiphertext → Int) :
    ddhRandom E.P X R (secretAdversary E R D n as seed m bs)
      = kdfReal E X R seed n (streamAdversary E R D n as m bs) := rfl

theorem byteSum_add (n : Nat) (F G : Bytes → Int) : byteSum n (fun a => F a + G a) = byteSum n F + byteSum n G := by
  induction n generalizing F G with
  | zero => rfl
  | succ n ih =>
    simp only [byteSum]
    rw [← Finset.sum_add_distrib]
    exact Finset.sum_congr rfl fun b _ => ih _ _

theorem byteSum_comm (n k : Nat) (F : Bytes → Bytes → Int) :
    byteSum n (fun a => byteSum k (F a)) = byteSum k (fun b => byteSum n (fun a => F a b)) := by
  induction n generalizing F with
  | zero => rfl
  | succ n ih =>
    simp only [byteSum]
    have h : ∀ (S : Finset Nat) (G : Nat → Bytes → Int), byteSum k (fun b => ∑ i ∈ S, G i b) = ∑ i ∈ S, byteSum k (G i) := by
      classical
      intro S G
      induction S using Finset.induction_on with
      | empty =>
        simp only [Finset.sum_empty]
        clear ih
        induction k with
        | zero => rfl
        | succ k ih => simp only [byteSum]; exact Finset.sum_eq_zero fun _ _ => ih
      | insert i S hi ih =>
        simp only [Finset.sum_insert hi]
        rw [byteSum_add, ih]
    rw [h]
    exact Finset.sum_congr rfl fun b _ => ih _

theorem stream_same (X R : Finset Nat) (n : Nat) (as : List (Nat × Bytes)) (m m' : Bytes) (hm : m.length ≤ 32 * n)
    (hm' : m'.length ≤ 32 * n) (bs : List (Nat × Bytes)) (D : Nat → List HashedCiphertext → Int) :
    kdfRandom E X R n (streamAdversary E R D n as m bs) = kdfRandom E X R n (streamAdversary E R D n as m' bs) := by
  unfold kdfRandom
  refine Finset.sum_congr rfl fun x _ => Finset.sum_congr rfl fun r _ => ?_
  refine (byteSum_comm ..).trans (Eq.trans ?_ (byteSum_comm ..).symm)
  refine byteSum_congr fun mk => ?_
  exact sealed_random n m m' (E.P.g ^ r % E.P.p) mk hm hm' (fun c => hashedSum E R (E.P.g ^ x % E.P.p) as fun a =>
    hashedSum E R (E.P.g ^ x % E.P.p) bs fun b => D (E.P.g ^ x % E.P.p) (a ++ c :: b))

/-- C104: one message between others, of as many blocks as the one it is compared with. -/
theorem C104_one (hv : E.P.Valid) (hlen : HmacLen E) (X R : Finset Nat) (n : Nat) (hsmall : n < 2 ^ 24 - 1)
    (before : List (Nat × Bytes)) (seed : Nat) (m m' : Bytes) (hm : nBlocks m = n) (hm' : nBlocks m' = n)
    (after : List (Nat × Bytes)) (D : Nat → List HashedCiphertext → Int) :
    E.P.q * 256 ^ (32 * n + 32) * (hashedSeen E X R D (before ++ (seed, m) :: after)
        - hashedSeen E X R D (before ++ (seed, m') :: after))
      = 256 ^ (32 * n + 32) * (ddhAdvantage E.P X R (secretAdversary E R D n before seed m after)
          - ddhAdvantage E.P X R (secretAdversary E R D n before seed m' after))
        + (kdfAdvantage E X R seed n (streamAdversary E R D n before m after)
          - kdfAdvantage E X R seed n (streamAdversary E R D n before m' after)) := by
  have hl : ∀ m : Bytes, nBlocks m = n → m.length ≤ 32 * n := by
    intro m h; simp only [nBlocks] at h; omega
  rw [hashedSeen_real hv hlen X R n hsmall before seed m hm, hashedSeen_real hv hlen X R n hsmall before seed m' hm']
  unfold ddhAdvantage kdfAdvantage
  rw [hashed_random, hashed_random, stream_same X R n before m m' (hl m hm) (hl m' hm')]
  ring

/-- What the two adversaries made of an observer gain from the message with number `i`, for the list `ms` of messages and the
list `ms'` it is compared with. -/
def hashedGain (E : Env) (X R : Finset Nat) (D : Nat → List HashedCiphertext → Int) (n : Nat) (ms ms' : List (Nat × Bytes))
    (i : Nat) (seed : Nat) (m : Bytes) : Int :=
  256 ^ (32 * n + 32) * ddhAdvantage E.P X R (secretAdversary E R D n (ms'.take i) seed m (ms.drop (i + 1)))
    + kdfAdvantage E X R seed n (streamAdversary E R D n (ms'.take i) m (ms.drop (i + 1)))

theorem hashed_hybrid (hv : E.P.Valid) (hlen : HmacLen E) (X R : Finset Nat) (n : Nat) (hsmall : n < 2 ^ 24 - 1)
    (D : Nat → List HashedCiphertext → Int) (ms ms' : List (Nat × Bytes)) (hseed : ms.map Prod.fst = ms'.map Prod.fst)
    (hm : ∀ m ∈ ms, nBlocks m.2 = n) (hm' : ∀ m ∈ ms', nBlocks m.2 = n) (k : Nat) (hk : k ≤ ms.length) :
    E.P.q * 256 ^ (32 * n + 32) * (hashedSeen E X R D ms - hashedSeen E X R D (ms'.take k ++ ms.drop k))
      = ∑ i ∈ range k, (hashedGain E X R D n ms ms' i (ms.getD i (0, [])).1 (ms.getD i (0, [])).2
          - hashedGain E X R D n ms ms' i (ms.getD i (0, [])).1 (ms'.getD i (0, [])).2) := by
  have hl : ms.length = ms'.length := by simpa using congrArg List.length hseed
  induction k with
  | zero => simp
  | succ k ih =>
    rw [Finset.sum_range_succ, ← ih (by omega)]
    have g1 : ms.getD k (0, []) = ms[k] := List.getD_eq_getElem _ _ (by omega)
    have g2 : ms'.getD k (0, []) = ms'[k] := List.getD_eq_getElem _ _ (by omega)
    have hs : ms'[k].1 = ms[k].1 := by
      have h1 : (ms.map Prod.fst)[k]? = (ms'.map Prod.fst)[k]? := by rw [hseed]
      rw [List.getElem?_map, List.getElem?_map, List.getElem?_eq_getElem (by omega), List.getElem?_eq_getElem (by omega)] at h1
      simpa using h1.symm
    have h1 : ms.drop k = (ms[k].1, ms[k].2) :: ms.drop (k + 1) := by
      rw [List.drop_eq_getElem_cons (by omega)]
    have h2 : ms'.take (k + 1) = ms'.take k ++ [(ms[k].1, ms'[k].2)] := by
      rw [← hs]
      exact (List.take_append_getElem (by omega)).symm
    have := C104_one hv hlen X R n hsmall (ms'.take k) ms[k].1 ms[k].2 ms'[k].2 (hm _ (List.getElem_mem _))
      (hm' _ (List.getElem_mem _)) (ms.drop (k + 1)) D
    rw [g1, g2, h2, List.append_assoc, List.singleton_append]
    unfold hashedGain
    rw [h1]
    linear_combination this

/-- C104: how differently any observer answers on the ciphertexts of two lists of messages of `n` blocks is exactly what
explicit adversaries, one pair for each message, gain over guessing in decisional Diffie-Hellman and in telling key streams
from random bytes. -/
theorem C104_private (hv : E.P.Valid) (hlen : HmacLen E) (X R : Finset Nat) (n : Nat) (hsmall : n < 2 ^ 24 - 1)
    (D : Nat → List HashedCiphertext → Int) (ms ms' : List (Nat × Bytes)) (hseed : ms.map Prod.fst = ms'.map Prod.fst)
    (hm : ∀ m ∈ ms, nBlocks m.2 = n) (hm' : ∀ m ∈ ms', nBlocks m.2 = n) :
    E.P.q * 256 ^ (32 * n + 32) * (hashedSeen E X R D ms - hashedSeen E X R D ms')
      = ∑ i ∈ range ms.length, (hashedGain E X R D n ms ms' i (ms.getD i (0, [])).1 (ms.getD i (0, [])).2
          - hashedGain E X R D n ms ms' i (ms.getD i (0, [])).1 (ms'.getD i (0, [])).2) := by
  have hl : ms.length = ms'.length := by simpa using congrArg List.length hseed
  have := hashed_hybrid hv hlen X R n hsmall D ms ms' hseed hm hm' ms.length le_rfl
  rwa [hl, List.take_length, ← hl, List.drop_length, List.append_nil] at this

/-- C104: if each of these adversaries gains at most `ε` and `δ`, the observer's answers differ by at most
`2 (ε + δ / 256 ^ (32 n + 32))` for each message. -/
theorem C104_bound (hv : E.P.Valid) (hlen : HmacLen E) (X R : Finset Nat) (n : Nat) (hsmall : n < 2 ^ 24 - 1)
    (D : Nat → List HashedCiphertext → Int) (ms ms' : List (Nat × Bytes)) (hseed : ms.map Prod.fst = ms'.map Prod.fst)
    (hm : ∀ m ∈ ms, nBlocks m.2 = n) (hm' : ∀ m ∈ ms', nBlocks m.2 = n) (ε δ : Int)
    (hε : ∀ i < ms.length, ∀ m ∈ [(ms.getD i (0, [])).2, (ms'.getD i (0, [])).2],
      |ddhAdvantage E.P X R (secretAdversary E R D n (ms'.take i) (ms.getD i (0, [])).1 m (ms.drop (i + 1)))| ≤ ε)
    (hδ : ∀ i < ms.length, ∀ m ∈ [(ms.getD i (0, [])).2, (ms'.getD i (0, [])).2],
      |kdfAdvantage E X R (ms.getD i (0, [])).1 n (streamAdversary E R D n (ms'.take i) m (ms.drop (i + 1)))| ≤ δ) :
    E.P.q * 256 ^ (32 * n + 32) * |hashedSeen E X R D ms - hashedSeen E X R D ms'|
      ≤ 2 * ms.length * (256 ^ (32 * n + 32) * ε + δ) := by
  have hq : |(E.P.q : Int) * 256 ^ (32 * n + 32)| = E.P.q * 256 ^ (32 * n + 32) := abs_of_nonneg (by positivity)
  rw [show (E.P.q : Int) * 256 ^ (32 * n + 32) * |hashedSeen E X R D ms - hashedSeen E X R D ms'|
    = |(E.P.q : Int) * 256 ^ (32 * n + 32) * (hashedSeen E X R D ms - hashedSeen E X R D ms')| by rw [abs_mul, hq],
    C104_private hv hlen X R n hsmall D ms ms' hseed hm hm']
  have hg : ∀ i < ms.length, ∀ m ∈ [(ms.getD i (0, [])).2, (ms'.getD i (0, [])).2],
      |hashedGain E X R D n ms ms' i (ms.getD i (0, [])).1 m| ≤ 256 ^ (32 * n + 32) * ε + δ := by
    intro i hi m hm
    unfold hashedGain
    refine (abs_add_le _ _).trans (add_le_add ?_ (hδ i hi m hm))
    rw [abs_mul, abs_of_nonneg (by positivity : (0 : Int) ≤ 256 ^ (32 * n + 32))]
    exact mul_le_mul_of_nonneg_left (hε i hi m hm) (by positivity)
  refine (Finset.abs_sum_le_sum_abs _ _).trans ?_
  refine (Finset.sum_le_sum (g := fun _ => 2 * (256 ^ (32 * n + 32) * ε + δ)) fun i hi => ?_).trans ?_
  · have h1 := hg i (mem_range.1 hi) _ (List.mem_cons_self ..)
    have h2 := hg i (mem_range.1 hi) (ms'.getD i (0, [])).2 (by simp)
    exact (abs_sub _ _).trans (by linarith)
  · rw [Finset.sum_const, Finset.card_range, nsmul_eq_mul]
    exact le_of_eq (by ring)

/-! ### Contest data and backups -/

theorem addPadding_length {m b : Bytes} (h : addPadding m 512 false = .ok b) : b.length = 512 := by
  by_cases hm : m.length + 2 ≤ 512
  · obtain ⟨p, h1, h2, -⟩ := C20_roundtrip m 512 false hm (by omega)
    have h1 : addPadding m 512 false = .ok p := h1
    rw [h] at h1
    cases h1
    exact h2
  · have h1 : addPadding m 512 false = .error .truncation := C20_too_long_raises m 512 (by omega)
    rw [h1] at h
    cases h

theorem padded_blocks {m b : Bytes} (h : addPadding m 512 false = .ok b) : nBlocks b = 16 := by
  rw [nBlocks, addPadding_length h]

/-- The bytes of these contest data, each with the base hash. -/
def contestMessages (baseHash : Nat) (bs : List Bytes) : List (Nat × Bytes) := bs.map fun b => (baseHash, b)

/-- C104: contest data: whatever overvotes and write-ins two ballots have, their encrypted contest data differ for an observer
by no more than adversaries gain.  All contest data that can be encrypted have 16 blocks, whatever they hold. -/
theorem C104_contest_data (hv : E.P.Valid) (hlen : HmacLen E) (X R : Finset Nat) (D : Nat → List HashedCiphertext → Int)
    (json : ContestData → Bytes) (baseHash : Nat) (ds ds' : List ContestData) (bs bs' : List Bytes)
    (hb : List.Forall₂ (fun d b => d.toBytes json = .ok b) ds bs)
    (hb' : List.Forall₂ (fun d b => d.toBytes json = .ok b) ds' bs') (hl : ds.length = ds'.length) :
    E.P.q * 256 ^ 544 * (hashedSeen E X R D (contestMessages baseHash bs) - hashedSeen E X R D (contestMessages baseHash bs'))
      = ∑ i ∈ range ds.length,
          (hashedGain E X R D 16 (contestMessages baseHash bs) (contestMessages baseHash bs') i baseHash (bs.getD i [])
            - hashedGain E X R D 16 (contestMessages baseHash bs) (contestMessages baseHash bs') i baseHash (bs'.getD i [])) := by
  have hall : ∀ (ds : List ContestData) (bs : List Bytes), List.Forall₂ (fun d b => d.toBytes json = .ok b) ds bs →
      ∀ m ∈ contestMessages baseHash bs, nBlocks m.2 = 16 := by
    intro ds bs h m hm
    obtain ⟨b, hb, rfl⟩ := List.mem_map.1 hm
    clear hm
    induction h with
    | nil => cases hb
    | cons h1 _ ih =>
      rcases List.mem_cons.1 hb with rfl | hb
      · exact padded_blocks h1
      · exact ih hb
  have l1 := hb.length_eq
  have l2 := hb'.length_eq
  have hseed : (contestMessages baseHash bs).map Prod.fst = (contestMessages baseHash bs').map Prod.fst := by
    simp only [contestMessages, List.map_map]
    rw [show (Prod.fst ∘ fun b : Bytes => (baseHash, b)) = fun _ => baseHash from rfl, List.map_const', List.map_const', ← l1,
      ← l2, hl]
  have := C104_private hv hlen X R 16 (by norm_num) D _ _ hseed (hall ds bs hb) (hall ds' bs' hb')
  rw [show 32 * 16 + 32 = 544 from rfl] at this
  rw [this, contestMessages, List.length_map, ← l1]
  refine Finset.sum_congr rfl fun i hi => ?_
  have hi := mem_range.1 hi
  rw [List.getD_eq_getElem _ _ (by simp [contestMessages]; omega), List.getD_eq_getElem _ _ (by simp [contestMessages]; omega),
    List.getD_eq_getElem bs _ (by omega), List.getD_eq_getElem bs' _ (by omega)]
  simp [contestMessages]

/-- A guardian's public key with the key `K`, and anything made of it. -/
def receiverOf (id : String) (order : Int) (commitments : Nat → List Nat) (proofs : Nat → List SchnorrProof) (K : Nat) :
    ElectionPublicKey := ⟨id, order, K, commitments K, proofs K⟩

/-- The bytes a polynomial gives for the receiver. -/
def BackupBytes (P : Params) (order : Int) (s : String × Polynomial') (b : Bytes) : Prop :=
  ∃ c, computeCoordinate P order s.2 = .ok c ∧ coordinateToBytes c = .ok b

/-- The messages in the backups for a receiver. -/
def backupMessages (E : Env) (id : String) (order : Int) (bs : List Bytes) : List (Nat × Bytes) :=
  bs.map fun b => (backupSeed E id order, b)

/-- The observer of ciphertexts made of an observer of backups. -/
def backupObserver (id : String) (order : Int) (D : Nat → List Backup → Int) (senders : List String) :
    Nat → List HashedCiphertext → Int := fun K cs => D K (List.zipWith (fun s c => ⟨s, id, order, c⟩) senders cs)

/-- C104: every polynomial gives bytes for every order below `q`. -/
theorem C104_backup_bytes (P : Params) (hq : 0 < P.q) (hq' : P.q ≤ 256 ^ 246) (order : Nat) (ho : order < P.q)
    (s : String × Polynomial') : ∃ b, BackupBytes P order s b := by
  have h1 : computeCoordinate P order s.2 = .ok (coordinateLoop P order (s.2.map (·.value)) 0 0) := by
    unfold computeCoordinate
    rw [mkQ_nat ho]
    rfl
  obtain ⟨b, hb, -⟩ := coordinateToBytes_ok (coordinateLoop_lt hq order (s.2.map (·.value)) 0 0 hq) hq'
  exact ⟨b, _, h1, hb⟩

theorem backupsSum_eq (R : Finset Nat) (id : String) (order : Int) (commitments : Nat → List Nat)
    (proofs : Nat → List SchnorrProof) (K : Nat) (senders : List (String × Polynomial')) (bs : List Bytes)
    (hb : List.Forall₂ (BackupBytes E.P order) senders bs) (F : List Backup → Int) :
    backupsSum E R (receiverOf id order commitments proofs K) senders F
      = hashedSum E R K (backupMessages E id order bs)
          (fun cs => F (List.zipWith (fun s c => ⟨s, id, order, c⟩) (senders.map Prod.fst) cs)) := by
  induction hb generalizing F with
  | nil => rfl
  | @cons s b ss bs h _ ih =>
    obtain ⟨c, h1, h2⟩ := h
    rw [backupMessages, List.map_cons, backupsSum, hashedSum]
    refine Finset.sum_congr rfl fun r _ => ?_
    have hg : generateBackup E s.1 s.2 (receiverOf id order commitments proofs K) r
        = (hashedEncrypt E b r K (backupSeed E id order)).map fun c => ⟨s.1, id, order, c⟩ := by
      unfold generateBackup receiverOf
      simp only [h1, h2, bind, Except.bind, pure, Except.pure]
      cases hashedEncrypt E b r K (backupSeed E id order) <;> rfl
    rw [hg]
    cases hashedEncrypt E b r K (backupSeed E id order) with
    | error => rfl
    | ok c =>
      simp only [Except.map]
      exact ih _

/-- C104: backups on the way to a guardian: whatever the polynomials of the senders are, an observer who has the public key of
the receiver and all backups for them answers the same up to what adversaries gain. -/
theorem C104_backups (hv : E.P.Valid) (hlen : HmacLen E) (X R : Finset Nat) (id : String) (order : Int)
    (commitments : Nat → List Nat) (proofs : Nat → List SchnorrProof) (D : Nat → List Backup → Int)
    (ss ss' : List (String × Polynomial')) (bs bs' : List Bytes) (hb : List.Forall₂ (BackupBytes E.P order) ss bs)
    (hb' : List.Forall₂ (BackupBytes E.P order) ss' bs') (hsame : ss.map Prod.fst = ss'.map Prod.fst) :
    E.P.q * 256 ^ 544 * (backupsSeen E X R (receiverOf id order commitments proofs) D ss
        - backupsSeen E X R (receiverOf id order commitments proofs) D ss')
      = ∑ i ∈ range ss.length,
          (hashedGain E X R (backupObserver id order D (ss.map Prod.fst)) 16 (backupMessages E id order bs)
              (backupMessages E id order bs') i (backupSeed E id order) (bs.getD i [])
            - hashedGain E X R (backupObserver id order D (ss.map Prod.fst)) 16 (backupMessages E id order bs)
              (backupMessages E id order bs') i (backupSeed E id order) (bs'.getD i [])) := by
  have e : ∀ ss bs, List.Forall₂ (BackupBytes E.P order) ss bs →
      backupsSeen E X R (receiverOf id order commitments proofs) D ss
        = hashedSeen E X R (backupObserver id order D (ss.map Prod.fst)) (backupMessages E id order bs) := by
    intro ss bs hb
    unfold backupsSeen hashedSeen backupObserver
    exact Finset.sum_congr rfl fun x _ => backupsSum_eq R id order commitments proofs _ ss bs hb _
  have hall : ∀ ss bs, List.Forall₂ (BackupBytes E.P order) ss bs → ∀ m ∈ backupMessages E id order bs, nBlocks m.2 = 16 := by
    intro ds bs h m hm
    obtain ⟨b, hb, rfl⟩ := List.mem_map.1 hm
    clear hm
    induction h with
    | nil => cases hb
    | cons h1 _ ih =>
      rcases List.mem_cons.1 hb with rfl | hb
      · obtain ⟨c, -, h1⟩ := h1
        exact padded_blocks h1
      · exact ih hb
  have l1 := hb.length_eq
  have l2 := hb'.length_eq
  have hl : ss.length = ss'.length := by simpa using congrArg List.length hsame
  have hseed : (backupMessages E id order bs).map Prod.fst = (backupMessages E id order bs').map Prod.fst := by
    simp only [backupMessages, List.map_map]
    rw [show (Prod.fst ∘ fun b : Bytes => (backupSeed E id order, b)) = fun _ => backupSeed E id order from rfl,
      List.map_const', List.map_const', ← l1, ← l2, hl]
  rw [e ss bs hb, e ss' bs' hb', ← hsame]
  have := C104_private hv hlen X R 16 (by norm_num) (backupObserver id order D (ss.map Prod.fst)) _ _ hseed (hall ss bs hb)
    (hall ss' bs' hb')
  rw [show 32 * 16 + 32 = 544 from rfl] at this
  rw [this, backupMessages, List.length_map, ← l1]
  refine Finset.sum_congr rfl fun i hi => ?_
  have hi := mem_range.1 hi
  rw [List.getD_eq_getElem _ _ (by simp [backupMessages]; omega), List.getD_eq_getElem _ _ (by simp [backupMessages]; omega),
    List.getD_eq_getElem bs _ (by omega), List.getD_eq_getElem bs' _ (by omega)]
  simp [backupMessages]

/-! ### Votes and contest data together -/

variable {P : Params}

theorem itemSum_zero_fun (R : Finset Nat) (K : Nat) (vs : List (Nat × Nat)) : itemSum P R K vs (fun _ _ => 0) = 0 := by
  induction vs with
  | nil => rfl
  | cons v vs ih =>
    rw [itemSum]
    refine Finset.sum_eq_zero fun r _ => ?_
    cases elgamalEncrypt P v.1 r K with
    | none => rfl
    | some c => exact Finset.sum_eq_zero fun n _ => ih

theorem itemSum_add (R : Finset Nat) (K : Nat) (vs : List (Nat × Nat)) (F G : List (Ciphertext × DisjProof) → Nat → Int) :
    itemSum P R K vs (fun a t => F a t + G a t) = itemSum P R K vs F + itemSum P R K vs G := by
  induction vs generalizing F G with
  | nil => rfl
  | cons v vs ih =>
    rw [itemSum, itemSum, itemSum, ← Finset.sum_add_distrib]
    refine Finset.sum_congr rfl fun r _ => ?_
    cases elgamalEncrypt P v.1 r K with
    | none => rfl
    | some c =>
      dsimp only
      rw [← Finset.sum_add_distrib]
      exact Finset.sum_congr rfl fun n _ => ih _ _

theorem ballotShown_zero_fun (R : Finset Nat) (K : Nat) (b : List (List Nat × ContestPlan)) :
    ballotShown P R K b (fun _ => 0) = 0 := by
  induction b with
  | nil => rfl
  | cons c cs ih =>
    rw [ballotShown, contestShown]
    simp only [ih, Finset.sum_const_zero]
    exact itemSum_zero_fun _ _ _

theorem ballotShown_add (R : Finset Nat) (K : Nat) (b : List (List Nat × ContestPlan)) (F G : List PublishedContest → Int) :
    ballotShown P R K b (fun a => F a + G a) = ballotShown P R K b F + ballotShown P R K b G := by
  induction b generalizing F G with
  | nil => rfl
  | cons c cs ih =>
    simp only [ballotShown, contestShown]
    rw [← itemSum_add]
    congr 1
    funext items t
    rw [← Finset.sum_add_distrib]
    exact Finset.sum_congr rfl fun n _ => ih _ _

theorem ballotShown_sum {ι : Type} (R : Finset Nat) (K : Nat) (b : List (List Nat × ContestPlan)) (S : Finset ι)
    (F : ι → List PublishedContest → Int) :
    ballotShown P R K b (fun a => ∑ i ∈ S, F i a) = ∑ i ∈ S, ballotShown P R K b (F i) := by
  classical
  induction S using Finset.induction_on with
  | empty => simpa using ballotShown_zero_fun R K b
  | insert i S hi ih =>
    simp only [Finset.sum_insert hi]
    rw [ballotShown_add, ih]

theorem ballotShown_hashedSum (R : Finset Nat) (K : Nat) (b : List (List Nat × ContestPlan)) (data : List (Nat × Bytes))
    (F : List PublishedContest → List HashedCiphertext → Int) :
    ballotShown E.P R K b (fun pubs => hashedSum E R K data (F pubs))
      = hashedSum E R K data (fun cs => ballotShown E.P R K b (fun pubs => F pubs cs)) := by
  induction data generalizing F with
  | nil => rfl
  | cons m ms ih =>
    simp only [hashedSum]
    rw [ballotShown_sum]
    refine Finset.sum_congr rfl fun r _ => ?_
    cases hashedEncrypt E m.2 r K m.1 with
    | error => exact ballotShown_zero_fun R K b
    | ok c => exact ih _

/-- C104: ballots with their contest data: how differently an observer answers on two records of the same ballot styles is
exactly what adversaries gain from the votes (C102) and from the contest data. -/
theorem C104_ballots (hv : E.P.Valid) (hlen : HmacLen E) (X R : Finset Nat) (hR : ∀ r ∈ R, r ≠ 0)
    (D : Nat → List PublishedContest → List HashedCiphertext → Int) (b b' : List (List Nat × ContestPlan))
    (hb : Provable E.P b) (hb' : Provable E.P b') (hsame : planOf b = planOf b') (ms ms' : List (Nat × Bytes))
    (hseed : ms.map Prod.fst = ms'.map Prod.fst) (hm : ∀ m ∈ ms, nBlocks m.2 = 16) (hm' : ∀ m ∈ ms', nBlocks m.2 = 16) :
    let DV := fun K pubs => hashedSum E R K ms (D K pubs)
    let DD := fun K cs => ballotShown E.P R K b' (fun pubs => D K pubs cs)
    E.P.q * 256 ^ 544 * (recordSeen E X R D b ms - recordSeen E X R D b' ms')
      = 256 ^ 544 * ∑ i ∈ range (votesOf b).length,
          (ddhAdvantage E.P X R (adversaryOf E.P R (ciphertextObserver E.P (planOf b) DV) ((votesOf b').take i)
              ((votesOf b).getD i 0) ((votesOf b).drop (i + 1)))
            - ddhAdvantage E.P X R (adversaryOf E.P R (ciphertextObserver E.P (planOf b) DV) ((votesOf b').take i)
              ((votesOf b').getD i 0) ((votesOf b).drop (i + 1))))
        + ∑ i ∈ range ms.length, (hashedGain E X R DD 16 ms ms' i (ms.getD i (0, [])).1 (ms.getD i (0, [])).2
          - hashedGain E X R DD 16 ms ms' i (ms.getD i (0, [])).1 (ms'.getD i (0, [])).2) := by
  intro DV DD
  rw [← C102_ballot_private hv X R hR DV b b' hb hb' hsame]
  have h2 := C104_private hv hlen X R 16 (by norm_num) DD ms ms' hseed hm hm'
  rw [show 32 * 16 + 32 = 544 from rfl] at h2
  rw [← h2]
  have e1 : ∀ b, recordSeen E X R D b ms = published E.P X R DV b := fun b => rfl
  have e2 : ∀ ms, recordSeen E X R D b' ms = hashedSeen E X R DD ms := by
    intro ms
    unfold recordSeen hashedSeen
    exact Finset.sum_congr rfl fun x _ => ballotShown_hashedSum R _ b' ms _
  rw [← e1 b, ← e1 b', ← e2 ms, ← e2 ms']
  ring

/-! ### Concrete cases -/

/-- An observer who tries all nonces: is the one message encrypted with seed 5 the message `m`? -/
def triesNonces (E : Env) (m : Bytes) (K : Nat) : List HashedCiphertext → Int
  | [c] => if (List.range E.P.q).any (fun r => decide (hashedEncrypt E m r K 5 = .ok c)) then 1 else 0
  | _ => 0

/-- In the small group the observer tells the messages apart for each of the six keys and nonces, and the adversaries made of
the observer gain exactly that. -/
example : hashedSeen toyEnv {2, 3} {1, 4, 7} (triesNonces toyEnv [1, 2]) [(5, [1, 2])] = 6 ∧
    hashedSeen toyEnv {2, 3} {1, 4, 7} (triesNonces toyEnv [1, 2]) [(5, [3])] = 0 ∧
    hashedGain toyEnv {2, 3} {1, 4, 7} (triesNonces toyEnv [1, 2]) 1 [(5, [1, 2])] [(5, [3])] 0 5 [1, 2]
      - hashedGain toyEnv {2, 3} {1, 4, 7} (triesNonces toyEnv [1, 2]) 1 [(5, [1, 2])] [(5, [3])] 0 5 [3]
        = 13 * 256 ^ 64 * 6 := by
  have h1 : hashedSeen toyEnv {2, 3} {1, 4, 7} (triesNonces toyEnv [1, 2]) [(5, [1, 2])] = 6 := by decide +kernel
  have h2 : hashedSeen toyEnv {2, 3} {1, 4, 7} (triesNonces toyEnv [1, 2]) [(5, [3])] = 0 := by decide +kernel
  refine ⟨h1, h2, ?_⟩
  have := C104_private (E := toyEnv) extraSmall_valid (fun _ _ => rfl) {2, 3} {1, 4, 7} 1 (by norm_num)
    (triesNonces toyEnv [1, 2]) [(5, [1, 2])] [(5, [3])] rfl (by simp [nBlocks]) (by simp [nBlocks])
  rw [h1, h2] at this
  simp only [List.length_cons, List.length_nil, Finset.sum_range_succ, Finset.sum_range_zero, zero_add] at this
  exact this.symm

/-- Contest data of different lengths, to which the theorem applies. -/
example : ∃ bs bs', List.Forall₂ (fun (d : ContestData) b => d.toBytes (fun d => (d.writeIns.getD []).map fun _ => 7) = .ok b)
      [⟨none, none, none⟩, ⟨none, none, none⟩] bs ∧
    List.Forall₂ (fun (d : ContestData) b => d.toBytes (fun d => (d.writeIns.getD []).map fun _ => 7) = .ok b)
      [⟨none, none, some [("v", "a"), ("w", "b")]⟩, ⟨some .overVote, some ["x"], none⟩] bs' ∧ bs ≠ bs' := by
  obtain ⟨p, hp, -, hp'⟩ := C20_roundtrip [] 512 false (by simp) (by simp)
  obtain ⟨r, hr, -, hr'⟩ := C20_roundtrip [7, 7] 512 false (by simp) (by simp)
  refine ⟨[p, p], [r, p], .cons hp (.cons hp .nil), .cons hr (.cons hp .nil), fun h => ?_⟩
  simp only [List.cons.injEq, and_true] at h
  rw [h, hr'] at hp'
  cases hp'

/-- Backups of two different polynomials, to which the theorem applies. -/
example : ∃ bs bs', List.Forall₂ (BackupBytes extraSmall 2) [("a", generatePolynomial toyEnv [(3, 1), (5, 2)])] bs ∧
    List.Forall₂ (BackupBytes extraSmall 2) [("a", generatePolynomial toyEnv [(4, 1), (11, 2)])] bs' := by
  obtain ⟨b, hb⟩ := C104_backup_bytes extraSmall (by decide) (by norm_num [extraSmall]) 2 (by decide)
    ("a", generatePolynomial toyEnv [(3, 1), (5, 2)])
  obtain ⟨b', hb'⟩ := C104_backup_bytes extraSmall (by decide) (by norm_num [extraSmall]) 2 (by decide)
    ("a", generatePolynomial toyEnv [(4, 1), (11, 2)])
  exact ⟨[b], [b'], .cons hb .nil, .cons hb' .nil⟩

end EG
