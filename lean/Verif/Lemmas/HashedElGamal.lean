import Verif.Lemmas.Hex
import Verif.Lemmas.ElGamal
import Verif.Model.HashedElGamal
import Verif.Spec.Bytes

/-!
# Helper lemmas: blocks, keys and the xor loop of hashed ElGamal
-/

namespace EG

theorem leBytes_length (k n : Nat) : (leBytes k n).length = k := by
  induction k generalizing n with
  | zero => rfl
  | succ k ih => simp [leBytes, ih]

theorem toBytesLE_ok {k n : Nat} (h : n < 256 ^ k) : toBytesLE k (n : Int) = .ok (leBytes k n) := by
  simp only [toBytesLE, Int.toNat_natCast]
  rw [if_neg]
  push Not
  exact ⟨by omega, h⟩

/-- the message that is fed to HMAC for a positive length -/
def fixed (message : Bytes) (length start : Nat) : Bytes :=
  if length = 0 then message else leBytes 4 start ++ message ++ leBytes 4 length

theorem getHmac_none (E : Env) (k m : Bytes) (s : Nat) : getHmac E k m none s = .ok (E.hmac k m) := rfl

theorem getHmac_some (E : Env) (k m : Bytes) {l s : Nat} (hl : l < 256 ^ 4) (hs : s < 256 ^ 4) :
    getHmac E k m (some l) s = .ok (E.hmac k (fixed m l s)) := by
  cases l with
  | zero => rfl
  | succ l =>
    rw [getHmac, toBytesLE_ok hs, toBytesLE_ok hl]
    simp [bind, Except.bind, pure, Except.pure, fixed]

theorem getHmac_overflow (E : Env) (k m : Bytes) {l s : Nat} (hl : 256 ^ 4 ≤ l) (hs : s < 256 ^ 4) :
    getHmac E k m (some l) s = .error .overflow := by
  cases l with
  | zero => norm_num at hl
  | succ l =>
    rw [getHmac, toBytesLE_ok hs]
    have : toBytesLE 4 ((l + 1 : Nat) : Int) = .error .overflow := by
      simp only [toBytesLE, Int.toNat_natCast]
      rw [if_pos (Or.inr hl)]
    rw [this]; rfl

/-- one block of key stream per block -/
def xorAll (key : Nat → Bytes) : List Bytes → Nat → List Bytes
  | [], _ => []
  | b :: bs, i => xorBytes b (key (i + 1)) :: xorAll key bs (i + 1)

theorem xorLoop_ok (E : Env) (sk seed : Bytes) {L : Nat} (hL : L < 256 ^ 4) (blocks : List Bytes) (i : Nat)
    (hi : i + blocks.length < 256 ^ 4) :
    xorLoop E sk seed L blocks i
      = .ok (xorAll (fun j => E.hmac sk (fixed seed L j)) blocks i).flatten := by
  induction blocks generalizing i with
  | nil => rfl
  | cons b bs ih =>
    simp only [List.length_cons] at hi
    rw [xorLoop, getHmac_some E sk seed hL (by omega), ih (i + 1) (by omega)]
    simp [bind, Except.bind, pure, Except.pure, xorAll]

theorem xorBytes_length {a b : Bytes} (h : b.length = a.length) : (xorBytes a b).length = a.length := by
  simp [xorBytes, h]

theorem xorBytes_cancel {a b : Bytes} (h : b.length = a.length) : xorBytes (xorBytes a b) b = a := by
  induction a generalizing b with
  | nil => rfl
  | cons x a ih =>
    cases b with
    | nil => simp at h
    | cons y b =>
      simp only [List.length_cons, Nat.add_right_cancel_iff] at h
      have := ih h
      simp only [xorBytes, List.zipWith_cons_cons] at this ⊢
      rw [this]
      congr 1
      rw [UInt8.xor_assoc, UInt8.xor_self, UInt8.xor_zero]

theorem xorAll_length (key : Nat → Bytes) (bs : List Bytes) (i : Nat) :
    (xorAll key bs i).length = bs.length := by
  induction bs generalizing i with
  | nil => rfl
  | cons b bs ih => simp [xorAll, ih]

theorem xorAll_mem_length {key : Nat → Bytes} (hkey : ∀ j, (key j).length = 32) {bs : List Bytes}
    (hbs : ∀ b ∈ bs, b.length = 32) (i : Nat) : ∀ b ∈ xorAll key bs i, b.length = 32 := by
  induction bs generalizing i with
  | nil => simp [xorAll]
  | cons b bs ih =>
    intro x hx
    rcases List.mem_cons.1 hx with rfl | hx
    · have hb := hbs b (by simp)
      rw [xorBytes_length (by rw [hkey, hb]), hb]
    · exact ih (fun y hy => hbs y (by simp [hy])) (i + 1) x hx

theorem xorAll_cancel {key : Nat → Bytes} (hkey : ∀ j, (key j).length = 32) {bs : List Bytes}
    (hbs : ∀ b ∈ bs, b.length = 32) (i : Nat) : xorAll key (xorAll key bs i) i = bs := by
  induction bs generalizing i with
  | nil => rfl
  | cons b bs ih =>
    have hb := hbs b (by simp)
    simp only [xorAll]
    rw [xorBytes_cancel (by rw [hkey, hb]), ih (fun y hy => hbs y (by simp [hy]))]

theorem flatten_length_32 {bs : List Bytes} (hbs : ∀ b ∈ bs, b.length = 32) :
    bs.flatten.length = 32 * bs.length := by
  induction bs with
  | nil => rfl
  | cons b bs ih =>
    rw [List.flatten_cons, List.length_append, ih (fun y hy => hbs y (by simp [hy])), hbs b (by simp),
      List.length_cons]
    ring

/-- cutting a concatenation of 32-byte blocks gives the blocks back -/
theorem cut_flatten {bs : List Bytes} (hbs : ∀ b ∈ bs, b.length = 32) :
    (List.range bs.length).map (fun i => (bs.flatten.take (32 * (i + 1))).drop (32 * i)) = bs := by
  induction bs with
  | nil => rfl
  | cons b bs ih =>
    have hb := hbs b (by simp)
    have ih' := ih (fun y hy => hbs y (by simp [hy]))
    rw [List.length_cons, List.range_succ_eq_map, List.map_cons, List.map_map]
    congr 1
    · rw [List.flatten_cons, List.take_append, hb]
      simp [hb]
    · conv_rhs => rw [← ih']
      apply List.map_congr_left
      intro i _
      simp only [Function.comp_apply, List.flatten_cons]
      rw [List.take_append, List.drop_append, hb]
      have h1 : List.take (32 * (i.succ + 1)) b = b := List.take_of_length_le (by omega)
      rw [h1, List.drop_eq_nil_of_le (by rw [hb]; omega), List.nil_append, hb]
      congr 1

theorem getChunks_flatten {bs : List Bytes} (hbs : ∀ b ∈ bs, b.length = 32) :
    getChunks bs.flatten = (bs, 32 * bs.length * 8) := by
  have hl := flatten_length_32 hbs
  have hp : padBlocks bs.flatten = bs.flatten := by
    rw [padBlocks, if_pos (by omega)]
  simp only [getChunks, hp]
  rw [hl, Nat.mul_div_cancel_left _ (by norm_num)]
  rw [cut_flatten hbs]

/-- the number of blocks of a message -/
def nBlocks (m : Bytes) : Nat := (m.length + 31) / 32

theorem padBlocks_eq (m : Bytes) : padBlocks m = zeroExtend (32 * nBlocks m) m := by
  simp only [padBlocks, zeroExtend, nBlocks]
  split
  · rw [show 32 * ((m.length + 31) / 32) - m.length = 0 by omega]; simp
  · congr 2; omega

theorem zeroExtend_length {n : Nat} {m : Bytes} (h : m.length ≤ n) : (zeroExtend n m).length = n := by
  simp [zeroExtend, h]

theorem padBlocks_length (m : Bytes) : (padBlocks m).length = 32 * nBlocks m := by
  rw [padBlocks_eq, zeroExtend_length]; simp only [nBlocks]; omega

theorem cut_spec (n : Nat) : ∀ (m : Bytes), m.length = 32 * n →
    ∃ bs : List Bytes, (∀ b ∈ bs, b.length = 32) ∧ bs.length = n ∧ bs.flatten = m := by
  induction n with
  | zero =>
    intro m hm
    exact ⟨[], by simp, rfl, by rw [List.length_eq_zero_iff.1 (by omega : m.length = 0)]; rfl⟩
  | succ n ih =>
    intro m hm
    obtain ⟨bs, h1, h2, h3⟩ := ih (m.drop 32) (by rw [List.length_drop]; omega)
    refine ⟨m.take 32 :: bs, ?_, by simp [h2], by rw [List.flatten_cons, h3, List.take_append_drop]⟩
    intro b hb
    rcases List.mem_cons.1 hb with rfl | hb
    · rw [List.length_take]; omega
    · exact h1 b hb

theorem getChunks_spec (m : Bytes) : ∃ bs : List Bytes, (∀ b ∈ bs, b.length = 32) ∧
    bs.length = nBlocks m ∧ bs.flatten = padBlocks m ∧ getChunks m = (bs, 32 * nBlocks m * 8) := by
  obtain ⟨bs, h1, h2, h3⟩ := cut_spec (nBlocks m) (padBlocks m) (padBlocks_length m)
  refine ⟨bs, h1, h2, h3, ?_⟩
  have hpp : padBlocks bs.flatten = padBlocks m := by
    rw [padBlocks, if_pos (by rw [flatten_length_32 h1]; omega), h3]
  have := getChunks_flatten h1
  rw [h2] at this
  rw [← this]
  simp only [getChunks, hpp]

end EG
