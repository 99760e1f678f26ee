import Mathlib.Algebra.BigOperators.Group.List.Basic
import Verif.Spec.ElGamal
import Verif.Lemmas.Invert
import Verif.Lemmas.DiscreteLog

/-!
# Helper lemmas: ElGamal
-/

namespace EG

variable {P : Params}

theorem EncryptsWith.lt (hv : P.Valid) {K r m : Nat} {c : Ciphertext}
    (h : EncryptsWith P K r m c) : c.pad < P.p ∧ c.data < P.p := by
  rw [h.1, h.2]; exact ⟨Nat.mod_lt _ hv.p_pos, Nat.mod_lt _ hv.p_pos⟩

theorem encryptsWith_iff_cast (hv : P.Valid) {K r m : Nat} {c : Ciphertext} :
    EncryptsWith P K r m c ↔ c.pad < P.p ∧ c.data < P.p ∧
      (c.pad : ZMod P.p) = (P.g : ZMod P.p) ^ r ∧
      (c.data : ZMod P.p) = (P.g : ZMod P.p) ^ m * (K : ZMod P.p) ^ r := by
  constructor
  · intro h
    obtain ⟨h1, h2⟩ := h.lt hv
    refine ⟨h1, h2, ?_, ?_⟩
    · rw [h.1, ZMod.natCast_mod]; push_cast; rfl
    · rw [h.2, ZMod.natCast_mod]; push_cast; rfl
  · rintro ⟨h1, h2, h3, h4⟩
    constructor
    · rw [← castP_inj h1 (Nat.mod_lt _ hv.p_pos), h3, ZMod.natCast_mod]; push_cast; rfl
    · rw [← castP_inj h2 (Nat.mod_lt _ hv.p_pos), h4, ZMod.natCast_mod]; push_cast; rfl

theorem encrypt_spec (hv : P.Valid) {m r K : Nat} (hr : r ≠ 0) :
    ∃ c, elgamalEncrypt P m r K = some c ∧ EncryptsWith P K r m c := by
  refine ⟨_, by unfold elgamalEncrypt; rw [if_neg hr], ?_⟩
  rw [encryptsWith_iff_cast hv]
  refine ⟨gPowP_lt hv.p_pos _, multP_lt hv.one_lt_p _ _, gPowP_cast _, ?_⟩
  simp only [multP_cast, gPowP_cast, powP_cast]

theorem g_cast_ne_zero (hv : P.Valid) : (P.g : ZMod P.p) ≠ 0 := by
  have : Fact P.p.Prime := ⟨hv.p_prime⟩
  intro h
  have := g_cast_pow hv
  rw [h, zero_pow hv.q_pos.ne'] at this
  exact zero_ne_one this

theorem residue_ne_zero (hv : P.Valid) {x : ZMod P.p} (h : x ^ P.q = 1) : x ≠ 0 := by
  have : Fact P.p.Prime := ⟨hv.p_prime⟩
  intro h0
  rw [h0, zero_pow hv.q_pos.ne'] at h
  exact zero_ne_one h

theorem decryptKnownProduct_spec (hv : P.Valid) {maxE m product : Nat} {c : Ciphertext}
    (hm : m < P.q) (hmax : m ≤ maxE) (hp0 : (product : ZMod P.p) ≠ 0)
    (hc : (c.data : ZMod P.p) = (P.g : ZMod P.p) ^ m * (product : ZMod P.p)) :
    c.decryptKnownProduct P maxE product = .ok m := by
  have : Fact P.p.Prime := ⟨hv.p_prime⟩
  obtain ⟨i, hi⟩ := invert_isOk hv.p_prime hp0
  have hne : product ≠ 0 := by rintro rfl; simp at hp0
  have hmul : multP P c.data i = gPowP P m := by
    rw [← castP_inj (multP_lt hv.one_lt_p _ _) (gPowP_lt hv.p_pos _), multP_cast, gPowP_cast, hc,
      (invert_cast hv.p_prime hi).2, mul_assoc, mul_inv_cancel₀ hp0, mul_one]
  simp only [Ciphertext.decryptKnownProduct, multInvP, if_neg hne, hi, bind, Except.bind, hmul]
  exact dlog_gPow hv hmax hm

theorem foldl_ct (P : Params) (cs : List Ciphertext) (c : Ciphertext) :
    let r := cs.foldl (fun r x => ⟨multP P r.pad x.pad, multP P r.data x.data⟩) c
    (r.pad : ZMod P.p) = c.pad * (cs.map (fun x : Ciphertext => (x.pad : ZMod P.p))).prod ∧
    (r.data : ZMod P.p) = c.data * (cs.map (fun x : Ciphertext => (x.data : ZMod P.p))).prod := by
  induction cs generalizing c with
  | nil => simp
  | cons d cs ih =>
    obtain ⟨h1, h2⟩ := ih ⟨multP P c.pad d.pad, multP P c.data d.data⟩
    simp only [List.foldl_cons, List.map_cons, List.prod_cons]
    simp only at h1 h2
    rw [h1, h2, multP_cast, multP_cast]
    exact ⟨by ring, by ring⟩

theorem foldl_ct_lt (hp : 1 < P.p) (cs : List Ciphertext) (c : Ciphertext)
    (hc : c.pad < P.p ∧ c.data < P.p) :
    let r := cs.foldl (fun r x => ⟨multP P r.pad x.pad, multP P r.data x.data⟩) c
    r.pad < P.p ∧ r.data < P.p := by
  induction cs generalizing c with
  | nil => exact hc
  | cons d cs ih => exact ih _ ⟨multP_lt hp _ _, multP_lt hp _ _⟩

/-- The components of an accumulation, as products in the field. -/
theorem elgamalAdd_cast {l : List Ciphertext} {c : Ciphertext} (h : elgamalAdd P l = .ok c) :
    (c.pad : ZMod P.p) = (l.map (fun x : Ciphertext => (x.pad : ZMod P.p))).prod ∧
    (c.data : ZMod P.p) = (l.map (fun x : Ciphertext => (x.data : ZMod P.p))).prod := by
  cases l with
  | nil => cases h
  | cons d cs =>
    simp only [elgamalAdd, Except.ok.injEq] at h
    subst h
    simpa using foldl_ct P cs d

theorem elgamalAdd_lt (hp : 1 < P.p) {l : List Ciphertext} {c : Ciphertext}
    (hl : ∀ x ∈ l, x.pad < P.p ∧ x.data < P.p) (h : elgamalAdd P l = .ok c) :
    c.pad < P.p ∧ c.data < P.p := by
  cases l with
  | nil => cases h
  | cons d cs =>
    simp only [elgamalAdd, Except.ok.injEq] at h
    subst h
    exact foldl_ct_lt hp cs d (hl d (by simp))

theorem elgamalAdd_isOk {l : List Ciphertext} (h : l ≠ []) : ∃ c, elgamalAdd P l = .ok c := by
  cases l with
  | nil => exact absurd rfl h
  | cons d cs => exact ⟨_, rfl⟩

end EG
