import Verif.Model.ChaumPedersen
import Verif.Lemmas.ElGamal

/-!
# Helper lemmas: Chaum-Pedersen and Schnorr proofs as equations in `ZMod p` and `ZMod q`
-/

namespace EG

variable {P : Params}

theorem hashElems_lt {E : Env} (hq : 0 < E.P.q) (l : List HArg) : hashElems E l < E.P.q :=
  Nat.mod_lt _ hq

theorem nonce_lt {E : Env} (hq : 0 < E.P.q) (s : Nat) (h : List HArg) (i : Nat) :
    nonce E s h i < E.P.q := hashElems_lt hq _

theorem nat_eq_iff_castP {a b : Nat} (ha : a < P.p) (hb : b < P.p) :
    (a == b) = true ↔ (a : ZMod P.p) = (b : ZMod P.p) := by
  rw [beq_iff_eq, castP_inj ha hb]

/-- The equations that `DisjProof.isValid` checks. -/
theorem DisjProof.isValid_iff {E : Env} (hv : E.P.Valid) (pf : DisjProof) (m : Ciphertext) (k q : Nat) :
    pf.isValid E m k q = true ↔
      isValidResidue E.P m.pad = true ∧ isValidResidue E.P m.data = true ∧
      isValidResidue E.P pf.a0 = true ∧ isValidResidue E.P pf.b0 = true ∧
      isValidResidue E.P pf.a1 = true ∧ isValidResidue E.P pf.b1 = true ∧
      pf.c0 < E.P.q ∧ pf.c1 < E.P.q ∧ pf.v0 < E.P.q ∧ pf.v1 < E.P.q ∧
      addQ E.P pf.c0 pf.c1 = pf.c ∧
      pf.c = hashElems E (disjHashArgs q m pf.a0 pf.b0 pf.a1 pf.b1) ∧
      (E.P.g : ZMod E.P.p) ^ pf.v0 = pf.a0 * (m.pad : ZMod E.P.p) ^ pf.c0 ∧
      (E.P.g : ZMod E.P.p) ^ pf.v1 = pf.a1 * (m.pad : ZMod E.P.p) ^ pf.c1 ∧
      (k : ZMod E.P.p) ^ pf.v0 = pf.b0 * (m.data : ZMod E.P.p) ^ pf.c0 ∧
      (E.P.g : ZMod E.P.p) ^ pf.c1 * (k : ZMod E.P.p) ^ pf.v1
        = pf.b1 * (m.data : ZMod E.P.p) ^ pf.c1 := by
  unfold DisjProof.isValid inBoundsQ
  simp only [Bool.and_eq_true, decide_eq_true_eq]
  rw [nat_eq_iff_castP (gPowP_lt hv.p_pos _) (multP_lt hv.one_lt_p _ _),
    nat_eq_iff_castP (gPowP_lt hv.p_pos _) (multP_lt hv.one_lt_p _ _),
    nat_eq_iff_castP (powP_lt hv.p_pos _ _) (multP_lt hv.one_lt_p _ _),
    nat_eq_iff_castP (multP_lt hv.one_lt_p _ _) (multP_lt hv.one_lt_p _ _)]
  simp only [multP_cast, gPowP_cast, powP_cast, beq_iff_eq]
  constructor
  · rintro ⟨⟨⟨⟨⟨⟨⟨⟨⟨⟨⟨⟨⟨⟨h1, h2⟩, h3⟩, h4⟩, h5⟩, h6⟩, h7⟩, h8⟩, h9⟩, h10⟩, h11, h12⟩, h13⟩, h14⟩, h15⟩,
      h16⟩
    exact ⟨h1, h2, h3, h4, h5, h6, h7, h8, h9, h10, h11, h12, h13, h14, h15, h16⟩
  · rintro ⟨h1, h2, h3, h4, h5, h6, h7, h8, h9, h10, h11, h12, h13, h14, h15, h16⟩
    exact ⟨⟨⟨⟨⟨⟨⟨⟨⟨⟨⟨⟨⟨⟨h1, h2⟩, h3⟩, h4⟩, h5⟩, h6⟩, h7⟩, h8⟩, h9⟩, h10⟩, h11, h12⟩, h13⟩, h14⟩, h15⟩,
      h16⟩

theorem CPProof.isValid_iff {E : Env} (hv : E.P.Valid) (pf : CPProof) (msg : Ciphertext)
    (k m q : Nat) :
    pf.isValid E msg k m q = true ↔
      isValidResidue E.P msg.pad = true ∧ isValidResidue E.P msg.data = true ∧
      isValidResidue E.P k = true ∧ isValidResidue E.P m = true ∧
      isValidResidue E.P pf.a = true ∧ isValidResidue E.P pf.b = true ∧
      pf.c < E.P.q ∧ pf.v < E.P.q ∧ q < E.P.q ∧
      pf.c = hashElems E (cpHashArgs q msg pf.a pf.b m) ∧
      (E.P.g : ZMod E.P.p) ^ pf.v = pf.a * (k : ZMod E.P.p) ^ pf.c ∧
      (msg.pad : ZMod E.P.p) ^ pf.v = pf.b * (m : ZMod E.P.p) ^ pf.c := by
  unfold CPProof.isValid inBoundsQ
  simp only [Bool.and_eq_true, decide_eq_true_eq]
  rw [nat_eq_iff_castP (gPowP_lt hv.p_pos _) (multP_lt hv.one_lt_p _ _),
    nat_eq_iff_castP (powP_lt hv.p_pos _ _) (multP_lt hv.one_lt_p _ _)]
  simp only [multP_cast, gPowP_cast, powP_cast, beq_iff_eq]
  tauto

theorem ConstProof.isValid_iff {E : Env} (hv : E.P.Valid) (pf : ConstProof) (m : Ciphertext)
    (k q : Nat) :
    pf.isValid E m k q = true ↔
      isValidResidue E.P m.pad = true ∧ isValidResidue E.P m.data = true ∧
      isValidResidue E.P pf.a = true ∧ isValidResidue E.P pf.b = true ∧
      pf.c < E.P.q ∧ pf.v < E.P.q ∧
      pf.c = hashElems E (constHashArgs q m pf.a pf.b) ∧
      (0 ≤ pf.constant ∧ pf.constant < 1000000000) ∧ pf.constant < E.P.q ∧
      (E.P.g : ZMod E.P.p) ^ pf.v = pf.a * (m.pad : ZMod E.P.p) ^ pf.c ∧
      (E.P.g : ZMod E.P.p) ^ (pf.c * pf.constant.toNat % E.P.p) * (k : ZMod E.P.p) ^ pf.v
        = pf.b * (m.data : ZMod E.P.p) ^ pf.c := by
  have hmul : ∀ a b, multP E.P a b = a * b % E.P.p := by
    intro a b
    rw [← castP_inj (multP_lt hv.one_lt_p _ _) (Nat.mod_lt _ hv.p_pos), multP_cast, ZMod.natCast_mod]
    push_cast; rfl
  unfold ConstProof.isValid inBoundsQ
  by_cases hc : 0 ≤ pf.constant ∧ pf.constant < E.P.q
  · have : intToQ E.P pf.constant = some pf.constant.toNat := by
      unfold intToQ mkQ; rw [if_pos hc]
    simp only [this, Option.isSome_some, Option.getD_some, Bool.and_eq_true, decide_eq_true_eq]
    rw [nat_eq_iff_castP (gPowP_lt hv.p_pos _) (multP_lt hv.one_lt_p _ _),
      nat_eq_iff_castP (multP_lt hv.one_lt_p _ _) (multP_lt hv.one_lt_p _ _)]
    simp only [multP_cast, gPowP_cast, powP_cast, beq_iff_eq]
    rw [hmul]
    tauto
  · have : intToQ E.P pf.constant = none := by
      unfold intToQ mkQ; rw [if_neg hc]
    simp only [this, Option.isSome_none, Bool.and_eq_true, decide_eq_true_eq]
    constructor
    · tauto
    · intro h; exact absurd ⟨h.2.2.2.2.2.2.2.1.1, h.2.2.2.2.2.2.2.2.1⟩ hc

theorem SchnorrProof.isValid_iff {E : Env} (hv : E.P.Valid) (pf : SchnorrProof) :
    pf.isValid E = true ↔
      isValidResidue E.P pf.k = true ∧ pf.h < E.P.p ∧ pf.u < E.P.q ∧
      hashElems E [.elem pf.k, .elem pf.h] = pf.c ∧
      (E.P.g : ZMod E.P.p) ^ pf.u = pf.h * (pf.k : ZMod E.P.p) ^ pf.c := by
  unfold SchnorrProof.isValid inBoundsQ inBoundsP
  simp only [Bool.and_eq_true, decide_eq_true_eq]
  rw [nat_eq_iff_castP (gPowP_lt hv.p_pos _) (multP_lt hv.one_lt_p _ _)]
  simp only [multP_cast, gPowP_cast, powP_cast, beq_iff_eq]
  constructor
  · rintro ⟨⟨⟨⟨h1, h2⟩, h3⟩, h4⟩, h5⟩
    refine ⟨h1, h2, h3, h4, ?_⟩
    rw [← h4]; exact h5
  · rintro ⟨h1, h2, h3, h4, h5⟩
    refine ⟨⟨⟨⟨h1, h2⟩, h3⟩, h4⟩, ?_⟩
    rw [h4]; exact h5

/-- Subgroup elements as powers of `g`. -/
theorem residue_log (hv : P.Valid) {a : Nat} (h : isValidResidue P a = true) :
    ∃ e : Nat, (a : ZMod P.p) = (P.g : ZMod P.p) ^ e := by
  obtain ⟨e, _, he⟩ := exists_log hv ((isValidResidue_iff hv a).1 h).2
  exact ⟨e, he.symm⟩

theorem residue_of_pow (hv : P.Valid) {a : Nat} (ha : a < P.p) {e : Nat}
    (h : (a : ZMod P.p) = (P.g : ZMod P.p) ^ e) : isValidResidue P a = true := by
  rw [isValidResidue_iff hv]
  refine ⟨ha, ?_⟩
  rw [h, ← pow_mul, mul_comm, pow_mul, g_cast_pow hv, one_pow]

theorem powP_residue (hv : P.Valid) {a : Nat} (e : Nat) (h : isValidResidue P a = true) :
    isValidResidue P (powP P a e) = true := by
  obtain ⟨x, hx⟩ := residue_log hv h
  exact residue_of_pow hv (powP_lt hv.p_pos _ _) (e := x * e) (by rw [powP_cast, hx, pow_mul])

theorem gPowP_residue (hv : P.Valid) (e : Nat) : isValidResidue P (gPowP P e) = true :=
  residue_of_pow hv (gPowP_lt hv.p_pos _) (gPowP_cast e)

theorem multP_residue (hv : P.Valid) {a b : Nat} (ha : isValidResidue P a = true)
    (hb : isValidResidue P b = true) : isValidResidue P (multP P a b) = true := by
  obtain ⟨x, hx⟩ := residue_log hv ha
  obtain ⟨y, hy⟩ := residue_log hv hb
  exact residue_of_pow hv (multP_lt hv.one_lt_p _ _) (e := x + y) (by rw [multP_cast, hx, hy, pow_add])

theorem EncryptsWith.residue (hv : P.Valid) {K r m : Nat} {c : Ciphertext}
    (hK : isValidResidue P K = true) (h : EncryptsWith P K r m c) :
    isValidResidue P c.pad = true ∧ isValidResidue P c.data = true := by
  obtain ⟨h1, h2, h3, h4⟩ := (encryptsWith_iff_cast hv).1 h
  obtain ⟨k, hk⟩ := residue_log hv hK
  refine ⟨residue_of_pow hv h1 h3, residue_of_pow hv h2 (e := m + k * r) ?_⟩
  rw [h4, hk, pow_add, pow_mul]

/-- Equality of products of powers of `g` as a linear equation in the exponents. -/
theorem g_eq_iff (hv : P.Valid) (a b : Nat) :
    (P.g : ZMod P.p) ^ a = (P.g : ZMod P.p) ^ b ↔ (a : ZMod P.q) = (b : ZMod P.q) := g_pow_inj hv

end EG
