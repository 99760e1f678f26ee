import Verif.Spec.KeyCeremony
import Verif.Props.HashedElGamal
import Verif.Props.Bytes
import Verif.Props.Polynomial

/-!
# Lemmas for the key ceremony
-/

namespace EG

theorem toHex_length_le {n k : Nat} (hk : 0 < k) (h : n < 256 ^ k) : (toHex n).length ≤ 2 * k := by
  rw [toHex_eq_pairs]
  have h1 := natBytes_length_le hk h
  have h2 : ∀ l : Bytes, (l.flatMap hexPair).length = 2 * l.length := by
    intro l
    induction l with
    | nil => rfl
    | cons a l ih => rw [List.flatMap_cons, List.length_append, ih]; simp [hexPair]; omega
  rw [h2]; omega

theorem coordinateJson_length (n : Nat) : (coordinateJson n).length = (toHex n).length + 18 := by
  simp only [coordinateJson, asciiBytes, List.length_map, List.length_append]
  have h1 : "{\"coordinate\": \"".toList.length = 16 := by decide
  have h2 : "\"}".toList.length = 2 := by decide
  omega

theorem strictLoads_reads : ReadsCoordinate strictLoads := by
  intro n
  have hlen := coordinateJson_length n
  have htext : (((coordinateJson n).drop 16).take ((coordinateJson n).length - 18)).map
      (fun x => Char.ofNat x.toNat) = toHex n := by
    rw [hlen, Nat.add_sub_cancel]
    simp only [coordinateJson, asciiBytes]
    rw [← List.map_drop, ← List.map_take, List.map_map, List.append_assoc,
      List.drop_append_of_le_length (by decide), show List.drop 16 "{\"coordinate\": \"".toList = [] by decide,
      List.nil_append, List.take_left']
    · conv_rhs => rw [← List.map_id (toHex n)]
      apply List.map_congr_left
      intro c hc
      obtain ⟨d, hd, rfl⟩ := toHex_chars n c hc
      have : ∀ d < 16, Char.ofNat (UInt8.ofNat (hexChar d).toNat).toNat = hexChar d := by decide
      simpa using this d hd
    · rfl
  unfold strictLoads
  simp only [htext]
  exact if_pos rfl

theorem coordinateToBytes_ok {n q : Nat} (hn : n < q) (hq : q ≤ 256 ^ 246) :
    ∃ p, coordinateToBytes n = .ok p ∧ p.length = 512 ∧ removePadding p 512 = coordinateJson n := by
  have h1 := toHex_length_le (by norm_num) (Nat.lt_of_lt_of_le hn hq)
  have h2 := coordinateJson_length n
  exact C20_roundtrip (coordinateJson n) 512 false (by omega) (by omega)

theorem coordinateFromBytes_ok {P : Params} {loads : Bytes → R (List Char)} (hl : ReadsCoordinate loads) {n : Nat}
    (hn : n < P.q) {p : Bytes} (hp : removePadding p 512 = coordinateJson n) :
    coordinateFromBytes P loads p = .ok n := by
  simp only [coordinateFromBytes, hp, hl n, bind, Except.bind, hexToInt_toHex, mkQ]
  rw [if_pos (by omega)]
  simp

theorem coordinateFromBytes_lt {P : Params} {loads : Bytes → R (List Char)} {p : Bytes} {n : Nat}
    (h : coordinateFromBytes P loads p = .ok n) : n < P.q := by
  simp only [coordinateFromBytes, bind, Except.bind] at h
  cases h1 : loads (removePadding p 512) with
  | error => rw [h1] at h; cases h
  | ok x =>
    rw [h1] at h
    simp only at h
    cases h2 : hexToInt x with
    | error => rw [h2] at h; cases h
    | ok y =>
      rw [h2] at h
      have := mkQ_ok h
      omega

theorem zeroExtend_self {m : Bytes} {k : Nat} (h : m.length = k) : zeroExtend k m = m := by
  simp [zeroExtend, h]

end EG
