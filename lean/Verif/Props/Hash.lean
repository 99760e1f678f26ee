import Verif.Lemmas.Hash
import Verif.Spec.Toy

/-!
# C21 and C22: hash input encoding and nonce sequences
-/

namespace EG

/-! ### C21 -/

/-- C21 When no string argument contains the separator `|`, the hashed text determines the number of
arguments and the text of each of them.  Missing from the full claim: strings containing the separator, and
arguments of different types with the same text (`C21_ambiguous_fails`). -/
theorem C21_texts_determined_partial (E : Env) (l l' : List HArg)
    (hl : ∀ a ∈ l, ∀ s, a = .str s → '|' ∉ s.toList) (hl' : ∀ a ∈ l', ∀ s, a = .str s → '|' ∉ s.toList)
    (h : hashText E l = hashText E l') : l.map (tok E) = l'.map (tok E) := by
  have conv : ∀ a : HArg, (∀ s, a = .str s → '|' ∉ s.toList) → noBar a := by
    intro a ha
    cases a <;> simp only [noBar]
    exact ha _ rfl
  exact encs_inj E l l' (fun a ha => conv a (hl a ha)) (fun a ha => conv a (hl' a ha)) (List.cons.inj h).2

/-- C21 For argument lists (nested to any depth, of any lengths) whose arguments have the same types
position by position and whose strings do not contain the separator, equal hashes mean equal arguments or an
explicit collision among the texts that were hashed. -/
theorem C21_binding_partial (E : Env) (l l' : List HArg) (hk : sameKinds l l')
    (h : hashElems E l = hashElems E l') : l = l' ∨ CollisionIn E (hashTexts E l ++ hashTexts E l') :=
  hashElems_binding hk h

/-- C21 (negative) Without these conditions different argument lists hash to the same text, whatever the
hash function: a separator inside a string, `None` against the empty list and the text "null", an integer
against an element or a string. -/
theorem C21_ambiguous_fails (E : Env) :
    hashText E [.str "a|b"] = hashText E [.str "a", .str "b"] ∧
    hashText E [.none] = hashText E [.list []] ∧
    hashText E [.none] = hashText E [.str "null"] ∧
    hashText E [.int 10] = hashText E [.elem 16] ∧
    hashText E [.str "10"] = hashText E [.elem 16] := by
  refine ⟨?_, ?_, ?_, ?_, ?_⟩ <;> simp only [hashText, encs, tok] <;> decide

example : sameKinds [.str "contest", .int 3, .list [.elem 5, .elem 6]] [.str "other", .int 4, .list [.elem 5]] := by
  simp [sameKinds, sameKind, noBar]

/-! ### C22 -/

/-- C22 Indexing with a non-negative index and `get_with_headers` without headers return the same value;
a negative index raises `TypeError` for both. -/
theorem C22_index (E : Env) (seed : Nat) (hs : List HArg) (i : Nat) :
    nonceAt E seed hs i = .ok (nonce E seed hs i) ∧
    nonceGetWithHeaders E (noncesSeed E seed hs) i [] = .ok (nonce E seed hs i) := by
  have h : ¬ ((i : Int) < 0) := by omega
  constructor <;> simp [nonceAt, nonceGetWithHeaders, nonce, h]

/-- C22 Negative indices raise, with any headers. -/
theorem C22_negative_raises (E : Env) (seed : Nat) (hs hs' : List HArg) (i : Int) (hi : i < 0) :
    nonceAt E seed hs i = .error .type ∧
    nonceGetWithHeaders E (noncesSeed E seed hs) i hs' = .error .type := by
  simp [nonceAt, nonceGetWithHeaders, hi]

/-- C22 Open slices raise. -/
theorem C22_open_slice_raises (E : Env) (seed : Nat) (hs : List HArg) (start step : Option Int) :
    nonceSlice E seed hs start none step = .error .type := rfl

theorem mapM_nonce (E : Env) (seed : Nat) (hs : List HArg) (l : List Int) (hl : ∀ i ∈ l, 0 ≤ i) :
    l.mapM (fun i => nonceAt E seed hs i) = .ok (l.map (fun i => nonce E seed hs i.toNat)) := by
  induction l with
  | nil => rfl
  | cons i l ih =>
    have hi := hl i (by simp)
    obtain ⟨n, rfl⟩ := Int.eq_ofNat_of_zero_le hi
    rw [List.mapM_cons, ih (fun j hj => hl j (by simp [hj])), (C22_index E seed hs n).1]
    simp [bind, Except.bind, pure, Except.pure]

/-- C22 The slice `[a:b:s]` for `s > 0` has the nonces at `a, a+s, a+2s, …` below `b`, and only these. -/
theorem C22_slice (E : Env) (seed : Nat) (hs : List HArg) (a b s : Nat) (hpos : 0 < s) :
    ∃ l, nonceSlice E seed hs (some a) (some b) (some s) = .ok l ∧
      (∀ k, a + s * k < b → l[k]? = some (nonce E seed hs (a + s * k))) ∧
      (∀ k, b ≤ a + s * k → l[k]? = none) := by
  have hs0 : (s : Int) ≠ 0 := by omega
  have hsp : (s : Int) > 0 := by omega
  simp only [nonceSlice, pyRange, hs0, hsp, if_true, if_false, Option.getD_some, bind, Except.bind]
  set n := (((b : Int) - a + s - 1) / s).toNat with hn
  rw [mapM_nonce _ _ _ _ (by
    intro i hi
    obtain ⟨k, _, rfl⟩ := List.mem_map.1 hi
    positivity)]
  have hk : ∀ k : Nat, k < n ↔ a + s * k < b := by
    intro k
    have h1 : k < n ↔ (k : Int) + 1 ≤ ((b : Int) - a + s - 1) / s := by omega
    rw [h1, Int.le_ediv_iff_mul_le hsp]
    constructor
    · intro h
      have : (a : Int) + s * k < b := by nlinarith
      exact_mod_cast this
    · intro h
      have h' : (a : Int) + s * k < b := by exact_mod_cast h
      nlinarith
  refine ⟨_, rfl, ?_, ?_⟩
  · intro k h
    rw [List.map_map, List.getElem?_map, List.getElem?_range ((hk k).2 h)]
    simp only [Option.map_some, Function.comp_apply]
    congr 2
  · intro k h
    rw [List.getElem?_eq_none]
    simp only [List.length_map, List.length_range]
    have := hk k
    omega

/-- C22 A slice without start and step is the initial segment of the sequence. -/
theorem C22_initial_slice (E : Env) (seed : Nat) (hs : List HArg) (b : Nat) :
    nonceSlice E seed hs none (some b) none = .ok ((List.range b).map (nonce E seed hs)) := by
  simp only [nonceSlice, pyRange, Option.getD_none, bind, Except.bind]
  rw [if_neg (by omega), if_pos (by omega)]
  simp only []
  rw [mapM_nonce _ _ _ _ (by
    intro i hi
    obtain ⟨k, _, rfl⟩ := List.mem_map.1 hi
    omega)]
  congr 1
  rw [List.map_map, show (((b : Int) - 0 + 1 - 1) / 1).toNat = b by omega]
  apply List.map_congr_left
  intro k _
  simp

/-- The texts hashed for `Nonces(seed, *headers)[i]`: those of the internal seed, when there are headers, and the
one of the nonce itself. -/
def nonceTexts (E : Env) (s : Nat) (hs : List HArg) (i : Nat) : List (List Char) :=
  (if hs = [] then [] else hashTexts E (.elem s :: hs)) ++ hashTexts E [.elem (noncesSeed E s hs), .int i]

/-- C22 A nonce determines its index and the internal seed of its sequence, up to a collision among the texts
hashed for the two nonces. -/
theorem C22_nonce_determines (E : Env) (s s' : Nat) (hs hs' : List HArg) (i i' : Nat)
    (h : nonce E s hs i = nonce E s' hs' i') :
    (i = i' ∧ noncesSeed E s hs = noncesSeed E s' hs') ∨
      CollisionIn E (nonceTexts E s hs i ++ nonceTexts E s' hs' i') := by
  rcases hashElems_binding (by simp [sameKinds, sameKind]) h with h1 | h1
  · left
    simp only [List.cons.injEq, HArg.elem.injEq, HArg.int.injEq, Nat.cast_inj, and_true] at h1
    exact ⟨h1.2, h1.1⟩
  · right
    refine h1.mono ?_
    intro t ht
    simp only [nonceTexts, List.mem_append] at ht ⊢
    tauto

/-- C22 Sequences with headers (of the same types, without the separator): a common internal seed means the
same seed and the same headers, up to a hash collision. -/
theorem C22_headers_separate (E : Env) (s s' : Nat) (hs hs' : List HArg) (hne : hs ≠ []) (hne' : hs' ≠ [])
    (hk : sameKinds hs hs') (i i' : Nat) (h : nonce E s hs i = nonce E s' hs' i') :
    (i = i' ∧ s = s' ∧ hs = hs') ∨ CollisionIn E (nonceTexts E s hs i ++ nonceTexts E s' hs' i') := by
  rcases C22_nonce_determines E s s' hs hs' i i' h with ⟨h1, h2⟩ | h1
  · have e : noncesSeed E s hs = hashElems E (.elem s :: hs) := by
      simp [noncesSeed, List.length_pos_iff.2 hne]
    have e' : noncesSeed E s' hs' = hashElems E (.elem s' :: hs') := by
      simp [noncesSeed, List.length_pos_iff.2 hne']
    rw [e, e'] at h2
    rcases hashElems_binding (by simp [sameKinds, sameKind, hk]) h2 with h3 | h3
    · left
      simp only [List.cons.injEq, HArg.elem.injEq] at h3
      exact ⟨h1, h3.1, h3.2⟩
    · right
      refine h3.mono ?_
      intro t ht
      simp only [nonceTexts, if_neg hne, if_neg hne', List.mem_append] at ht ⊢
      tauto
  · exact .inr h1

/-- C22 Two sequences of the same seed, one without headers: sharing a nonce means that hashing the seed with
the headers gave back the seed itself, or a collision. -/
theorem C22_header_vs_none (E : Env) (s : Nat) (hs : List HArg) (hne : hs ≠ []) (i i' : Nat)
    (h : nonce E s [] i = nonce E s hs i') :
    (i = i' ∧ hashElems E (.elem s :: hs) = s) ∨
      CollisionIn E (nonceTexts E s [] i ++ nonceTexts E s hs i') := by
  rcases C22_nonce_determines E s s [] hs i i' h with ⟨h1, h2⟩ | h1
  · left
    refine ⟨h1, ?_⟩
    simpa [noncesSeed, List.length_pos_iff.2 hne] using h2.symm
  · exact .inr h1

example : nonceSlice toyEnv 5 [.str "h"] (some 1) (some 6) (some 2)
    = .ok [nonce toyEnv 5 [.str "h"] 1, nonce toyEnv 5 [.str "h"] 3, nonce toyEnv 5 [.str "h"] 5] := by
  decide +kernel

end EG
