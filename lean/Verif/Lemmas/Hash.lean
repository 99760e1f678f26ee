import Verif.Lemmas.Hex
import Verif.Spec.Hash

/-!
# Helper lemmas: the text that is hashed
-/

namespace EG

theorem IsUpperHex.ne_bar {c : Char} (h : IsUpperHex c) : c ≠ '|' := by
  obtain ⟨d, hd, rfl⟩ := h
  revert d; decide

theorem toHex_noBar (n : Nat) : '|' ∉ toHex n := fun h => (toHex_chars n _ h).ne_bar rfl

theorem decInt_noBar (i : Int) : '|' ∉ decInt i := by
  intro h
  rcases decInt_chars i _ h with h | h
  · exact absurd h (by decide)
  · exact h.ne_bar rfl

theorem null_ne_toHex (n : Nat) : "null".toList ≠ toHex n := by
  intro h
  have : 'n' ∈ toHex n := by rw [← h]; decide
  obtain ⟨d, hd, he⟩ := toHex_chars n _ this
  exact absurd he.symm ((by decide : ∀ d < 16, hexChar d ≠ 'n') d hd)

theorem tok_noBar (E : Env) (a : HArg) (h : noBar a) : '|' ∉ tok E a := by
  cases a with
  | elem n => rw [tok]; exact toHex_noBar n
  | obj n => rw [tok]; exact toHex_noBar n
  | str s => rw [tok]; simpa [noBar] using h
  | int i => rw [tok]; exact decInt_noBar i
  | none => rw [tok]; decide
  | list l =>
    cases l with
    | nil => rw [tok]; decide
    | cons x xs => rw [tok]; exact toHex_noBar _

theorem split_bar {a b r r' : List Char} (ha : '|' ∉ a) (hb : '|' ∉ b)
    (h : a ++ '|' :: r = b ++ '|' :: r') : a = b ∧ r = r' := by
  induction a generalizing b with
  | nil =>
    cases b with
    | nil => simpa using h
    | cons y b => simp at h; rw [← h.1] at hb; simp at hb
  | cons x a ih =>
    cases b with
    | nil => simp at h; rw [h.1] at ha; simp at ha
    | cons y b =>
      simp only [List.cons_append, List.cons.injEq] at h
      have := ih (fun hh => ha (by simp [hh])) (fun hh => hb (by simp [hh])) h.2
      rw [h.1, this.1]; exact ⟨rfl, this.2⟩

theorem encs_inj (E : Env) (l l' : List HArg) (hl : ∀ a ∈ l, noBar a) (hl' : ∀ a ∈ l', noBar a)
    (h : encs E l = encs E l') : l.map (tok E) = l'.map (tok E) := by
  induction l generalizing l' with
  | nil =>
    cases l' with
    | nil => rfl
    | cons b l' => rw [encs, encs] at h; simp at h
  | cons a l ih =>
    cases l' with
    | nil => rw [encs, encs] at h; simp at h
    | cons b l' =>
      rw [encs, encs] at h
      obtain ⟨h1, h2⟩ := split_bar (tok_noBar E a (hl a (by simp))) (tok_noBar E b (hl' b (by simp))) h
      rw [List.map_cons, List.map_cons, h1,
        ih l' (fun x hx => hl x (by simp [hx])) (fun x hx => hl' x (by simp [hx])) h2]

theorem sameKind_noBar {a b : HArg} (h : sameKind a b) : noBar a ∧ noBar b := by
  cases a <;> cases b <;> simp_all [sameKind, noBar]

theorem sameKinds_noBar {l l' : List HArg} (h : sameKinds l l') :
    (∀ a ∈ l, noBar a) ∧ (∀ b ∈ l', noBar b) := by
  induction l generalizing l' with
  | nil =>
    induction l' with
    | nil => simp
    | cons b l' ih =>
      rw [sameKinds] at h
      exact ⟨by simp, by
        intro x hx
        rcases List.mem_cons.1 hx with rfl | hx
        · exact h.1
        · exact (ih h.2).2 x hx⟩
  | cons a l ih =>
    cases l' with
    | nil =>
      rw [sameKinds] at h
      exact ⟨by
        intro x hx
        rcases List.mem_cons.1 hx with rfl | hx
        · exact h.1
        · exact (ih h.2).1 x hx, by simp⟩
    | cons b l' =>
      rw [sameKinds] at h
      have h1 := sameKind_noBar h.1
      have h2 := ih h.2
      exact ⟨by
        intro x hx
        rcases List.mem_cons.1 hx with rfl | hx
        · exact h1.1
        · exact h2.1 x hx, by
        intro x hx
        rcases List.mem_cons.1 hx with rfl | hx
        · exact h1.2
        · exact h2.2 x hx⟩

/-- The hash function has no collision on the texts in `T`. -/
def Distinct (E : Env) (T : List Char → Prop) : Prop :=
  ∀ t t', T t → T t' → E.sha t % E.P.q = E.sha t' % E.P.q → t = t'

theorem distinct_of {E : Env} {T : List (List Char)} (h : ¬ CollisionIn E T) : Distinct E (· ∈ T) := by
  intro t t' ht ht' he
  by_contra hne
  exact h ⟨t, ht, t', ht', hne, he⟩

theorem CollisionIn.mono {E : Env} {T T' : List (List Char)} (h : CollisionIn E T) (hs : ∀ t ∈ T, t ∈ T') :
    CollisionIn E T' := by
  obtain ⟨t, ht, t', ht', h⟩ := h
  exact ⟨t, hs t ht, t', hs t' ht', h⟩

/-- No collision on the texts in `T` unless `T` (a list of texts) contains one. -/
theorem or_collision {E : Env} {p : Prop} (T : List (List Char)) (h : Distinct E (· ∈ T) → p) :
    p ∨ CollisionIn E T := by
  by_cases hE : CollisionIn E T
  · exact .inr hE
  · exact .inl (h (distinct_of hE))

mutual
theorem tok_binding {E : Env} {T : List Char → Prop} (hE : Distinct E T) : (a b : HArg) → sameKind a b →
    (∀ t ∈ argTexts E a, T t) → (∀ t ∈ argTexts E b, T t) → tok E a = tok E b → a = b
  | .elem m, b, hk, _, _, h => by
    cases b <;> simp only [sameKind] at hk
    rw [tok, tok] at h; rw [toHex_inj h]
  | .obj m, b, hk, _, _, h => by
    cases b <;> simp only [sameKind] at hk
    rw [tok, tok] at h; rw [toHex_inj h]
  | .str s, b, hk, _, _, h => by
    cases b <;> simp only [sameKind] at hk
    rw [tok, tok] at h; rw [String.toList_inj.1 h]
  | .int i, b, hk, _, _, h => by
    cases b <;> simp only [sameKind] at hk
    rw [tok, tok] at h; rw [decInt_inj h]
  | .none, b, hk, _, _, h => by
    cases b <;> simp only [sameKind] at hk
    rfl
  | .list [], b, hk, _, _, h => by
    cases b with
    | list l' =>
      cases l' with
      | nil => rfl
      | cons y ys => rw [tok, tok] at h; exact absurd h (null_ne_toHex _)
    | _ => simp only [sameKind] at hk
  | .list (x :: xs), b, hk, ha, hb, h => by
    cases b with
    | list l' =>
      cases l' with
      | nil => rw [tok, tok] at h; exact absurd h.symm (null_ne_toHex _)
      | cons y ys =>
        rw [tok, tok] at h
        rw [sameKind] at hk
        rw [argTexts] at ha hb
        have h1 := hE _ _ (ha _ (by simp)) (hb _ (by simp)) (toHex_inj h)
        have hn := sameKinds_noBar hk
        rw [toks_binding hE (x :: xs) (y :: ys) hk (fun t ht => ha t (by simp [ht])) (fun t ht => hb t (by simp [ht]))
          (encs_inj E _ _ hn.1 hn.2 (List.cons.inj h1).2)]
    | _ => simp only [sameKind] at hk

theorem toks_binding {E : Env} {T : List Char → Prop} (hE : Distinct E T) : (l l' : List HArg) → sameKinds l l' →
    (∀ t ∈ argsTexts E l, T t) → (∀ t ∈ argsTexts E l', T t) → l.map (tok E) = l'.map (tok E) → l = l'
  | [], l', _, _, _, h => by
    cases l' with
    | nil => rfl
    | cons => simp at h
  | a :: l, l', hk, ha, hb, h => by
    cases l' with
    | nil => simp at h
    | cons b l' =>
      rw [sameKinds] at hk
      rw [argsTexts] at ha hb
      simp only [List.map_cons, List.cons.injEq] at h
      rw [tok_binding hE a b hk.1 (fun t ht => ha t (by simp [ht])) (fun t ht => hb t (by simp [ht])) h.1,
        toks_binding hE l l' hk.2 (fun t ht => ha t (by simp [ht])) (fun t ht => hb t (by simp [ht])) h.2]
end

theorem hash_inj {E : Env} {T : List Char → Prop} (hE : Distinct E T) {l l' : List HArg} (hk : sameKinds l l')
    (hl : ∀ t ∈ hashTexts E l, T t) (hl' : ∀ t ∈ hashTexts E l', T t)
    (h : hashElems E l = hashElems E l') : l = l' := by
  have h1 := hE _ _ (hl _ (by simp [hashTexts])) (hl' _ (by simp [hashTexts])) h
  have hb := sameKinds_noBar hk
  exact toks_binding hE l l' hk (fun t ht => hl t (by simp [hashTexts, ht]))
    (fun t ht => hl' t (by simp [hashTexts, ht])) (encs_inj E _ _ hb.1 hb.2 (List.cons.inj h1).2)

theorem hashElems_binding {E : Env} {l l' : List HArg} (hk : sameKinds l l')
    (h : hashElems E l = hashElems E l') : l = l' ∨ CollisionIn E (hashTexts E l ++ hashTexts E l') :=
  or_collision _ fun hE => hash_inj hE hk (fun t ht => by simp [ht]) (fun t ht => by simp [ht]) h

end EG
