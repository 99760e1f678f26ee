import Verif.Spec.ProofName

/-!
# C120: the names of proofs
-/

namespace EG

variable {word : Char → Bool}

theorem capital_letters : "ABCDEFGHIJKLMNOPQRSTUVWXYZ".toList = (List.range 26).map (fun i => Char.ofNat (65 + i)) := by decide

theorem capitalLetter_iff (c : Char) : capitalLetter c = decide (c ∈ "ABCDEFGHIJKLMNOPQRSTUVWXYZ".toList) := by
  rw [capital_letters]
  unfold capitalLetter
  rw [← Bool.decide_and]
  apply decide_eq_decide.2
  rw [List.mem_map]
  constructor
  · rintro ⟨h1, h2⟩
    have h1' : 65 ≤ c.toNat := h1
    have h2' : c.toNat ≤ 90 := h2
    refine ⟨c.toNat - 65, List.mem_range.2 (by omega), ?_⟩
    rw [show 65 + (c.toNat - 65) = c.toNat by omega]
    exact Char.ofNat_toNat c
  · rintro ⟨i, hi, rfl⟩
    have hi := List.mem_range.1 hi
    exact (by decide : ∀ i < 26, 'A' ≤ Char.ofNat (65 + i) ∧ Char.ofNat (65 + i) ≤ 'Z') i hi

theorem spaceBetween_cons (a b : Char) (s : List Char) : spaceBetweenCapitals word (a :: b :: s) =
    if word a && capitalLetter b then a :: ' ' :: b :: spaceBetweenCapitals word s else a :: spaceBetweenCapitals word (b :: s) := by
  rw [spaceBetweenCapitals]

theorem spacedAfter_cons (p : Bool) (c : Char) (s : List Char) : spacedAfter word p (c :: s) =
    (if p && capitalLetter c then [' ', c] else [c]) ++ spacedAfter word (word c) s := by
  rw [spacedAfter, capitalLetter_iff]

theorem space_word_length_le : ∀ s : List Char, ∀ p, (spaceBetweenCapitals word s).length ≤ (spacedAfter word p s).length
  | [], p => by simp [spaceBetweenCapitals, spacedAfter]
  | [a], p => by
    rw [spacedAfter_cons]
    cases h : (p && capitalLetter a) <;> simp [spaceBetweenCapitals, spacedAfter]
  | a :: b :: s, p => by
    have h1 := space_word_length_le s (word b)
    have h2 := space_word_length_le (b :: s) (word a)
    rw [spaceBetween_cons, spacedAfter_cons]
    cases h : (word a && capitalLetter b)
    · rw [if_neg (by simp)]
      cases (p && capitalLetter a) <;> simp <;> omega
    · rw [if_pos rfl, spacedAfter_cons, h]
      cases (p && capitalLetter a) <;> simp <;> omega

theorem adjacent_iff {s : List Char} : AdjacentCapitals word s ↔
    ∃ pre post : List Char, ∃ w a b : Char, s = pre ++ w :: a :: b :: post ∧ word w = true ∧ capitalLetter a = true ∧ capitalLetter b = true := by
  unfold AdjacentCapitals
  simp only [capitalLetter_iff, decide_eq_true_eq]

theorem adjacent_tail {a : Char} {s : List Char} (h : AdjacentCapitals word s) : AdjacentCapitals word (a :: s) := by
  obtain ⟨pre, post, w, x, y, rfl, h⟩ := h
  exact ⟨a :: pre, post, w, x, y, rfl, h⟩

/-- Where no space is missing at the front, the spaces are all there unless two capital letters follow one another inside a word. -/
theorem space_eq : ∀ s : List Char, ¬ AdjacentCapitals word s → ∀ p, (∀ c t, s = c :: t → (p && capitalLetter c) = false) →
    spaceBetweenCapitals word s = spacedAfter word p s
  | [], _, p, _ => by simp [spaceBetweenCapitals, spacedAfter]
  | [a], _, p, hp => by
    rw [spacedAfter_cons, hp a [] rfl]; simp [spaceBetweenCapitals, spacedAfter]
  | a :: b :: s, hn, p, hp => by
    rw [spaceBetween_cons, spacedAfter_cons, hp a _ rfl]
    cases h : (word a && capitalLetter b)
    · rw [if_neg (by simp), space_eq (b :: s) (fun h' => hn (adjacent_tail h')) (word a) (by
        intro c t he
        cases he
        exact h)]
      simp
    · rw [if_pos rfl, spacedAfter_cons, h]
      simp only [Bool.and_eq_true] at h
      rw [space_eq s (fun h' => hn (adjacent_tail (adjacent_tail h'))) (word b) (by
        rintro c t rfl
        cases hc : capitalLetter c
        · simp
        · exact absurd (adjacent_iff.2 ⟨[], t, a, b, c, rfl, h.1, h.2, hc⟩) hn)]
      simp

theorem spaced_true_lt {c : Char} {s : List Char} (hc : capitalLetter c = true) :
    (spaceBetweenCapitals word (c :: s)).length < (spacedAfter word true (c :: s)).length := by
  have h := space_word_length_le (word := word) (c :: s) false
  rw [spacedAfter_cons] at h ⊢
  rw [hc]
  simp at h ⊢
  omega

theorem space_lt (hw : ∀ c, capitalLetter c = true → word c = true) : ∀ s : List Char, AdjacentCapitals word s → ∀ p, (spaceBetweenCapitals word s).length < (spacedAfter word p s).length
  | [], h, _ => by
    obtain ⟨pre, post, w, x, y, he, -⟩ := h
    simp at he
  | [a], h, _ => by
    obtain ⟨pre, post, w, x, y, he, -⟩ := h
    have := congrArg List.length he
    simp at this
    omega
  | a :: b :: s, hadj, p => by
    rw [spaceBetween_cons, spacedAfter_cons]
    cases h : (word a && capitalLetter b)
    · rw [if_neg (by simp)]
      have hadj' : AdjacentCapitals word (b :: s) := by
        rw [adjacent_iff] at hadj ⊢
        obtain ⟨pre, post, w, x, y, he, h1, h2, h3⟩ := hadj
        cases pre with
        | nil =>
          simp only [List.nil_append, List.cons.injEq] at he
          obtain ⟨rfl, rfl, -⟩ := he
          rw [h1, h2] at h
          simp at h
        | cons z pre =>
          simp only [List.cons_append, List.cons.injEq] at he
          exact ⟨pre, post, w, x, y, he.2, h1, h2, h3⟩
      have := space_lt hw (b :: s) hadj' (word a)
      cases (p && capitalLetter a) <;> simp <;> omega
    · rw [if_pos rfl, spacedAfter_cons, h]
      have key : (spaceBetweenCapitals word s).length < (spacedAfter word (word b) s).length := by
        rw [adjacent_iff] at hadj
        obtain ⟨pre, post, w, x, y, he, h1, h2, h3⟩ := hadj
        match pre with
        | [] =>
          simp only [List.nil_append, List.cons.injEq] at he
          obtain ⟨rfl, rfl, rfl⟩ := he
          rw [hw _ h2]
          exact spaced_true_lt h3
        | [z] =>
          simp only [List.cons_append, List.nil_append, List.cons.injEq] at he
          obtain ⟨-, rfl, rfl⟩ := he
          rw [h1]
          exact spaced_true_lt h2
        | z :: z' :: pre =>
          simp only [List.cons_append, List.cons.injEq] at he
          exact space_lt hw s (adjacent_iff.2 ⟨pre, post, w, x, y, he.2.2, h1, h2, h3⟩) _
      cases (p && capitalLetter a) <;> simp <;> omega

/-- C120 A space stands before every capital letter inside a word, and nowhere else, exactly when no capital letter inside a word is followed by another.
Partial: the text says that spaces go between capital letters, and "ABC" shows that they do not always (`C120_adjacent_fails`). -/
theorem C120_spaces_partial (hw : ∀ c ∈ "ABCDEFGHIJKLMNOPQRSTUVWXYZ".toList, word c = true) (name : String) :
    (proofName word name).toList = spacedAfter word false name.toList ↔ ¬ AdjacentCapitals word name.toList := by
  have hw' : ∀ c, capitalLetter c = true → word c = true := fun c hc => by
    rw [capitalLetter_iff, decide_eq_true_eq] at hc
    exact hw c hc
  unfold proofName
  rw [String.toList_ofList]
  constructor
  · intro h hadj
    have := space_lt hw' _ hadj false
    rw [h] at this
    exact Nat.lt_irrefl _ this
  · intro h
    exact space_eq _ h false (fun _ _ _ => rfl)

/-- C120 The finding: of capital letters that follow one another, only every other one gets a space. -/
theorem C120_adjacent_fails (hw : ∀ c ∈ "ABCDEFGHIJKLMNOPQRSTUVWXYZ".toList, word c = true) :
    proofName word "ABCProof" = "A BC Proof" ∧ (proofName word "ABCProof").toList ≠ spacedAfter word false "ABCProof".toList := by
  have hA := hw 'A' (by decide)
  have hB := hw 'B' (by decide)
  have hC := hw 'C' (by decide)
  have hP := hw 'P' (by decide)
  have h : proofName word "ABCProof" = "A BC Proof" := by
    have hc : capitalLetter 'B' = true ∧ capitalLetter 'C' = true ∧ capitalLetter 'P' = true ∧ capitalLetter 'r' = false ∧ capitalLetter 'o' = false ∧
        capitalLetter 'f' = false := by decide
    unfold proofName
    rw [show "ABCProof".toList = ['A', 'B', 'C', 'P', 'r', 'o', 'o', 'f'] by decide]
    simp only [spaceBetweenCapitals, hA, hC, hc.1, hc.2.1, hc.2.2.1, hc.2.2.2.1, hc.2.2.2.2.1, hc.2.2.2.2.2, Bool.and_true, Bool.and_false, if_true,
      Bool.false_eq_true, if_false]
  refine ⟨h, ?_⟩
  intro he
  refine (C120_spaces_partial hw "ABCProof").1 he ⟨[], "Proof".toList, 'A', 'B', 'C', by decide, hA, by decide, by decide⟩

theorem space_filter : ∀ s : List Char, (spaceBetweenCapitals word s).filter (· ≠ ' ') = s.filter (· ≠ ' ')
  | [] => rfl
  | [a] => rfl
  | a :: b :: s => by
    have h1 := space_filter s
    have h2 := space_filter (b :: s)
    rw [spaceBetween_cons]
    cases (word a && capitalLetter b)
    · rw [if_neg (by simp), List.filter_cons, h2, List.filter_cons (xs := b :: s)]
    · rw [if_pos rfl, List.filter_cons, List.filter_cons, List.filter_cons, h1, List.filter_cons (xs := b :: s), List.filter_cons (xs := s)]
      simp

/-- C120 Nothing but spaces is added, whatever the text: without its spaces it is the text that was given. -/
theorem C120_letters (name : String) : (proofName word name).toList.filter (· ≠ ' ') = name.toList.filter (· ≠ ' ') := by
  unfold proofName
  rw [String.toList_ofList]
  exact space_filter _

/-- C120 Two proofs carry the same name exactly when their classes do: no name of a class has a space. -/
theorem C120_same_name (a b : String) (ha : ' ' ∉ a.toList) (hb : ' ' ∉ b.toList) : proofName word a = proofName word b ↔ a = b := by
  refine ⟨fun h => ?_, fun h => h ▸ rfl⟩
  have hf : ∀ s : String, ' ' ∉ s.toList → s.toList.filter (· ≠ ' ') = s.toList := fun s hs => by
    rw [List.filter_eq_self]
    intro c hc
    simp only [ne_eq, decide_not, Bool.not_eq_eq_eq_not, Bool.not_true, decide_eq_false_iff_not]
    exact fun he => hs (he ▸ hc)
  have h' := C120_letters (word := word) a
  rw [h, C120_letters, hf _ ha, hf _ hb] at h'
  exact String.toList_inj.1 h'.symm

/-- The word characters of the names in use: letters, digits and the underscore. -/
def asciiWord (c : Char) : Bool := c.isAlphanum || c == '_'

/-- A name as the proofs have it: the spaces are where they should be. -/
example : proofName asciiWord "DisjunctiveChaumPedersenProof" = "Disjunctive Chaum Pedersen Proof" ∧
    (∀ c ∈ "ABCDEFGHIJKLMNOPQRSTUVWXYZ".toList, asciiWord c = true) ∧
    proofName asciiWord "SchnorrProof" ≠ proofName asciiWord "ChaumPedersenProof" := by
  refine ⟨by decide +kernel, by decide, ?_⟩
  rw [ne_eq, C120_same_name _ _ (by decide) (by decide)]
  decide

example : ¬ AdjacentCapitals asciiWord "SchnorrProof".toList :=
  (C120_spaces_partial (by decide) _).1 (by decide +kernel)

end EG
