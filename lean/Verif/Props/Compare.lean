import Verif.Model.Compare
import Verif.Lemmas.Hex

/-!
# C98 Comparing, hashing and looking up elements
-/

namespace EG

/-- The integer that an element or an `int` stands for. -/
def PyVal.number? : PyVal → Option Int
  | .elem v | .int v => some v
  | _ => none

/-- The value is the `mpz` of gmpy2. -/
def PyVal.IsMpz : PyVal → Prop
  | .mpz _ => True
  | _ => False

/-- C98 All six operators on elements and ints, in either order and of any class, compare the numbers, and never raise. -/
theorem C98_compare (op : CmpOp) {a b : PyVal} {v w : Int} (ha : a.number? = some v) (hb : b.number? = some w) :
    pyCompare op a b = .ok (match op with
      | .lt => decide (v < w) | .le => decide (v ≤ w) | .eq => decide (v = w) | .ne => decide (v ≠ w)
      | .gt => decide (v > w) | .ge => decide (v ≥ w)) := by
  cases a <;> simp [PyVal.number?] at ha <;> cases b <;> simp [PyVal.number?] at hb <;> subst ha <;> subst hb <;>
    cases op <;> simp only [pyCompare, bigCmp, CmpOp.reflect, bigEq, bigNe, bigLt, bigLe, bigGt, bigGe, numCmp] <;>
    refine congrArg Except.ok ?_ <;> rw [Bool.eq_iff_iff] <;> simp <;> omega

/-- C98 Equality with anything never raises, and `!=` is its negation. -/
theorem C98_negation (a b : PyVal) :
    pyCompare .eq a b = .ok (pyEq a b) ∧ pyCompare .ne a b = .ok (!pyEq a b) := by
  cases a <;> cases b <;>
    simp [pyEq, pyCompare, bigCmp, CmpOp.reflect, bigEq, bigNe, numCmp, strCmp, bne]

/-- C98 Equality is reflexive and symmetric on all values. -/
theorem C98_symmetric (a b : PyVal) : pyEq a a = true ∧ pyEq a b = pyEq b a := by
  constructor
  · cases a <;> simp [pyEq, pyCompare, bigCmp, bigEq, numCmp, strCmp]
  · cases a <;> cases b <;> simp [pyEq, pyCompare, bigCmp, CmpOp.reflect, bigEq, numCmp, strCmp, Bool.beq_comm, eq_comm]

/-- C98 Equality is transitive on all values except the `mpz` inside an element. -/
theorem C98_transitive_partial {a b c : PyVal} (ha : ¬ a.IsMpz) (hb : ¬ b.IsMpz) (hc : ¬ c.IsMpz) (h1 : pyEq a b = true)
    (h2 : pyEq b c = true) : pyEq a c = true := by
  cases a <;> cases b <;> cases c <;>
    simp_all [pyEq, pyCompare, bigCmp, CmpOp.reflect, bigEq, numCmp, strCmp, PyVal.IsMpz]

/-- C98 Values that are equal have equal hashes, whatever the hash functions are. -/
theorem C98_hash (H : Hashing) {a b : PyVal} (h : pyEq a b = true) : pyHash H a = pyHash H b := by
  cases a <;> cases b <;>
    simp_all [pyEq, pyCompare, bigCmp, CmpOp.reflect, bigEq, numCmp, strCmp, pyHash]

/-- C98 The negation of "`==` is an equivalence": an element equals the int of its value, the int equals the `mpz`, and the
element does not equal its own `.value`. -/
theorem C98_mpz_fails (v : Int) :
    pyEq (.elem v) (.int v) = true ∧ pyEq (.int v) (.mpz v) = true ∧ pyEq (.elem v) (.mpz v) = false ∧
      pyEq (.mpz v) (.elem v) = false := by
  simp [pyEq, pyCompare, bigCmp, CmpOp.reflect, bigEq, numCmp]

/-- C98 The negation of "`a <= b` or `a > b`, or an exception": an element compared with a value that is neither an element
nor an int — its own text, its own `.value` or `None` — answers False to all of `<`, `<=`, `==`, `>` and `>=`, on either
side, and never raises. -/
theorem C98_order_fails (v : Int) {o : PyVal} (ho : o.number? = none) (op : CmpOp) :
    pyCompare op (.elem v) o = .ok (decide (op = .ne)) ∧ pyCompare op o (.elem v) = .ok (decide (op = .ne)) := by
  cases o <;> simp [PyVal.number?] at ho <;> cases op <;>
    simp [pyCompare, bigCmp, CmpOp.reflect, bigEq, bigNe, bigLt, bigLe, bigGt, bigGe]

/-- C98 On elements and ints exactly one of `<`, `==`, `>` holds, `<=` is the negation of `>` and `>=` that of `<`. -/
theorem C98_total_partial {a b : PyVal} {v w : Int} (ha : a.number? = some v) (hb : b.number? = some w) :
    ∃ l e g : Bool, pyCompare .lt a b = .ok l ∧ pyCompare .eq a b = .ok e ∧ pyCompare .gt a b = .ok g ∧
      pyCompare .le a b = .ok (!g) ∧ pyCompare .ge a b = .ok (!l) ∧
      ((l = true ∧ e = false ∧ g = false) ∨ (l = false ∧ e = true ∧ g = false) ∨ (l = false ∧ e = false ∧ g = true)) := by
  refine ⟨_, _, _, C98_compare .lt ha hb, C98_compare .eq ha hb, C98_compare .gt ha hb, ?_, ?_, ?_⟩
  · rw [C98_compare .le ha hb]; simp [← decide_not]
  · rw [C98_compare .ge ha hb]; simp [← decide_not]
  · rcases lt_trichotomy v w with h | h | h
    · left; simp; omega
    · right; left; simp; omega
    · right; right; simp; omega

/-- C98 Two elements that hold no negative number are equal exactly when they have the same text. -/
theorem C98_text (m n : Nat) : pyEq (.elem m) (.elem n) = true ↔ toHex m = toHex n := by
  constructor
  · intro h
    simp [pyEq, pyCompare, bigCmp, bigEq] at h
    rw [h]
  · intro h; rw [toHex_inj h]; exact (C98_symmetric _ (.int 0)).1

/-- C98 A lookup of an element or int in a dict finds the first entry whose key has the same number, whatever the hash
functions and the other keys are, provided that no key is an `mpz`. -/
theorem C98_dict {α : Type} (H : Hashing) (d : List (PyVal × α)) (hd : ∀ e ∈ d, ¬ e.1.IsMpz) {k : PyVal} {v : Int}
    (hk : k.number? = some v) :
    pyLookup H d k = (d.find? (fun e => decide (e.1.number? = some v))).map (·.2) := by
  unfold pyLookup
  congr 1
  induction d with
  | nil => rfl
  | cons e d ih =>
    have he : (pyHash H e.1 == pyHash H k && pyEq e.1 k) = decide (e.1.number? = some v) := by
      have h1 := hd e (by simp)
      rw [Bool.eq_iff_iff]
      rcases e with ⟨a, x⟩
      cases k <;> simp [PyVal.number?] at hk <;> subst hk <;> cases a <;>
        simp [pyEq, pyCompare, bigCmp, CmpOp.reflect, bigEq, numCmp, pyHash, PyVal.number?, PyVal.IsMpz] at h1 ⊢ <;>
        first | (intro h; rw [h]) | (constructor <;> intro h <;> simp_all)
    rw [List.find?_cons, List.find?_cons, he, ih (fun x hx => hd x (List.mem_cons_of_mem _ hx))]

/-- C98 A key kept as text is never found with the element, even when the text is that of the element. -/
theorem C98_dict_text_fails {α : Type} (H : Hashing) (d : List (PyVal × α)) (hd : ∀ e ∈ d, ∃ s, e.1 = .str s) (v : Int) :
    pyLookup H d (.elem v) = none := by
  unfold pyLookup
  rw [Option.map_eq_none_iff, List.find?_eq_none]
  intro e he
  obtain ⟨s, hs⟩ := hd e he
  simp [hs, pyEq, pyCompare, bigCmp, CmpOp.reflect, bigEq]

theorem pyInsert_perm (x : PyVal) (ys : List PyVal) : (pyInsert x ys).Perm (x :: ys) := by
  induction ys with
  | nil => exact List.Perm.refl _
  | cons y ys ih =>
    unfold pyInsert
    split
    · exact (List.Perm.cons y ih).trans (List.Perm.swap x y ys)
    · exact List.Perm.refl _

theorem pyInsert_sorted {x : PyVal} {v : Int} (hx : x.number? = some v) {ys : List PyVal}
    (hn : ∀ y ∈ ys, ∃ w, y.number? = some w)
    (hs : ys.Pairwise (fun a b => ∀ i j, a.number? = some i → b.number? = some j → i ≤ j)) :
    (pyInsert x ys).Pairwise (fun a b => ∀ i j, a.number? = some i → b.number? = some j → i ≤ j) := by
  induction ys with
  | nil => simp [pyInsert]
  | cons y ys ih =>
    obtain ⟨w, hw⟩ := hn y (by simp)
    have hys := List.pairwise_cons.1 hs
    have hcmp := C98_compare .lt hw hx
    unfold pyInsert
    split
    · next h =>
      rw [hcmp] at h
      simp at h
      refine List.pairwise_cons.2 ⟨?_, ih (fun z hz => hn z (List.mem_cons_of_mem _ hz)) hys.2⟩
      intro b hb i j hi hj
      rcases List.mem_cons.1 ((pyInsert_perm x ys).mem_iff.1 hb) with rfl | hb
      · rw [hw] at hi; rw [hx] at hj; cases hi; cases hj; omega
      · exact hys.1 b hb i j hi hj
    · next h =>
      rw [hcmp] at h
      have hle : v ≤ w := by
        by_contra hc
        exact h (by simp; omega)
      refine List.pairwise_cons.2 ⟨?_, hs⟩
      intro b hb i j hi hj
      rw [hx] at hi; cases hi
      rcases List.mem_cons.1 hb with rfl | hb
      · rw [hw] at hj; cases hj; exact hle
      · exact le_trans hle (hys.1 b hb w j hw hj)

/-- C98 Sorting elements and ints keeps every entry and puts them in the order of their numbers. -/
theorem C98_sorted {xs : List PyVal} (hn : ∀ x ∈ xs, ∃ v, x.number? = some v) :
    (pySorted xs).Perm xs ∧
      (pySorted xs).Pairwise (fun a b => ∀ i j, a.number? = some i → b.number? = some j → i ≤ j) := by
  induction xs with
  | nil => exact ⟨List.Perm.refl _, List.Pairwise.nil⟩
  | cons x xs ih =>
    obtain ⟨hp, hs⟩ := ih (fun y hy => hn y (List.mem_cons_of_mem _ hy))
    obtain ⟨v, hv⟩ := hn x (by simp)
    refine ⟨(pyInsert_perm x _).trans (List.Perm.cons x hp), pyInsert_sorted hv ?_ hs⟩
    intro y hy
    exact hn y (List.mem_cons_of_mem _ (hp.mem_iff.1 hy))

/-- A dict keyed by an element and by an int. -/
def toyKeyed : List (PyVal × String) := [(.elem 12, "a"), (.int 300, "b"), (.str "0C", "c")]

/-- Any hash functions. -/
def toyHashing : Hashing := ⟨fun i => i % 7, fun s => s.length, fun i => i⟩

example : pyLookup toyHashing toyKeyed (.elem 300) = some "b" ∧ pyLookup toyHashing toyKeyed (.int 12) = some "a" ∧
    pyLookup toyHashing toyKeyed (.str "0C") = some "c" ∧ pyLookup toyHashing toyKeyed (.mpz 12) = none := by
  decide +kernel

example : pySorted [.elem 256, .int 16, .elem 17, .int (-1)] = [.int (-1), .int 16, .elem 17, .elem 256] := by
  decide +kernel

example : pyCompare .le (.elem 5) (.str "05") = .ok false ∧ pyCompare .gt (.elem 5) (.str "05") = .ok false ∧
    pyCompare .lt (.int 5) (.str "05") = .error .type := by decide +kernel

end EG
